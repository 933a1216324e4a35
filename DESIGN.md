# Formal model of nfrechette/acl in Lean 4 — design

## Trusted base

* Lean 4.33.0 kernel. Every theorem listed in MANIFEST.json depends only on the
  standard axioms `propext`, `Classical.choice`, `Quot.sound` (checked with `#print axioms`).
  No axiom is added, no compiled decision procedure is used.
* The hand-made correspondence between the C++ text under /repo/includes/acl and the
  Lean definitions under lean/Verif/. Every definition cites file and lines. The code is
  never run here; the only tie is reading.
* The external dependency `rtm` (Realtime Math) is absent from /repo. Where it is needed
  (`scalar_floor`, `scalar_round_symmetric`, `scalar_lerp`, `vector_*` lane-wise
  arithmetic, `vector_mask_*`, SOA swizzles) it is modelled from its documented meaning; each place says so.

## What is modelled, what is not

Modelled: integer/bit utilities, bit sets, hashing, scalar and vector packing
(binary32 rounding on rationals), time/interpolation, header words and offsets,
sub-track type tables, constant and animated stream layout (writer and reader),
segmenting, seeking (segment search, stripped key frames, database tiers),
decompression context caching, key frame stripping, contributing error ordering,
database building (tier assignment, chunks), database streaming state machine and
streamer request ids, scalar track lists, track arrays and output mapping, metadata,
rigid shells, the bit rate search and its cache, sub-track compaction, error metrics
and additive formats (exact arithmetic).

Not modelled: SIMD instruction selection (lanes are modelled as plain sequences),
NaN/infinity except where stated, floating point exception masks, threads (the
database is documented as externally synchronised; the asynchronous completion is
modelled as an interleaved operation, and as a transition system with a loading
thread in C52), allocators, the SJSON lexer (C74 works on SJSON values). The error metrics and additive
formats are modelled in exact real arithmetic only (C67, C68); the bit rate search
takes the metric as a parameter (C60 to C66).

Undefined behaviour of C++ (out of range shift, out of bounds access, null deref)
is a distinct outcome of the model (`none`/`Outcome.ub`) wherever the property
depends on its absence.

## Float model

`Verif/Float/F32.lean`: binary32 round-to-nearest-even `rnd` as a function on `ℚ`
(gradual underflow included; no signed zero; overflow excluded: theorems bound their
values, or the operation returns `FInf.inf` where the code relies on infinity, as in
the durations). A float operation is `rnd` of the exact result; a fused
multiply-add is a single `rnd`. `IsFloat x` says that `x` is representable.
Functions of RTM (not in the repository) are modelled by their documented formula;
these are named in the comment of the definition.

## Method per property

(see the table below; updated as the work proceeds)

| id | model | proof |
|----|-------|-------|
| C01 | portable paths of bit_manip_utils on BitVec | SWAR step lemmas over bytes, lifted |
| C02 | bit set as List (BitVec 32), ops with bounds check | refinement to a predicate on ℕ, induction over op list |
| C03 | align_to on Nat with bitwise masks | arithmetic, least multiple |
| C04 | byte_swap on BitVec | per-bit extensionality |
| C05 | memcpy_bits loop on list of bytes | loop invariant on bit function |
| C06 | FNV-1a fold | odd multiplication is injective mod 2^w |
| C07, C08 | pack/unpack with binary32 rounding | error analysis of the rounding function |
| C09 | writers via memcpy_bits, readers via 32/64 bit big endian loads | bit function extensionality |
| C10–C12 | interpolation/time utils with binary32 rounding | error analysis |
| C13–C16 | writers/readers of the tables, decompression loops | induction over groups |
| C17, C18 | splitting and segment search | arithmetic of quotient/remainder |
| C19, C27 | mask search on BitVec 32 | bit extensionality |
| C20 | Context/Model: decompression_context as a state machine over a changing world | invariant over op lists; exact condition of the early return, negation witnesses |
| C21, C43 | greedy removal and merge | permutation and ordering invariants |
| C22, C23 | tier assignment, chunk layout | induction over clips/segments |
| C24–C26 | streaming state machine | invariants over op lists, negation witnesses |
| C28–C32 | header words, metadata, layout | bit extensionality, arithmetic |
| C33–C35 | track arrays, scalar lists | induction over tracks |
| C36, C47 | database buffers at byte level (build, split, merge, strip) | layout arithmetic, region lemmas |
| C37 | RTM lerp with and without fused multiply-add | exactness at 0 and 1, error analysis |
| C38, C39 | range reduction of clip and segment, quantization chain | error analysis over `rnd` |
| C48 | scalar passes from raw samples to the quantized list, values of the decoder | invariant of the bit rate search, composed with C35 and C07 |
| C49 | the whole transform buffer: sections, segment headers, streams, then open and seek on the bytes | sections are disjoint (C32), bit stream lemmas, composition with C14, C15, C16, C18, C19 |
| C50 | initialize, set_looping_policy and seek on the bytes of a compressed transform clip, with the float arithmetic of the time | composition of C10, C11, C12, C19, C20 and C49; the float sums and differences are exact below 2^23 |
| C51 | accessors, is_valid and make_compressed_tracks on the bytes of compressed clips and databases | the buffers have the shape of Layout/MetadataReads.lean and Database/BufferLemmas.lean; composition with C06, C32, C36, C47 |
| C52 | build_database as a whole (Database/Build.lean): the checks, what it reads of each clip, tiers, new clips byte by byte (Rewrite.lean), chunks with their headers (Runtime.lean), the database buffer; the runtime headers of a context after any history; seek through them (RoundTrip.lean, RewriteOpen.lean) | BuildTiers composes C22 (tiers), rewrite_ok (bytes of a new clip), C23 (chunks); BuildServe relates a database to its chunks through C36/C47; history_ok is an invariant on the runtime headers by induction on the history; InDb.seek composes C27 with the bits of each key frame; C49.reads_of gives the poses |
| C53 | the metadata part of build_compressed_tracks (Rewrite.lean: sectionSizes, writeMetadata) and the accessors (Layout/Metadata.lean, Layout/Accessors.lean) | RewriteApi: the new buffer satisfies the same reading invariant (C29.Case) as a compressed clip, with the sections moved; the accessor lemmas of C29 are stated over that invariant; the flags by C28; the number of stripped frames by counting the frames of the high tier against the partition of C22 |
| C54 | Database/StreamContext.lean: `DbState` (bookkeeping of Streaming.lean + runtime headers + memory of the streamers), `dbStep` (a call of the API, or a streamer writing its memory), `sentOf` (the byte range a streamer is given), asserts compiled in or not | Spec: `Ledger`/`Promise`/`Honors` (what a streamer must do, from the requests it was sent only), `usable`, `Samples`. Invariant `Core` over `dbRun`: refinement relation of C24 + the chunk events so far are `Legal` and load exactly the usable chunks + bytes of usable chunks are in memory; then `Decodes` of C52. Finding `C54_loads_again`: after a partial stream_out a stream_in can request chunks that are still loaded (assert in debug, harmless in release) |
| C55 | Transform/Quantize.lean: `RawClip.quantize`: clip ranges, clip normalization, segment ranges (8 bit), segment normalization, packing at the bit rate of each sub-track and segment, into the `ClipSource` of C49; `evalSample`: unpacking and range expansion of the decoder in exact float arithmetic (F32) | `quantize_ok`: the quantized clip is one C49 accepts (ranges ordered, quantized values fit), so `C55_compresses`/`C55_decoded` go through the bytes by C49; error bounds `segment_error` and `clip_error` by composing the rounding lemmas of C38/C39 over the two ranges. Rotations: bound on x, y, z at key frames; W reconstruction and the normalized lerp are not bounded. The bit rate search is not modelled: all legal bit rates are quantified over |
| C56 | Database/Concurrent.lean: `chunkMoments`/`eventMoments` (the runtime headers after each store of a request that completes); StreamContext.lean: `Shared`, `moments`, `trace` (what another thread sees of a context during a history: headers, bulk data pointers, memory); RoundTrip.lean: `seekWhile` (every metadata word loaded from its own headers, for each of the two key frames), Seek.lean: `seekLoads` | Spec (TimelineSpec.lean, BuildSpec.lean): `Fetched`, `OnlyIn`, `NearBefore`/`NearAfter`, `SamplesWhile`. Invariant `Timeline`: chunks registered at each moment grow, each moment is a `Moment` (whole chunks plus one half registered) and every registered chunk is in memory; `Made.decodesWhile` decodes from words loaded at different moments. Finding `C56_stale_pointer_finding`: with the pointer read before the metadata the decoder reads from a null pointer; the relaxed atomics allow it |
| C57 | Context/Database.lean: `databaseOf` (what a context reads of a database), `poseDbContext`; with Context/Model.lean (contains, initialize, set_looping_policy, seek) on the bytes of the clips of build_database and the runtime headers after any history of C54 | C50's time part generalised (`C50.at_time`: any set of frames that are kept, any database), `DbBuild.Knows` (the runtime headers keep the hash of every clip), composition with C52/C54 |
| C58 | Scalar/Buffer.lean: compress_scalar_track_list whole (loop optimization, quantization, scalar header, tracks header, metadata, size and hash: bytes), `openBuffer`, `tracksOf` (what the decoder and a context read of the bytes), `contextOf`; with Context/Model.lean (time) | `Scalar.opened`: the header words read back are the offsets of the writer; composition of C29 (layout), C35, C48 (precision), C41 (loop optimization), C50's time part |
| C59 | Transform/Hierarchy.lean: leaf bit set, transform chains (construction, `bone_chain` iteration over bit sets), `sort_transform_indices_parent_first`, `local_to_object_space` over a list of dirty bones, `find_best_compression_level`; multiplication is a parameter, std::sort an insertion sort (the order is total) | specification in HierarchySpec.lean (`RootPath`, `ObjectOf`, `Before`); invariant over the leaves visited, ascending paths of ordered hierarchies; findings: `C59_late_parent_finding` (all hierarchies), `C59_unordered_finding`, `C59_cycle_finding` (no number of steps is enough) |
| C60 | Raw/TrackError.lean: `calculate_scalar_track_error`, `calculate_transform_track_error` with conversion, additive base, remapping of outputs, rounding policy; the samplers and the metric are parameters | fold invariant `Search` (first of the largest so far); object poses by C59, output mapping by C31 |
| C61 | Transform/RigidShell.lean: the shell loop of `compute_clip_shell_distances` / `compute_segment_shell_distances`; the distance of a moved shell is a parameter | invariant over the visited bones (leaves first, by C59's order); enclosure by induction on the path up, with the distance monotone in the shell |
| C62 | Transform/BitRateSearch.lean: `find_optimal_bit_rates` and everything it calls except the metric, which is a parameter; the permutation tables as their generator defines them (checked against the header by tools/check_tables.py, not by the kernel); `std::next_permutation` by its specification | local phase: loop invariant over the table sorted by size; object phase: every step only raises rates, the room left in a chain is the termination measure; `Settled` per bone, carried to the end by monotonicity |
| C63 | Transform/Compact.lean: `are_samples_constant`, the six constant/default tests, `compact_constant_streams`, clip ranges of the four lanes; metric, additive base and `quat_from_positive_w` as parameters; the disabled error correction is not modelled | the test loop is the universal statement; three stages per bone with a frame condition; triangle inequality for the sum; min = max of the range means all equal |
| C64 | Transform/SampleStreams.lean: `decay_vector3_uXX`, segment and clip range undone as `sample_streams` does, `get_uniform_sample_key`, sample times; the compressor's lossy `decay` is modelled as its own float computation, not as pack-then-unpack | the decay equals unpack of pack for every float and bit count (rounding lemma); the decoded sample of C55 equals the measured one lane by lane; error bound of time × rate for the key |
| C65 | Transform/Compressor.lean: the whole pipeline: search per segment (C62) with the measured samples (C64), ratings put into the raw clip, quantization and writing (C49/C55) | composition: search result is legal → `RawOk` → C64; C62_precision transported to the decoded pose |
| C66 | Transform/RateCache.lean: the whole of track_bit_rate_database.h (slots, generations, flat bit sets and sample memory, three query classes, set_segment) with the samplers as parameters; adaptive clients; Transform/RateCacheClip.lean: the two error measurements of the search as clients | invariant: a valid bit of a slot in use means the stored sample is the fresh one; injectivity of the flat layout; induction over the run of a client; first segment is the largest (split_cases) |
| C67 | Transform/ErrorMetric.lean: the three sampled points, calculate_error and calculate_error_no_scale of qvvf_transform_error_metric, calculate_error of the matrix metric, over ℝ (no rounding); RTM products from their documentation | displacement is affine in the point: convexity between the measured points, √3 bound in the ball; for rotations the displacement is 2·|u × p| with u the vector part of the relative quaternion (norm is multiplicative), hence √2; explicit witnesses that both factors are attained and for the two findings |
| C68 | Transform/ErrorMetric.lean: additive_utils.h (transform_add0/1/no_scale, apply_additive_to_base(_no_scale), convert_to_*), default scale bit of the header, over ℝ | algebra of quaternions and scales, case by case on the format |
| C69 | composition of C50 (seek at a time through the bytes) and C55 (quantization), Core/PolylineSpec.lean: the polyline through the kept frames, closed up for looping clips, at the exact position `clamp(t * rate)` | rounding a position never crosses a frame (integers below 2^24 are floats), so the computed and the exact position lie in the same interval of the polyline, also where the rounded duration clamps the time; factor and position errors times the spread of the component; uniqueness of the polyline |
| C70 | Raw/PreProcess.lean: pre_process_track_list on transform tracks: every action, the looping test, the error returns; the metric with its conversion and additive base, the shells and the normalization are arbitrary functions | each sanitizing step replaces one sub-track or nothing and is within the precision; composition with the triangle inequality; characterization of the errors by cases; laws of the metric of the library from C67; two findings |
| C71 | Raw/PreProcess.lean: the scalar actions, over the numbers the floats denote, with rounded differences and four lanes | extrema of folds, monotonicity of rounding; the first sample is missing from the maximum: finding, and `_partial` theorems under the condition that makes it harmless |
| C72 | Context/Convert.lean: convert_track_list for transforms: validity, metadata, one context seeked to every sample, the debug writer with its defaults; the numbers of what it holds (lerp, reconstructed W, abstract sqrt and normalization) | the time of sample i times the rate rounds within 3/8 of i, so the nearest policy picks i; an invariant over re-seeking the same context; C49/C50 for the frames, C29 for the metadata; lerp at 0 and 1 is exact for every rounded number; finding: looping is lost |
| C73 | Transform/Rotation.lean: quat_normalize4, quat_lerp_no_normalization (SSE2, SSE4 and group orders), the normalization policies, group and single track decoding of a rotation from two key frames, constant rotations | forward error analysis on rationals with `rnd`: relative error of a sum of squares, square root law (22 bits, shown to be satisfiable), Cauchy-Schwarz for the blend, the bias keeps the dot product above -2^-15; linked to compressed clips with C50, C55, C69. RTM's quat_lerp / quat_normalize are the group functions with any dot product that is a few roundings away |
| C74 | Io/ClipText: write_track_list and clip_reader::read_raw_track_list function by function over SJSON values (the SJSON library is not in the repository: keys and values in written order, unterminated string views, decimal printing of the sample rate left open), `%X` and strtoul on characters | write then read computed for every list by induction over digits, samples and tracks; inversion of the reader for every file (uniform lists, two passes agree); findings: stale fourth lane, refused non finite transforms without an error, replaced negative precisions, empty lists, lost looping policy, prefix names |
| C75 | Raw/TrackMemory: memory as blocks of bytes with their allocator, the five ways to make a track, copies, references, moves, destructor, reading and writing samples; allocation always succeeds with a new block, sizes are unbounded, names, types and rates are left out; track_array's own array is not modelled | State invariant (owners have their own live block of the right allocator and size, holding all their samples; every allocator block is owned once or held by the client; new blocks are unknown) kept by every operation, induction over histories for isolation; three defects as theorems over all sizes |
| C76 | Database/Streamers.lean: `react` (null_database_streamer, debug_database_streamer: asserts, allocation, memcpy, memset), `userStep` (a call of the user: the context of C54, the streamer, `complete` before the call returns), `libInit`; one streamer per tier, its request array of 1 or 2. Not modelled: alignment asserts, the allocator (allocation always succeeds), `bind`/`reset` of a streamer | Spec: `UserSpec`/`UserHistory` (chunks loaded after each call), `Sees`, `Samples` of C54. Invariant `LibInv` over `userRun`: Core of C54 with nothing in flight, bulk pointer iff a chunk is loaded, bytes to keep lie in loaded chunks (ranges of requests are exactly the bytes of their chunks, `sent_chunks`), exact contents of the copies. The obligations `Promise` that C54 puts on streamers are proved, not assumed |
| C77 | Context/ConvertScalar.lean: convert_track_list for scalar tracks: validity, type, metadata, one context seeked to every sample, the debug writer | C58 for what a fresh context reads, an invariant over re-seeking the same context, the time of sample i lands on frame i (C72), interpolation at 0 and 1 is exact (C48), C29 for the metadata; two floats whose difference rounds to 0 are equal; finding: the end of a loop is lost |
| C78 | Context/Universal.lean: the union of the two persistent contexts as memory with two views (what is written to a member is read back from it, the tracks pointer is shared, the rest of the other view is arbitrary), every dispatch of decompression.universal.h, the version selector. Two functions that do not compile when instantiated are modelled as meant | Spec: `Typed`/`typedStep`, a scalar or a transform context replaced by a new one of the other kind when that is initialized. Simulation over all histories; contexts that were bound but not seeked since may differ in what an earlier seek left. Findings: exactly when relocated accepts tracks of the other kind, with the 64 bit field offsets |
| C79 | Transform/PoseUtils.lean: both functions over a memory of transforms with two buffer addresses (so in place and disjoint buffers are cases of one model), exact arithmetic, RTM functions as in C67/C68 | Spec: `Chain` (bones up to the root), `mulPoint`. Loop invariant over memory, strong induction over bones, rigid transforms form a group; findings: wrong multiplication order (exact criterion: commuting), in-place use of object_to_local_space |
| C80 | Raw/StringMemory.lean: every constructor, assignment, get_copy, destructor and observer of `string` over a heap of blocks; deallocating with another allocator or size than allocated is undefined behaviour. Not modelled: failing allocations, asserts | Spec: `specStep`, strings as values in variables. Invariant over all programs: each non-empty string owns one block with its text and a NUL, no block is shared, none is without owner; finding: embedded NUL |
| C81 | Settings/Model.lean: the settings structures with floats as bit patterns, is_valid, is_enabled, get_hash and the presets. Error metrics are their hash | Spec: intervals on the rational values of the bits. Case analysis of the checks; `ofBits`/`rnd` rounding bounds for the sum; injectivity of the hash steps for one changed byte; findings by kernel evaluation of a collision |
| C82 | Memory/{Heap,Compress}.lean: a sized allocator; every allocation and release of compress_transform_track_list, its contexts, streams, segmenting and quantization. What depends on sample values is an arbitrary choice, sizes of types are parameters. Not modelled: the bit rate database and its queries, statistics, failing allocations | Separation logic in Heap.lean (`Own`, `OwnW`, `OwnX`: frame, bind, loops), one triple per phase (Proofs.lean); wrong frees are collected, not undefined behaviour; findings follow from the exact footprint |
| C83 | Memory/BuildDatabase.lean: the checks of build_database, what the constructor and destructor of the assignment context allocate and keep for each version, and every other block; the assignment of frames is that of C22. The bytes of the buffers are those of C47 and C53, here a size. | case analysis of the checks; ownership logic of C82; totality of the assignment from C22; findings: older clips are read through null, or leak |
| C84 | Memory/DbLifecycle.lean: calculate_runtime_data_size and the pointers into the buffer on words, and both initialize, both relocated, reset, is_bound_to over databases in memory that can change and any number of allocators. What is written in the buffer is that of C40; streaming is that of C24-C26. | arithmetic on words; invariant over histories against a specification that only tracks what is bound; findings as theorems |
| C85 | Settings/Tracks.lean: the checks of tracks and descriptions on bit patterns; has_trivial_default_values and the detection of scale on rational default values. rtm::quat_is_normalized and quat_near_identity are parameters (RTM is not in the repository). | case analysis; induction over the loop; findings as theorems |
| C86 | Math/FixedFormats.lean: the packing functions of a fixed size, on buffers of bytes and rational floats with the rounding of binary32. SSE2 variants; RTM functions as their documentation. | from the error and round trip of a scalar (C07, C08); bit arithmetic of the joined integer for any widths; C73 for w |
| C87 | Memory/CompressScalar.lean: allocations, moves and destructors of scalar compression on the heap of Memory/Heap.lean. What depends on values (finite, looping) is given. | separation style triples (Own), composed; induction over tracks |
| C88 | Transform/AdditiveTimes.lean: the sample time and nearest index of the additive base on the floats of Core/Float32. 0 / 0 is none. | monotonicity and error bound of rounding; exactness at both ends |
| C89 | Memory/MeasureConvert.lean: allocations and destructors of calculate_compression_error and of convert_track_list (compressed to raw), with names. | separation style triples (Own); induction over tracks |
| C90 | Memory/AnsiAllocator.lean: ansi_allocator on 64 bit words and byte memory (Android branch), its counters and table of allocations. malloc and free are given. | align_to of C03, store/load of the padding; invariant over histories |
| C91 | Io/Names.lean: the tests of each function in their order, and the names, by value of the enumeration. | first match is the longest match when names come before those they start with (general lemma over tables, for all strings); the order of each table by evaluation |
| C40 | Context/Model, Context/DbContext: binding guards, runtime headers as bytes | invariant over op lists and over streaming writes; findings for foreign tracks and the empty database |
| C41 | loop optimization and looping policies | case analysis, sample equality |
| C42, C44–C46 | animated groups, sub-track types, bit rate tables | induction over groups |
