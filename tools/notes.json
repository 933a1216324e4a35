{
 "C07": {
  "note": "Binary32 round to nearest even on rationals (Verif/Float/F32.lean). 1 to 23 bits; C07_wide_finding shows 24 bits overflow.",
  "status": "proved"
 },
 "C08": {
  "note": "Binary32 rounding; 1 to 23 bits.",
  "status": "proved"
 },
 "C10": {
  "note": "Binary32 rounding. The exception in the statement is C10_nearest_tie_finding.",
  "status": "proved"
 },
 "C11": {
  "note": "Binary32 rounding; findings: floor at the end of a loop, sample counts above 2^24.",
  "status": "proved"
 },
 "C12": {
  "note": "Binary32 rounding; findings: overflow of the duration, sample counts above 2^24.",
  "status": "proved"
 },
 "C13": {
  "note": "type table round trip, walks of decompress_tracks and counts of decompress_track, any number of tracks",
  "status": "proved"
 },
 "C14": {
  "note": "Values are terms: the writer default, the constant loaded, or the two samples and how they are combined. Any track count, any classes.",
  "status": "proved"
 },
 "C15": {
  "note": "Equal events when rounding is not per track; with per track rounding the two paths combine the same samples under the same policy, by different formulas (slot of four versus rounded alpha). decompress_track does not ask the writer's skip functions. See C11 for the nearest policy.",
  "status": "proved"
 },
 "C20": {
  "note": "The pose is what the decompression model reads: the tracks, the two key frames, the factor, bulk pointers and rounding; C14-C16 and C08 turn these into values. Findings (C20_streaming_finding, C20_policy_finding): seek at the same time and rounding returns early although tiers were streamed or the policy changed.",
  "status": "proved"
 },
 "C21": {
  "note": "Float product proportion*frames and the threshold comparison are abstract; the sum of the saved bits is assumed < 2^32.",
  "status": "proved"
 },
 "C22": {
  "note": "Model: Verif/Database/Tiers.lean (legacy clip versions not modelled; float product proportion*frames uninterpreted; std::sort = any sorted permutation).",
  "status": "proved"
 },
 "C23": {
  "note": "Model: Verif/Database/Chunks.lean. Headers are records, sample data is bytes written with memcpy_bits; sizes are naturals. That every segment fits in a chunk with its padding and header is a hypothesis: the code asserts it.",
  "status": "proved"
 },
 "C25": {
  "note": "False in general: C25_refuted (stream out one of 4 loaded chunks, then stream_in reports done) and C25_stream_out_reads_unloaded (undefined behaviour). Proved: exact condition for done after any history, and the full property for histories that only stream out whole tiers, with progress.",
  "status": "partial"
 },
 "C29": {
  "note": "Every accessor but get_name is proved for every combination of settings. get_name: C29_name_partial holds when track names are also requested or neither is; C29_name_finding shows get_name (compressed_tracks.impl.h) tests the track-name offset and so loses the list name when only the list name was requested.",
  "status": "partial"
 },
 "C30": {
  "note": "Model: Verif/Layout/Metadata.lean, byte-level write_track_names and get_track_name, including the metadata header offsets; also follows the output-index mapping.",
  "status": "proved"
 },
 "C31": {
  "note": "Model: Verif/Raw/TrackArray.lean. C31_valid_outputs shows the check of the output indices is exact (iff).",
  "status": "proved"
 },
 "C32": {
  "note": "Transform clips: the whole buffer is written as bytes in the model (writes fail out of bounds) and read back through the offsets stored in it. C32_sections: order, no overlap, alignment, all inside the reported size; C32_contents: what each section holds; C32_no_overrun: no write is out of bounds. Scalar clips: C35.",
  "status": "proved"
 },
 "C33": {
  "note": "Model: Verif/Raw/TrackArray.lean; the blends of RTM are arbitrary functions.",
  "status": "proved"
 },
 "C34": {
  "note": "Any buffer, any writer. Values are terms over loaded bits; decompress_track does not ask skip_track.",
  "status": "proved"
 },
 "C35": {
  "note": "Compressor (write_track_data_impl.h, compress.scalar.impl.h layout) to both decompression paths; quantized samples are integers; animated bits below 2^32 (the code checks it).",
  "status": "proved"
 },
 "C36": {
  "note": "Model: Verif/Database/Buffer.lean, byte level. Pointer alignment of the input is assumed; memcpy with a null pointer and size 0 is taken as a no-op. Sizes are naturals, buffers below 4 GB.",
  "status": "proved"
 },
 "C37": {
  "note": "Binary32 lerp as in quatf.h (RTM's own scalar_lerp/vector_lerp are not in the repository and are taken to be the same formula), with and without fused multiply-add; slack is max(|s|,|e|)/2^21 + 2^-146. C37_equal_samples_finding: two equal samples can blend to a different float without fused multiply-add.",
  "status": "proved"
 },
 "C38": {
  "note": "Binary32 arithmetic: clip range and segment range extraction, both normalizations, packing and the decoder's two multiply-adds (Verif/Transform/RangeReduction.lean), one component at a time; clip extent at least 1e-9 in C38_error, C38_degenerate below it.",
  "status": "proved"
 },
 "C39": {
  "note": "Binary32. C39_wide_extent_finding shows the extent alone does not make the range stay in [0,1].",
  "status": "proved"
 },
 "C40": {
  "note": "Findings: contains only checks the offset against the end, so foreign tracks of hash 0 can be said to be contained (C40_foreign_finding); with a database of no clips the bound wraps and the read is out of bounds (C40_empty_finding). compressed_database::contains is in C47.",
  "status": "proved"
 },
 "C41": {
  "note": "Model: Verif/Core/LoopOptimize.lean (scalar and transform loop optimization, the error metric is an arbitrary function), Verif/Core/Interpolation.lean; 'equals sampling at time 0' holds up to the weight n/2^23 + 2^-21 without rounding and exactly with nearest (C11_floor_at_end_finding for floor).",
  "status": "proved"
 },
 "C42": {
  "note": "Samples are terms over the loaded bits (raw value, segment range, clip range); the masked lanes of the group reader compute v*1+0, which may differ from v in the sign of a zero. Bit offsets are naturals.",
  "status": "proved"
 },
 "C45": {
  "note": "Both tables, the predicates, the format byte of transform clips and the scalar decoder.",
  "status": "proved"
 },
 "C47": {
  "note": "Model: Verif/Database/Buffer.lean, byte level. The chunk descriptions, clip metadata and bulk data are arbitrary inputs (C23 is about them); header fields are stored in one step; sizes are naturals, buffers below 4 GB.",
  "status": "proved"
 },
 "C48": {
  "note": "Scalar pipeline from raw samples to decoder values, in binary32 (Verif/Scalar/Quantize.lean). Samples finite and below 2^120, precision non-negative; upper lanes loaded by rtm::vector_load1 are a parameter at most the precision; the compressor and the decoder have the same fused multiply-add.",
  "status": "proved"
 },
 "C49": {
  "note": "From the quantized streams to the events of the decoder through every byte of the buffer: the writers of compress.transform (ClipWriter, AnimatedWriter, Layout/Clip) composed with seek, the caches and the readers (C14, C15, C16, C18, C19, C32). Legal clips are described by ClipOk: components fit in their bits, segments split with slack (C18), the data of a segment below 2^32 bits, the buffer below 4 GB, no sub-track constant in a segment when there is one segment. Values are exact (the raw sample and its ranges); their float arithmetic is C38/C39/C43. Without a database.",
  "status": "proved"
 },
 "C50": {
  "note": "Context state machine + float time + bytes: initialize, set_looping_policy, seek, then the frames the decompression functions read. Specification in Props/C50.lean: position, following, Nearest, Blend. Time clamping enabled in the settings; single precision rounded to nearest even (Float/F32.lean).",
  "status": "proved"
 },
 "C51": {
  "note": "Any output of the metadata writer (scalar and transform) is valid; accessors and durations for transform clips; databases built, split and stripped. Pointers are assumed aligned to 16 bytes, which allocators guarantee (not modelled).",
  "status": "proved"
 },
 "C52": {
  "note": "Composes C22, C23, C27, C36, C40, C43, C47 and C49 at the level of bytes: the input clips are buffers written by the model of the compressor, the outputs and the database are buffers read by the model of the decoder. The hypothesis InputOk.order is what C43 proves of the contributing error. Sizes below 4 GB are hypotheses (the code does not check them); the proportions are given as frame counts (the float product is not modelled). Only clips of the current version; the segment_index finding of older versions is not covered.",
  "status": "proved"
 },
 "C53": {
  "note": "Equality with the accessors of the input clip; C29 and C51 give their values. get_name keeps its finding (C29_name_finding): the value is the same, wrong or not. Conjunct SameAccessors was also added to C52_round_trip, with the same placement of key frames.",
  "status": "proved"
 },
 "C54": {
  "note": "Any database as C52 builds it, any history. C54_samples: decode agrees with what is loaded and not being streamed out; C54_total/C54_asserts: no call fails; C54_requests: byte ranges given to streamers; C54_split: from clips through build_database and split; C54_honest_streamer: Honors can be met; C54_loads_again: finding. One decoder step reads one snapshot of the context; a decoder that races with the update of the runtime headers: C56.",
  "status": "proved"
 },
 "C55": {
  "note": "RawClip is the clip after looping optimization, rotation conversion and constant detection. All legal bit rates are quantified over (the search is not modelled). Rotations are bounded per component x, y, z at key frames; the reconstructed W and the normalized interpolation are not bounded here. The error bound excludes samples beyond 1e10 (normalize.transform.h starts ranges at 1e10).",
  "status": "proved"
 },
 "C56": {
  "note": "Any database as C52 builds it, any history followed by any history without a stream_out call. C56_decompress_while_streaming_in: every metadata word loaded at its own moment (also twice for the two key frames), then pointers, then bytes, all at any moments of the trace; C56_split: from clips; C56_stale_pointer_finding: the order metadata-before-pointer is needed and the relaxed atomics do not provide it. Moments are sequentially consistent interleavings of single stores; weak memory beyond that is not modelled. Decompression during stream_out is out of scope (the documentation forbids it).",
  "status": "proved"
 },
 "C57": {
  "note": "C57_split: from clips, through build_database, split_database_bulk_data, any history of the streaming API; C57_inline: bulk data inline, every frame is used; C57_accuracy: the blend is at the time up to float rounding. Sample rate finite and positive, at most 2^23-4 samples (float index is exact), clamped times (clamp_sample_time). Sizes below 2^32 as in C52.",
  "status": "proved"
 },
 "C58": {
  "note": "C58_sample_at_time: every policy, against the frames of the compressed list; C58_accuracy: as_compressed, against the raw list at the same time. Clamped times, at most 2^23-4 samples, finite positive sample rate, buffer below 4 GB, at least one output track. Precision above the first lane (quantize.scalar.h:89 loads one lane) is the parameter upper, at most the precision.",
  "status": "proved"
 },
 "C59": {
  "note": "Ordered hierarchies for the positive theorems (bone after its parent), which is_valid does not require: the three findings show what happens otherwise. Fewer than 2^32 tracks (level: 2^32-32).",
  "status": "proved"
 },
 "C60": {
  "note": "Errors are rational (no NaN) and the metric non negative. raw and lossy are arbitrary functions of the sample time; that they are the sampled values is the subject of C33 and C50/C58.",
  "status": "proved"
 },
 "C61": {
  "note": "Distances are in a linear order (no NaN); the distance of a shell moved by a local transform is a parameter, monotone for C61_encloses (true of the Euclidean length of a vertex moved by a transform only up to the three vertices the code uses). C61_precision_finding proves that a bone's own precision is lost when a child dominates.",
  "status": "proved"
 },
 "C62": {
  "note": "Errors are in a linear order (a NaN error is below no threshold and would be accepted as not too high by the scan; excluded). Arrays of bit rates are functions of the bone. C62_gives_up_finding and the exception in C62_increments are findings.",
  "status": "proved"
 },
 "C63": {
  "note": "Errors are in a linear order (a NaN error is not greater than the precision, so the code accepts it; excluded). quat_from_positive_w with normalization, the metric and the base key are parameters. C63_total needs exact arithmetic in the triangle inequality and a default rotation that survives dropping W. C63_total_finding and C63_zero_finding are findings.",
  "status": "proved"
 },
 "C64": {
  "note": "decay is proved equal to unpacking what is packed, for every float. Rotations are compared before the reconstruction of W and normalization, which both sides apply with the same function (drop W formats). Multiply-add fused or not is a parameter shared by compressor and decoder. Key frames: clips of up to 2^21 samples and a finite duration.",
  "status": "proved"
 },
 "C65": {
  "note": "Error metric is a parameter on decoded poses (its object space error over the whole skeleton; any linear order). C65_precision needs the monotonicity of the metric (C62.Monotone) and full quaternions; drop W formats are covered by C65_error. Key frame stripping, databases and the error correction of constants are outside. The cache of sampled bit rates is proved transparent in C66.",
  "status": "proved"
 },
 "C66": {
  "note": "Samples and the functions of sample_streams.h are parameters, instantiated with the streams of C65 in C66_object and C66_local. Offsets are Nat (memory of the cache below 2^32 bytes, unchecked by the code). A sub-track has a bit rate in all queries of a segment or in none, which the search guarantees (Allowed). C66_fifo_finding and C66_stale_query_finding are findings, the latter about an unused way of calling.",
  "status": "proved"
 },
 "C67": {
  "note": "Exact real arithmetic; RTM functions (quaternion product, rotation of a vector, matrix product with a point) are not in /repo and modelled from their documentation. C67_two_points_finding and C67_mirror_finding are findings: what the metric cannot see. matrix_from_qvv and the products of local_to_object_space are not part of this (the latter: C60).",
  "status": "proved"
 },
 "C68": {
  "note": "Exact real arithmetic; RTM functions modelled from their documentation (qvv_mul for scales that are not negative; qvv_inverse from memory, hence the relative format for uniform base scales only).",
  "status": "proved"
 },
 "C69": {
  "note": "Composition of C50 and C55: same models and assumptions (clamping of times enabled, at most 2^23 - 4 samples, finite values). Rotations are interpolated as quaternions and normalized, which is not modelled in float arithmetic: only translations and scales here.",
  "status": "proved"
 },
 "C70": {
  "note": "Error metric, rigid shells and normalization of RTM are arbitrary functions; an error is a value of a linear order (a NaN error, which the code accepts, is outside of it). C70_library_laws: the metric of the library satisfies the laws used. C70_total_finding: the actions together can exceed the precision. C70_additive_loop_finding: for additive clips the looping test compares different samples of the base, so the last sample can be replaced by one that is arbitrarily far.",
  "status": "proved"
 },
 "C71": {
  "note": "The full statement is false for the code. C71_first_sample_finding: the maximum of the samples starts with the last one and the loop at index 1 (pre_process.scalar.h:89-97), so the first sample is missed: a track d, 0, 0 is found constant and becomes d, d, d whatever d and the precision. C71_moved_partial and C71_idempotent_partial hold when the first sample is not above all the others in any component; what is missing is the general case. C71_result, C71_constant and C71_looping hold without that condition.",
  "status": "partial"
 },
 "C72": {
  "note": "Transform tracks only; scalar tracks are not modelled. Zero signs and NaN are outside the float model. C72_looping_finding: the looping policy (and one interval of duration) is lost by the conversion.",
  "status": "proved"
 },
 "C73": {
  "note": "C73_clip composes the decoding theorems with compressed clips (components in [-1,1], quantization error at most 1/2). Findings: policy never halves the squared length; the group and single track dot products can disagree on the sign and give orthogonal rotations; quat_from_positive_w4 is not always normalized.",
  "status": "proved"
 },
 "C74": {
  "note": "Raw track lists survive write_track_list / read_raw_track_list bit for bit (C74_round_trip, C74_hex, C74_names); every accepted file gives a uniform list and stays inside the counted array (C74_accepted, C74_in_bounds). The sjson library is modelled by its values (keys in order), names without escapes; the decimal text of the sample rate is assumed to give the rate back. The legacy clip format reader is not modelled. Findings: fourth lanes of translations and scales hold the rotation's W, a non finite transform makes the file unreadable with no error set, negative precisions become the default, empty lists are refused, the looping policy is not stored, names are matched by prefix, unsupported type names assert.",
  "status": "proved"
 },
 "C75": {
  "note": "Histories of every length. Obligations of the client (Client) are explicit; the findings show which of them the library does not document: get_copy of strided references, stride zero, use of moved-from tracks.",
  "status": "proved"
 },
 "C76": {
  "note": "All histories of calls, both shipped streamers in any mix; asserts of the streamers always on. A stream_out that meets C25's defect (a block with holes) is the only way a call can fail.",
  "status": "proved"
 },
 "C77": {
  "note": "Conversion of compressed scalar tracks to raw tracks; within the precision, exact at precision 0; looping finding",
  "status": "proved"
 },
 "C78": {
  "note": "C78_universal holds for histories in which relocated is never called with tracks of the other kind; C78_relocated_scalar_finding and C78_relocated_transform_finding say exactly when such a call is (wrongly) accepted with 64 bit pointers. Sample times are clamped or not negative.",
  "status": "proved"
 },
 "C79": {
  "note": "Exact arithmetic. local_to_object_space is proved for uniform scales (rtm::qvv_mul itself is not exact for others); object_to_local_space for rigid transforms, with the exact criterion when it is right; C79_order_finding and C79_in_place_finding show where it is wrong.",
  "status": "proved"
 },
 "C80": {
  "note": "All programs over string variables; allocations succeed, sizes are not limited to 64 bits. C80_nul_finding: text with an embedded NUL (asserted against in debug builds).",
  "status": "proved"
 },
 "C81": {
  "note": "Every bit pattern of the floats. C81_empty_tiers_refused, C81_presets (default settings with database support) and C81_hash_not_unique are findings. An error metric is represented by its hash.",
  "status": "proved"
 },
 "C82": {
  "note": "What depends on sample values (constant sub-tracks, looping, quantized sizes) is an arbitrary choice; type sizes are parameters. C82_wrong_size, C82_every_segment, C82_not_finite_leaks and C82_default_full are findings. The bit rate database and its queries are not modelled.",
  "status": "proved"
 },
 "C83": {
  "note": "C83_older_null_read and C83_older_leak are findings. Failing allocations are not modelled.",
  "status": "proved"
 },
 "C84": {
  "note": "C84_forgets, C84_stale and C84_collision are findings. Failing allocations are not modelled.",
  "status": "proved"
 },
 "C85": {
  "note": "C85_additive1 and C85_scale_lost are findings. quat_is_normalized and quat_near_identity are parameters; default values are finite, which validity requires.",
  "status": "proved"
 },
 "C86": {
  "note": "C86_wide_finding: widths of 24 and more overflow. The 128 and 96 bit formats (raw floats) are in C06/C13; the square root is any with 22 bits.",
  "status": "proved"
 },
 "C87": {
  "note": "Statistics (compiled out by default) and failing allocations are not modelled.",
  "status": "proved"
 },
 "C88": {
  "note": "NaN and infinite times are not modelled; how a list is sampled at that time is not repeated here.",
  "status": "proved"
 },
 "C89": {
  "note": "Failing allocations, and a receiving list that uses another allocator, are not modelled.",
  "status": "proved"
 },
 "C90": {
  "note": "The Windows branch has no arithmetic of its own. The count is an unbounded integer (int32_t in the code) and calls are in one order.",
  "status": "proved"
 },
 "C91": {
  "note": "Assertions on null pointers are not modelled.",
  "status": "proved"
 }
}