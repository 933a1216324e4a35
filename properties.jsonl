{"id": "C01", "title": "Bit counting and scanning primitives are exact", "statement": "count_set_bits returns the number of one bits, count_leading_zeros the number of zero bits above the highest one bit (32 for zero), count_trailing_zeros the number of zero bits below the lowest one bit (32 for zero); the portable (non-intrinsic) code paths compute exactly these values, and and_not keeps exactly the bits of its second argument that are absent from its first.", "quantifier": "every 8, 16, 32 and 64 bit value", "why_tests_cant": "There are 2^32 and 2^64 inputs; unit tests sample a handful of patterns.", "anchors": ["includes/acl/core/bit_manip_utils.h: count_set_bits, count_leading_zeros, count_trailing_zeros, and_not, rotate_bits_left"]}
{"id": "C02", "title": "A bit set behaves as a set of indices", "statement": "After any sequence of bitset_reset, bitset_set, bitset_set_range and bitset_and_not on a bit set, bitset_test(i) is true exactly when i is a member of the abstract set obtained by performing the same operations on a set of integers, bitset_count_set_bits is its cardinality, and no word outside the bit set is read or written.", "quantifier": "every bit set size, every initial content, every operation sequence of any length, every index", "why_tests_cant": "Histories are unbounded and interactions cross word boundaries.", "anchors": ["includes/acl/core/bitset.h: bitset_description, bitset_reset, bitset_set, bitset_set_range, bitset_test, bitset_count_set_bits, bitset_and_not"]}
{"id": "C03", "title": "Alignment arithmetic is exact", "statement": "align_to(v, a) for a power of two a returns the least multiple of a that is not below v (so it is idempotent, monotone and never adds a or more), is_aligned_to is true exactly for multiples of a, and is_power_of_two is exact.", "quantifier": "every value that does not overflow the address space and every power of two alignment", "why_tests_cant": "Unbounded numeric domain.", "anchors": ["includes/acl/core/memory_utils.h: align_to, is_aligned_to, is_power_of_two, get_required_padding"]}
{"id": "C04", "title": "Byte swapping reverses bytes", "statement": "byte_swap of a 16, 32 or 64 bit value reverses the order of its bytes, and is its own inverse.", "quantifier": "every 16, 32 and 64 bit value", "why_tests_cant": "2^64 inputs.", "anchors": ["includes/acl/core/memory_utils.h: byte_swap"]}
{"id": "C05", "title": "memcpy_bits copies exactly the requested bits", "statement": "memcpy_bits(dest, dOff, src, sOff, n) sets bit dOff+k of dest to bit sOff+k of src for every k < n (big endian bit numbering), and leaves every other bit of dest unchanged; it touches no byte outside the two bit ranges.", "quantifier": "every buffer content, every pair of offsets and every length", "why_tests_cant": "Offsets, lengths and contents are unbounded and the loop handles partial bytes on either side.", "anchors": ["includes/acl/core/memory_utils.h: memcpy_bits"]}
{"id": "C06", "title": "The buffer hash is incremental and detects any corrupted byte", "statement": "Hashing a buffer in one call equals hashing its pieces in order; two buffers of the same length that differ in exactly one byte never have the same hash, so a compressed buffer with one corrupted byte fails is_valid(true).", "quantifier": "every buffer, every split, every position and replacement byte", "why_tests_cant": "Unbounded buffers, 2^32 hash states.", "anchors": ["includes/acl/core/hash.h: fnv1a_impl::update, hash32, hash64", "includes/acl/core/impl/compressed_tracks.impl.h: is_valid", "includes/acl/core/impl/compressed_database.impl.h: is_valid"]}
{"id": "C07", "title": "Unsigned scalar quantization is bounded, monotone and stable", "statement": "For n bits, pack_scalar_unsigned of any value in [0,1] fits in n bits; unpack_scalar_unsigned of any n bit value is in [0,1], maps 0 to 0 and the maximum to 1; both are monotone; unpacking then packing again gives the same integer; the reconstruction error is at most half a quantization step plus the floating point slack.", "quantifier": "every float in [0,1], every bit width from 1 to 23 (the widths used by the library; 24 fails, see the finding), every packed integer", "why_tests_cant": "The domain is every float and every integer up to 2^23; the arithmetic is binary32 with rounding.", "anchors": ["includes/acl/math/scalar_packing.h: pack_scalar_unsigned, unpack_scalar_unsigned"]}
{"id": "C08", "title": "Signed scalar quantization is bounded and stable", "statement": "For n bits, pack_scalar_signed of any value in [-1,1] fits in n bits, unpack_scalar_signed returns values in [-1,1], and unpacking then packing again gives the same integer.", "quantifier": "every float in [-1,1], every bit width from 1 to 23, every packed integer", "why_tests_cant": "Same as C07.", "anchors": ["includes/acl/math/scalar_packing.h: pack_scalar_signed, unpack_scalar_signed"]}
{"id": "C09", "title": "Variable bit rate vectors survive packing at any bit offset", "statement": "Three n bit components written by the compressor at any bit offset of the animated stream are read back unchanged by the decompressor reading at the same bit offset, whatever the neighbouring bits are; the decoder reads no more than the guaranteed padding past the last sample; a width of zero bits is never decoded this way (it is undefined behaviour).", "quantifier": "every bit rate, every bit offset, every component value, every surrounding content", "why_tests_cant": "Width, offset and content combinations are unbounded; the readers use 32 and 64 bit unaligned loads with shifts.", "anchors": ["includes/acl/math/vector4_packing.h: pack_vector3_uXX_unsafe, unpack_vector3_uXX_unsafe, pack_vector3_96, unpack_vector3_96_unsafe", "includes/acl/math/scalar_packing.h: unpack_scalarf_uXX_unsafe", "includes/acl/core/memory_utils.h: memcpy_bits"]}
{"id": "C10", "title": "Rounding policy semantics", "statement": "floor always selects the earlier sample, ceil the later, none and per_track leave the interpolation factor unchanged and nearest selects the earlier sample when the factor is below one half and the later one otherwise, with one exception: the float just below one half (1/2 - 2^-25) is rounded up to the later sample. The result of any policy stays in [0,1] and is monotone in the factor.", "quantifier": "every interpolation factor in [0,1] and every policy", "why_tests_cant": "All floats of [0,1]; boundary effects at one half depend on floating point rounding.", "anchors": ["includes/acl/core/impl/interpolation_utils.impl.h: apply_rounding_policy", "includes/acl/decompression/impl/animated_track_cache.transform.h: consume_rotation (per track rounding selection)"]}
{"id": "C11", "title": "Seeking yields valid neighbouring samples", "statement": "For any sample time (clamped to [0, duration] when clamping is enabled) the sample indices returned are below the number of samples; with the clamp policy they are equal or consecutive and index1 is never before index0; with the wrap policy index1 follows index0 or wraps to 0; the interpolation factor is in [0,1]; the position index0 + factor is within rounding of time*rate. Sampling at the end of a looping clip returns exactly sample 0 with ceil and nearest and gives it weight at least 1 - n/2^23 - 2^-21 without rounding; with floor the last sample may be returned (finding).", "quantifier": "every number of samples up to 2^23-4 (2^21 at the end of a loop), every positive sample rate below 2^128, every sample time, both looping policies, every rounding policy", "why_tests_cant": "Continuous time and sample rate with floating point rounding at the end of the clip.", "anchors": ["includes/acl/core/impl/interpolation_utils.impl.h: find_linear_interpolation_samples_with_sample_rate, find_linear_interpolation_samples_with_duration, find_linear_interpolation_alpha"]}
{"id": "C12", "title": "Duration and sample count agree", "statement": "calculate_num_samples(calculate_duration(n, rate), rate) = n for every sample count, as long as the duration does not overflow a float; calculate_finite_duration is monotone in the number of samples and is 0 for 0 or 1 sample; beyond the bound on the sample count, or when the duration overflows, the round trip fails (findings).", "quantifier": "every sample count up to 2^22-4 and every positive finite sample rate", "why_tests_cant": "Two floating point roundings must cancel for every n and rate.", "anchors": ["includes/acl/core/impl/time_utils.impl.h: calculate_num_samples, calculate_duration, calculate_finite_duration"]}
{"id": "C13", "title": "Sub-track type table round trip", "statement": "The 2 bit type (default, constant, animated) recorded for each output bone by the compressor is the type the decompressor reads for that bone, for rotations, translations and scales, whatever the number of bones and whatever padding ends the table.", "quantifier": "every number of bones and every assignment of types", "why_tests_cant": "Packing is 16 per word with partial last word; unbounded track counts.", "anchors": ["includes/acl/compression/impl/write_sub_track_types.h", "includes/acl/core/impl/compressed_headers.h: packed_sub_track_types, get_sub_track_type"]}
{"id": "C14", "title": "Decompressing a pose writes every track exactly once with the right value", "statement": "decompress_tracks calls the track writer exactly once per rotation, translation and scale of every output track (except those the writer or the default policy skips), with the value stored for that track: its default, its constant value or its interpolated animated value.", "quantifier": "every number of tracks and every assignment of sub-track types", "why_tests_cant": "Bit parallel detection of defaults/constants/animated in groups of 16 with ring caches; unbounded track counts.", "anchors": ["includes/acl/decompression/impl/decompression.transform.h: unpack_default_rotation_sub_tracks, unpack_constant_rotation_sub_tracks, unpack_animated_rotation_sub_tracks, decompress_tracks_v0"]}
{"id": "C15", "title": "decompress_track agrees with decompress_tracks", "statement": "Decompressing one track by index produces the same value as decompressing the whole pose and reading that track.", "quantifier": "every number of tracks, every assignment of sub-track types, every track index", "why_tests_cant": "The single track path counts preceding constant/animated tracks with pop-counts and skips groups, a different algorithm from the whole pose path.", "anchors": ["includes/acl/decompression/impl/decompression.transform.h: decompress_track_v0, decompress_tracks_v0", "includes/acl/decompression/impl/constant_track_cache.transform.h", "includes/acl/decompression/impl/animated_track_cache.transform.h"]}
{"id": "C16", "title": "Constant track data survives the grouped structure-of-arrays layout", "statement": "The constant rotations, translations and scales written by the compressor in groups of four (last group shorter) are exactly what the decompressor reads, for the k-th constant track, for every k, in both the sequential and the single track path.", "quantifier": "every number of constant tracks and every value", "why_tests_cant": "The layout and cursor arithmetic differ for the last partial group; unbounded counts.", "anchors": ["includes/acl/compression/impl/write_stream_data.h: write_constant_track_data", "includes/acl/decompression/impl/constant_track_cache.transform.h: unpack_rotation_group, unpack_rotation_within_group, skip_rotation_groups"]}
{"id": "C17", "title": "Segmenting partitions the clip", "statement": "Splitting a clip into segments produces segments whose sample counts add up to the clip sample count, every segment is non-empty and at most the maximum (31 samples plus whatever the settings allow), segment start indices are increasing, and every sample belongs to exactly one segment.", "quantifier": "every number of samples and every valid ideal/maximum segment size", "why_tests_cant": "Unbounded number of samples; the rebalancing has several branches.", "anchors": ["includes/acl/compression/impl/segment.transform.h: split_samples_per_segment", "includes/acl/compression/impl/segment_context.h: compression_segmenting_settings"]}
{"id": "C18", "title": "Seeking finds the segment that holds each sample", "statement": "For a clip split into segments with the settings the library uses (or any settings whose maximum exceeds the ideal), the decompressor finds, for both key frames of every seek, the segment that contains each and its position within the segment, including across segment boundaries and when wrapping.", "quantifier": "every number of samples and every key frame", "why_tests_cant": "The search starts from a guessed segment and inspects four entries; it is only right because of arithmetic properties of the segmenting.", "anchors": ["includes/acl/decompression/impl/decompression.transform.h: seek_v0", "includes/acl/compression/impl/segment.transform.h", "includes/acl/compression/impl/write_segment_data.h: write_segment_start_indices"]}
{"id": "C19", "title": "Seeking with stripped key frames uses the nearest retained ones", "statement": "When key frames have been removed from a segment, seeking between key frames k0 and k1 uses the latest retained key frame not after k0 and the earliest retained key frame not before k1, and finds their data at the position equal to the number of retained key frames before them; when both are retained nothing changes.", "quantifier": "every set of retained key frames that contains the first and last, every pair of key frames", "why_tests_cant": "2^32 retained masks times positions.", "anchors": ["includes/acl/decompression/impl/decompression.transform.h: seek_v0", "includes/acl/core/impl/compressed_headers.h: stripped_segment_header_t"]}
{"id": "C20", "title": "Repeated seeks are equivalent to a fresh seek", "statement": "After any history of initialize, relocated, reset, seek, set_looping_policy, database streaming and other changes of memory, seeking at a time and rounding other than the ones of the seek just before and decompressing gives the same pose as a freshly initialized context with the same looping policy and the same streamed data. Seeking again at the same (clamped) time and rounding keeps what the earlier seek found, even if key frames were streamed in or the looping policy changed since (a finding).", "quantifier": "every history of context operations", "why_tests_cant": "History dependent: cached sample time short-circuits the seek.", "anchors": ["includes/acl/decompression/impl/decompression.transform.h: seek_v0, set_looping_policy_v0", "includes/acl/decompression/impl/decompression.scalar.h: seek_v0, set_looping_policy_v0"]}
{"id": "C21", "title": "Key frame stripping keeps segment boundaries and honours its settings", "statement": "Key frame stripping never removes the first or last key frame of a segment, removes frames in increasing order of importance and removes as many as the settings (proportion, threshold, strip-trivial) request; when the bit sets saying which frames were removed would take more memory than the removal saves, nothing is removed.", "quantifier": "every clip, every contributing error assignment and every stripping setting", "why_tests_cant": "Unbounded frames and real valued errors.", "anchors": ["includes/acl/compression/impl/keyframe_stripping.h: strip_keyframes", "includes/acl/compression/impl/quantize.transform.h: find_contributing_error, sort_contributing_error"]}
{"id": "C22", "title": "Database tiers partition the key frames", "statement": "When a database is built from a list of clips, every key frame of every clip is assigned to exactly one of the three quality tiers, the first and last key frame of every segment always stay in the clip (high importance), the lowest tier gets the least important movable frames, and the number of frames moved to each tier follows the requested proportions.", "quantifier": "every number of clips, segments and frames, every tier proportion", "why_tests_cant": "Greedy assignment over unbounded inputs.", "anchors": ["includes/acl/compression/impl/compress.database.impl.h: assign_frames_to_tier, assign_frames_to_tiers, frame_assignment_context"]}
{"id": "C23", "title": "Database chunk layout is well formed", "statement": "The bulk data of a non-empty database tier is a sequence of chunks: every chunk starts where the previous ended (the first at 0), chunk sizes add up to the bulk data size, every chunk except the last has exactly the maximum chunk size (so chunk i is at i times max_chunk_size; the last may exceed it by at most 12 bytes), the chunk descriptions in the database are those of the chunks, every segment of every clip is in exactly one chunk, and the samples of its key frames are in that chunk, behind the headers, in order, bit for bit, with 15 readable bytes after the last one. The bit set of a segment header says exactly which key frames are there.", "quantifier": "every sorted tier of key frames (those C22 produces), every list of clips and every legal maximum chunk size in which each segment fits", "why_tests_cant": "Unbounded lists.", "anchors": ["includes/acl/compression/impl/compress.database.impl.h: write_database_chunk_descriptions, write_database_bulk_data"]}
{"id": "C24", "title": "Streaming requests a contiguous in-range block and completes to it", "statement": "A stream_in/stream_out request covers a non-empty contiguous range of chunk indices within the tier and at most the requested count (when at least one chunk is requested; requesting zero chunks of an empty tier streams all of it); on completion exactly those chunks change state; is_streamed_in is true exactly when every chunk of the tier is loaded; no second request is issued for a tier while one is pending; bulk data is never released while a chunk the decoder can use is in it.", "quantifier": "every history of stream_in, stream_out, complete and cancel calls on every tier, every chunk count and request count", "why_tests_cant": "History dependent and asynchronous: completions can be interleaved with other calls in any order.", "anchors": ["includes/acl/decompression/database/impl/database.impl.h: stream_in, stream_out, is_streamed_in, is_streaming", "includes/acl/decompression/database/impl/database_streamer.impl.h"]}
{"id": "C25", "title": "Every chunk can be streamed back in", "statement": "Whatever the history of partial stream_in and stream_out, as long as some chunk of a tier is not loaded and no request is pending, stream_in dispatches a request that covers it eventually (it does not report done).", "quantifier": "every history of streaming operations", "why_tests_cant": "Only some histories of partial unloads reach the failing state.", "anchors": ["includes/acl/decompression/database/impl/database.impl.h: stream_in, stream_out"]}
{"id": "C26", "title": "Streaming request identifiers are not confused", "statement": "A request identifier stays valid until it is completed or cancelled exactly once; completing or cancelling a stale or unknown identifier has no effect, even when its slot has been reused.", "quantifier": "every history of requests over any number of slots (up to generation wrap-around)", "why_tests_cant": "History dependent slot reuse.", "anchors": ["includes/acl/decompression/database/impl/database_streamer.impl.h: build_request_id, complete, cancel, get_request_data, find_request", "includes/acl/decompression/database/database_streamer.h"]}
{"id": "C27", "title": "A partially streamed database still decodes from the frames in memory", "statement": "With a database bound, seeking uses exactly the key frames that are in the clip or in loaded tiers, picks the nearest of those around the requested time, and reads each from the place (clip, medium or low tier) that holds it.", "quantifier": "every partition of the key frames of a segment over the three places and every loaded subset of tiers", "why_tests_cant": "3^32 assignments times load states.", "anchors": ["includes/acl/decompression/impl/decompression.transform.h: seek_v0", "includes/acl/core/impl/compressed_headers.h: database_runtime_segment_header"]}
{"id": "C28", "title": "Header flags and formats do not interfere", "statement": "Writing any flag or format of the compressed tracks header is read back unchanged and leaves every other flag and format unchanged, for all initial contents.", "quantifier": "every header word, every field, every value, every sequence of writes", "why_tests_cant": "2^32 header words times all write orders.", "anchors": ["includes/acl/core/impl/compressed_headers.h: tracks_header::get_*/set_*, transform_tracks_header, scalar"]}
{"id": "C29", "title": "Optional metadata accessors return what was stored or nothing", "statement": "get_name, get_track_name, get_parent_track_index and get_track_description return the stored value exactly when that metadata was requested at compression time and an empty result otherwise, independently of which other metadata is present.", "quantifier": "every combination of metadata settings and every content", "why_tests_cant": "Combinations of presence flags and offsets.", "anchors": ["includes/acl/core/impl/compressed_tracks.impl.h: get_name, get_track_name, get_parent_track_index, get_track_description", "includes/acl/compression/impl/write_track_metadata.h", "includes/acl/compression/impl/compress.transform.impl.h"]}
{"id": "C30", "title": "Track name table round trip", "statement": "The name stored for output track i is the name returned for output track i, for every list of names, including empty names.", "quantifier": "every list of names", "why_tests_cant": "Unbounded lists and string lengths.", "anchors": ["includes/acl/compression/impl/write_track_metadata.h: write_track_names", "includes/acl/core/impl/compressed_tracks.impl.h: get_track_name"]}
{"id": "C31", "title": "Output track mapping is a bijection", "statement": "If a track array is reported valid then the output indices of its non-stripped tracks are exactly 0..k-1 with no duplicates, so every output track of the compressed clip comes from exactly one input track, and the parent index stored for an output track is the output index of its parent, or the invalid index when it is a root or its parent is stripped.", "quantifier": "every track array", "why_tests_cant": "Unbounded permutations with strips.", "anchors": ["includes/acl/compression/impl/track_array.impl.h: is_valid", "includes/acl/compression/impl/track_list_context.h: create_output_track_mapping", "includes/acl/compression/impl/write_track_metadata.h: write_parent_track_indices"]}
{"id": "C32", "title": "Compressed clip sections are in bounds and do not overlap", "statement": "The offsets written in a compressed clip header place the segment headers, sub-track types, constant data, clip ranges and segment data one after the other, each suitably aligned, without overlap, all inside the reported size.", "quantifier": "every combination of track counts, segment counts, data sizes and metadata", "why_tests_cant": "Unbounded sizes.", "anchors": ["includes/acl/compression/impl/compress.transform.impl.h: compress_transform_track_list", "includes/acl/core/impl/compressed_headers.h"]}
{"id": "C33", "title": "sample_track agrees with sample_tracks on raw track arrays", "statement": "Sampling one track of a track array at a time equals sampling the whole array at that time and reading the track, with the same rounding and looping policies; and the value of every track (for a transform: rotation, translation and scale) is the blend of the track's own two samples around the time, with the track's own rounding policy.", "quantifier": "every track array, sample time, policy, track index", "why_tests_cant": "Unbounded data.", "anchors": ["includes/acl/compression/impl/track_array.impl.h: sample_tracks, sample_track"]}
{"id": "C34", "title": "Scalar clips: one track equals whole pose", "statement": "For scalar track lists decompress_tracks succeeds exactly when every track can be decompressed alone, and hands to the writer, in order, for every track that is not skipped, exactly what decompress_track hands over for it, for every mix of constant, quantized and raw tracks.", "quantifier": "every track list and every index", "why_tests_cant": "Bit offsets are accumulated over all preceding tracks.", "anchors": ["includes/acl/decompression/impl/decompression.scalar.h: decompress_tracks_v0, decompress_track_v0"]}
{"id": "C35", "title": "Scalar clips: writer and reader agree on bit positions", "statement": "The bits the scalar compressor writes for track i of frame f are exactly the bits the decompressor reads for track i of frame f: the value decompressed for an output track between two frames is made of the samples, the width and the range of that track, and no read leaves the buffer.", "quantifier": "every number of tracks, frames, bit rates and values", "why_tests_cant": "Unbounded accumulated bit offsets.", "anchors": ["includes/acl/compression/impl/write_track_data_impl.h", "includes/acl/decompression/impl/decompression.scalar.h"]}
{"id": "C36", "title": "Stripped database tiers and split databases keep the remaining data", "statement": "On every valid database whose bulk data is inline, split_database_bulk_data returns a valid database with the same chunk descriptions, clip metadata, sizes and hashes and without bulk data, and the bulk data of both tiers byte for byte. strip_database_quality_tier of a tier with bulk data returns a valid database in which that tier is empty and the chunk descriptions, clip metadata and bulk data of the other tier are unchanged byte for byte. Splitting a database without inline bulk data, stripping an empty tier and stripping the highest tier return an error. (Found: stripping a tier of a database that was split puts zeros and a non-null pointer in place of the other tier's bulk data.)", "quantifier": "every database", "why_tests_cant": "Unbounded contents.", "anchors": ["includes/acl/compression/impl/compress.database.impl.h: split_database_bulk_data, strip_database_quality_tier"]}
{"id": "C37", "title": "Linear blending stays between its end points", "statement": "A linearly interpolated scalar/vector sample is between the two samples up to max(|s|,|e|)/2^21 + 2^-146 and equals them exactly at interpolation factor 0 and 1; an interpolated rotation is, component by component, between the first one and the sign of the second one that is on the same side, and equals them at factor 0 and 1 up to that sign.", "quantifier": "all pairs of float samples and factors in [0,1], with and without fused multiply-add", "why_tests_cant": "Continuous domain, floating point.", "anchors": ["includes/acl/decompression/impl/scalar decompression: rtm::scalar_lerp / vector_lerp usage", "includes/acl/decompression/impl/animated_track_cache.transform.h"]}
{"id": "C38", "title": "Range reduction reconstruction is bounded", "statement": "A sample normalized with its clip and segment range, quantized and reconstructed lies inside the clip range and within half a quantization step times the extents of the original, up to float rounding (E/2^19 + |min|/2^24 for a clip extent E); when the clip extent is below 1e-9 the reconstruction is the minimum of the clip, within 1e-9 of the sample.", "quantifier": "every sample within its range, every extent, every bit rate", "why_tests_cant": "Continuous domain.", "anchors": ["includes/acl/compression/impl/normalize.transform.h", "includes/acl/compression/impl/quantize.transform.h", "includes/acl/decompression/impl/animated_track_cache.transform.h"]}
{"id": "C39", "title": "Segment range quantization always contains the samples", "statement": "After segment ranges are quantized to 8 bits, every sample of the segment still lies within the padded, quantized range, so its normalized value is in [0,1].", "quantifier": "every set of samples in [0,1]", "why_tests_cant": "Continuous domain; relies on padding by one quantization step.", "anchors": ["includes/acl/compression/impl/normalize.transform.h: extract_segment_bone_ranges / extract_bone_ranges, k_segment_range_reduction_num_bits_per_component"]}
{"id": "C40", "title": "Database lookup and binding guards", "statement": "A decompression context reports is_bound_to for exactly the tracks (and database) it was last successfully initialized with or relocated to, by pointer and content hash. initialize and relocated succeed exactly when the tracks are valid, supported and contained in the database (and, for relocated, the hashes are the remembered ones), and leave the context as it was otherwise. Whatever was streamed, a database context contains tracks which point to one of its clips exactly when the hashes agree, and the lookup stays within the runtime headers.", "quantifier": "every history of context operations and memory changes, every list of clips and hashes, every sequence of streaming writes", "why_tests_cant": "Unbounded sets of clips.", "anchors": ["includes/acl/decompression/database/impl/database.impl.h: contains, is_bound_to, initialize", "includes/acl/decompression/impl/decompression.transform.h: is_bound_to_v0"]}
{"id": "C41", "title": "Looping clips repeat", "statement": "With the wrap policy the duration includes one more interval than with clamp; sampling a wrapping clip at or after its end and at time 0 both return sample 0 (up to a weight of n/2^23 + 2^-21 without rounding). A clip whose last sample matches the first one within the precision is optimized: the sample is dropped, the clip reports wrap under as_compressed, its duration does not change, and at every time it is sampled at the same samples, the dropped one being replaced by the first one, which differs from it by at most the precision.", "quantifier": "every clip, rate and time", "why_tests_cant": "Continuous domain and end of clip rounding.", "anchors": ["includes/acl/core/sample_looping_policy.h", "includes/acl/compression/impl/optimize_looping.transform.h", "includes/acl/core/impl/compressed_tracks.impl.h: get_duration, get_finite_duration", "includes/acl/decompression/impl/decompression.transform.h"]}
{"id": "C42", "title": "Animated group decoding equals single track decoding", "statement": "Decoding a group of four animated rotations/translations and picking lane i equals decoding lane i alone, including the bit offset reached, for every mix of bit rates (constant within segment, raw, quantized) in the group.", "quantifier": "every group mix and content", "why_tests_cant": "25^4 bit rate combinations times contents times offsets.", "anchors": ["includes/acl/decompression/impl/animated_track_cache.transform.h: unpack_animated_quat, unpack_single_animated_quat, unpack_animated_vector3, unpack_single_animated_vector3, count_animated_group_bit_size"]}
{"id": "C43", "title": "Contributing error ordering is a permutation with boundaries last", "statement": "The key frame removal order computed at compression time lists every key frame exactly once, gives each segment boundary an infinite error, and orders the rest of the clip by the greedy merge of the segments; it never lists a boundary frame before a movable frame.", "quantifier": "every number of segments and every error function", "why_tests_cant": "Unbounded.", "anchors": ["includes/acl/compression/impl/quantize.transform.h: find_contributing_error, sort_contributing_error"]}
{"id": "C44", "title": "Safe casts detect every loss", "statement": "The checked integer cast accepts a value exactly when the destination type represents it.", "quantifier": "every integral source value and destination width/signedness", "why_tests_cant": "2^64 values times type pairs.", "anchors": ["includes/acl/core/memory_utils.h: is_static_cast_safe_s, safe_static_cast"]}
{"id": "C45", "title": "Bit rate tables are consistent", "statement": "Every bit rate maps to its number of bits per component, bit rates are strictly increasing in precision, the lowest is constant and the highest raw, and conversions used by the compressor and decompressor agree.", "quantifier": "every bit rate", "why_tests_cant": "Finite but must be consistent across three tables.", "anchors": ["includes/acl/core/variable_bit_rates.h", "includes/acl/core/impl/variable_bit_rates.h"]}
{"id": "C46", "title": "Pointer offsets are resolved consistently", "statement": "A ptr_offset resolves to base plus offset exactly when it is valid, and safe_add returns null exactly for the invalid sentinel.", "quantifier": "every offset value and width", "why_tests_cant": "2^32 offsets.", "anchors": ["includes/acl/core/ptr_offset.h"]}
{"id": "C47", "title": "A built database contains what was put into it", "statement": "build_database's database buffer is valid (tag, version, hash), its size is exact, and its accessors return the chunk counts and descriptions, clip metadata, segment count, maximum chunk size and, for every tier, the bulk data (the medium one zero padded to 16 bytes), its size and its hash; non-empty bulk data is 16 byte aligned and the pointer of an empty tier is null. contains() is true exactly for the hashes of the clips. No write leaves the buffer.", "quantifier": "every list of chunk descriptions, clips and bulk data that fit in 4 GB", "why_tests_cant": "Unbounded contents; alignment and padding depend on the counts.", "anchors": ["includes/acl/compression/impl/compress.database.impl.h: build_compressed_database", "includes/acl/core/impl/compressed_database.impl.h"]}
{"id": "C48", "title": "Scalar compression honours the precision", "statement": "Compressing a scalar track list succeeds, and for every output track and every two key frames the decompressed value is interpolated, component by component, between two values that each differ from the input samples at those key frames by at most the precision of the track; at a key frame the output itself is within the precision, in between it is within the precision (plus float rounding) of the linear interpolation of the input samples.", "quantifier": "every scalar track list with finite samples, every precision, every pair of key frames, every writer and rounding policy", "why_tests_cant": "Continuous sample domain; the bit rate search, constant detection and quantization depend on all the samples.", "anchors": ["includes/acl/compression/impl/quantize.scalar.h", "includes/acl/compression/impl/compact.scalar.h", "includes/acl/compression/impl/normalize.scalar.h", "includes/acl/compression/impl/compress.scalar.impl.h", "includes/acl/decompression/impl/decompression.scalar.h"]}
{"id": "C49", "title": "Transform clips round trip through the compressed bytes", "statement": "Take the tracks of a transform clip as they are once their samples are quantized (default, constant and animated sub-tracks, ranges, bit rates that can differ between segments, key frames that were stripped). Compressing succeeds. Seeking in the resulting buffer to any time and decompressing the pose, or any single track, succeeds and gives every sub-track its own value: the default one, its constant, or the combination of its samples at the two key frames around the time (of the nearest ones that were kept, with the interpolation factor remapped to them, when key frames were stripped). Nothing is written for any other track.", "quantifier": "every transform clip (any number of tracks, segments, samples), every format, every bit rate of every sub-track in every segment, every set of stripped key frames, every pair of key frames, every writer and rounding policy", "why_tests_cant": "The layout of the buffer depends on all bit rates, counts and sizes at once, the decoder reads it through several kinds of group readers with padding; tests sample a few clips.", "anchors": ["includes/acl/compression/impl/compress.transform.impl.h", "includes/acl/compression/impl/write_stream_data.h", "includes/acl/compression/impl/write_range_data.h", "includes/acl/compression/impl/write_segment_data.h", "includes/acl/decompression/impl/decompression.transform.h", "includes/acl/decompression/impl/animated_track_cache.transform.h", "includes/acl/decompression/impl/constant_track_cache.transform.h"]}
{"id": "C50", "title": "Sampling a compressed clip at a time blends the right frames", "statement": "Initialize a context with a compressed transform clip, set a looping policy and seek to a time with a rounding policy. This succeeds, and the pose decompressed next combines the samples of the two frames around the time, with an interpolation factor between 0 and 1. The position is the time, clamped to the clip, multiplied by the sample rate; the first frame is the last kept frame not after it, the second one the first kept frame not before the frame that follows (the first frame follows the last one when the clip loops), and the factor is where the rounded position is between those two frames. Up to float rounding the blend is taken at the time asked for.", "quantifier": "every transform clip with fewer than 2^23-4 samples, every positive finite sample rate, every time, every rounding and looping policy, every set of stripped key frames", "why_tests_cant": "Float rounding of time times rate can select another frame at the boundaries, and it combines with wrapping and with stripped key frames; tests check some times of some clips.", "anchors": ["includes/acl/decompression/impl/decompression.transform.h", "includes/acl/core/impl/interpolation_utils.impl.h", "includes/acl/decompression/impl/decompress.impl.h", "includes/acl/core/impl/compressed_tracks.impl.h"]}
{"id": "C51", "title": "The buffers the library makes are valid, self describing and tamper evident", "statement": "What the compressors return passes is_valid with the hash and is accepted by make_compressed_tracks; get_size is its size. The accessors of a compressed transform clip (number of tracks and samples, sample rate, track type, looping policy, default values, stripped key frames) return what was compressed, and its duration for any looping policy is the number of intervals over the sample rate. Changing any single byte of it, except the four of the size, makes is_valid report an error. The same holds of databases: those that are built are valid, and what split and strip make of them too.", "quantifier": "every scalar or transform clip below 4 GB, all metadata settings, every looping policy, every database content, every byte position and value", "why_tests_cant": "The size, hash and flags are written at different places of the compressor, after the data and metadata whose layout varies; tests see a few clips and no systematic corruption.", "anchors": ["includes/acl/core/impl/compressed_tracks.impl.h", "includes/acl/core/impl/compressed_database.impl.h", "includes/acl/compression/impl/compress.transform.impl.h", "includes/acl/compression/impl/compress.scalar.impl.h", "includes/acl/compression/impl/compress.database.impl.h"]}
{"id": "C52", "title": "A database and its clips decode as the clips they were built from, whatever is streamed in", "statement": "build_database on a list of transform clips compressed with contributing error metadata (no stripped key frames, every segment fits in a chunk) succeeds. It returns a valid database and one valid clip per input, each contained in the database. The requested number of key frames goes to the low and to the medium tier (or all those that can move, if fewer); the first and the last key frame of a segment never move. For every history of chunks streamed in and out of a database context (each chunk in when out, out when in, its bytes in memory at that time) and every clip and pair of key frames around a sample time, seek on the new clip bound to the context uses the nearest key frame before and the nearest one after that are in memory, and what decompress_tracks and decompress_track then write are exactly the samples these key frames had in the clip given. With every chunk in, as after initialize on a database with inline bulk data, these are the key frames the original clip would use. The same holds after split_database_bulk_data (with the bulk data it returns) and after strip_database_quality_tier.", "quantifier": "all lists of compressed clips with their metadata, requested tier sizes, chunk sizes, results of std::sort; all histories of chunks streamed in and out, and contents of the rest of the memory; all clips, sample times, rounding policies, track writers", "why_tests_cant": "The chunk boundaries, the remaining frames of each segment and the streaming state interact: the state space is every subset of chunks reached by every history, times every clip and time.", "anchors": ["includes/acl/compression/impl/compress.database.impl.h: build_database, build_compressed_tracks, write_database_chunk_descriptions, write_database_bulk_data, build_compressed_database, split_database_bulk_data, strip_database_quality_tier", "includes/acl/decompression/database/impl/database.impl.h: initialize, stream_out", "includes/acl/decompression/database/impl/database_streamer.impl.h: complete", "includes/acl/decompression/impl/decompression.transform.h: seek_v0"]}
{"id": "C53", "title": "Clips given back by build_database answer every accessor as the original clip", "statement": "For every list of clips build_database takes and all its settings, each clip it returns has the version, number of tracks, number of samples, track type, sample rate, trivial default values, default scale, looping policy, duration and finite duration (for every looping policy asked for), list name, track names, parent indices and track descriptions that the clip it was made from has. get_size is the size of its buffer, has_database is true, it has no contributing error, and has_stripped_keyframes is true exactly when at least one of its key frames went to the database.", "quantifier": "all lists of compressed clips, metadata settings and contents (names, parents, descriptions, any of them missing), tier sizes, chunk sizes, results of std::sort, track indices (also out of range), looping policies", "why_tests_cant": "Each metadata section may be present or absent, with any length and padding, and its offset depends on how many frames of each segment moved; the copy must be right for every combination.", "anchors": ["includes/acl/compression/impl/compress.database.impl.h: build_compressed_tracks, get_metadata_*_size", "includes/acl/core/impl/compressed_tracks.impl.h: get_name, get_track_name, get_parent_track_index, get_track_description, get_duration, get_finite_duration, get_looping_policy, has_database, has_stripped_keyframes"]}
{"id": "C54", "title": "Streaming a database and decoding its clips agree, after any history of the API", "statement": "A database context initialized with streamers, after any history of stream_in, stream_out, complete and cancel calls interleaved with any writes of the streamers in their memory, decodes every clip of the database from the nearest key frames that are in memory: those left in the clip, and those of the chunks that are loaded and not being streamed out; what it reads of them is what was in the clips given to build_database. This needs of the streamers only that a completed stream-in request has its bytes in memory, that bytes are left alone between the completion of the request that streamed them in and the request that streams them out, and that stream-out requests are not cancelled. What a streamer is asked for is always a non-empty byte range of the bulk data of its tier. Without asserts no call fails; with asserts none fails if tiers are streamed out whole.", "quantifier": "every database built (and split or stripped) from any clips, every history of calls and of streamer memory contents, every request id (stale ones included), every clip, key frame pair, rounding policy, track and writer", "why_tests_cant": "the histories are unbounded, interleave two parties, and stale or repeated request ids and partial stream-outs matter; tests exercise a handful of histories with streamers that always behave the same", "anchors": ["includes/acl/decompression/database/impl/database.impl.h: initialize, stream_in, stream_out", "includes/acl/decompression/database/impl/database_streamer.impl.h: execute_request, complete, cancel", "includes/acl/decompression/impl/decompression.transform.h: seek_v0"]}
{"id": "C55", "title": "Decoded transform samples stay within the quantization error of the input, through the bytes", "statement": "Compressing the samples of a transform clip - normalization over the clip and over each segment, quantization of every animated sub-track at any of the legal bit rates, the bytes of the buffer - succeeds, and whatever the two frames a seek asks for, the two samples that are decoded and combined for an animated sub-track are within a tolerance of the input samples of these frames (or of the nearest ones kept when key frames were stripped), component by component. The tolerance depends only on the bit rate and on how much the input varies: half a quantization step of the range of the segment, the 8 bit rounding of the segment range, and float rounding; with raw bit rates or formats the decoded samples are the input bit for bit. The linear interpolation of two such samples of translation or scale is within the interpolated tolerance of the interpolated input. More bits never loosen the tolerance.", "quantifier": "every clip (bones, segments, samples up to 1e10 in magnitude), every legal assignment of bit rates to sub-tracks and segments, every rotation/translation/scale format, every subset of stripped key frames, every pair of frames, writer and rounding policy, fused or not fused multiply-add", "why_tests_cant": "the bound must hold for every float sample and every bit rate; tests compare a few clips under a tolerance found by the same compressor", "anchors": ["includes/acl/compression/impl/normalize.transform.h: extract_clip_bone_ranges, normalize_clip_streams, normalize_segment_streams", "includes/acl/compression/impl/quantize.transform.h: quantize_variable_rotation_track, quantize_variable_translation_track, quantize_variable_scale_track", "includes/acl/compression/impl/write_stream_data.h: write_animated_track_data", "includes/acl/decompression/impl/animated_track_cache.transform.h: unpack_animated_quat, unpack_animated_vector3"]}
{"id": "C56", "title": "Streaming in while decompressing is safe", "statement": "While requests to stream in are completed by another thread, and the streamers write their memory, seek and decompression of a clip bound to the database succeed and read whole key frames of that clip: no key frame that is not in memory after the requests, and none farther from the asked time than the nearest ones that were in memory before them. This holds whatever the moments at which the decoder loads each word of the metadata of the segments, also when it loads the same word twice, then reads the pointers to the bulk data, then the bytes. The pointers have to be read after the metadata: otherwise the decoder can follow a null pointer, and the relaxed atomics of the code do not enforce this order.", "quantifier": "every database built from clips, every history of streaming calls and streamer writes, every continuation without stream_out calls, every choice of the moments of the loads of the decoder, every clip, key frames, writer and rounding policy", "why_tests_cant": "the interleaving of the loads of the decoder with the stores of the streaming thread is not under the control of a test; the bug shows only when a load falls between two given stores", "anchors": ["docs/database_support.md: It is safe to stream in data while decompression is in progress", "includes/acl/decompression/database/impl/database_streamer.impl.h: execute_request", "includes/acl/decompression/impl/decompression.transform.h: seek_v0 (lines 282-353, 423-506)", "includes/acl/core/impl/compressed_headers.h: database_runtime_segment_header::tier_metadata"]}
{"id": "C57", "title": "A clip of a database is sampled at the right time", "statement": "A decompression context can be initialized with any clip build_database gave back together with a context of that database, whatever chunks are streamed in. For every looping policy, finite time and rounding policy seek then succeeds, and the pose written blends the last frame at or before and the first frame at or after the position of the time that are in memory (in the clip itself, or in a chunk that is in and not being streamed out), with the factor that the position has between these two frames; between the last and the first frame of a looping clip likewise. The frames read are those of the clip given to build_database. With the bulk data inline the frames are the ones around the position.", "quantifier": "every list of clips build_database takes, its settings, every history of streaming calls and streamer writes, every clip, looping policy, finite time, rounding policy, writer", "why_tests_cant": "the result depends on the time, on where every key frame went and on which chunks are in: the combinations are unbounded, and the clip offsets in the runtime headers depend on all the clips of the database", "anchors": ["includes/acl/decompression/impl/decompress.impl.h: initialize(tracks, database), seek", "includes/acl/decompression/database/impl/database.impl.h: database_context::contains", "includes/acl/decompression/impl/decompression.transform.h: initialize_v0, set_looping_policy_v0, seek_v0", "includes/acl/compression/impl/compress.database.impl.h: build_database"]}
{"id": "C58", "title": "A scalar track list sampled at a time is within its precision of the input", "statement": "compress_track_list of scalar tracks, then initialize, set_looping_policy, seek and decompress_track(s): for every time and rounding policy, each component of each output track differs from the linear interpolation of the raw input samples at that time by at most the precision of the track plus float rounding (twice the precision if the compressor dropped a last sample that is near the first one). Both decompression functions agree, every read is inside of the buffer, and the tracks that are not output cost nothing.", "quantifier": "all scalar track lists (any type, any number of tracks and samples, any finite samples below 2^120), all metadata settings, all times, looping policies, rounding policies and writers", "why_tests_cant": "the error bound must hold for every sample, precision, time and combination of constant, quantized and raw tracks; the layout depends on all of them", "anchors": ["includes/acl/compression/impl/compress.scalar.impl.h: compress_scalar_track_list", "includes/acl/compression/impl/optimize_looping.scalar.h: optimize_looping", "includes/acl/compression/impl/quantize.scalar.h: quantize_tracks", "includes/acl/compression/impl/write_track_data_impl.h", "includes/acl/decompression/impl/decompression.scalar.h: initialize_v0, seek_v0, decompress_tracks_v0, decompress_track_v0", "includes/acl/core/impl/compressed_headers.h: tracks_header, scalar_tracks_header"]}
{"id": "C59", "title": "The compressor measures a bone along its true path from the root", "statement": "For a valid list of transform tracks in which every bone comes after its parent: the chain of bones that the compressor visits for a bone is exactly the path from its root to it; the parent first order lists every bone once, each parent before its children; converting a chain or a whole pose from local to object space gives, for each bone, the product of the local transforms along its path, whatever the output buffer held; the automatic compression level depends only on the longest such path and the number of samples. Track lists in which a bone precedes its parent, or in which parents form a cycle, pass validation; for them these fail (findings).", "quantifier": "all valid transform track lists, all hierarchies, all local transforms, any multiplication, any contents of the buffers", "why_tests_cant": "it ranges over every hierarchy of every size; tests use a few skeletons whose bones are all sorted", "anchors": ["includes/acl/compression/impl/clip_context.h: bone_chain, bone_chain_iterator, get_bone_chain", "includes/acl/compression/impl/clip_context.impl.h: initialize_clip_context, sort_transform_indices_parent_first", "includes/acl/compression/impl/quantize.transform.h: calculate_bone_chain_indices", "includes/acl/compression/impl/compress.transform.impl.h: find_best_compression_level", "includes/acl/compression/transform_error_metrics.h: local_to_object_space", "includes/acl/compression/impl/track_array.impl.h: is_valid"]}
{"id": "C60", "title": "calculate_compression_error reports the first of the worst errors", "statement": "For track lists with samples, calculate_compression_error returns the largest error over all samples and all tracks that are output, with the first sample time and, at that time, the first track where it occurs. For scalar tracks the error is the largest absolute difference of the components. For transforms (in an order where bones follow their parents) it is the error metric applied to the object space transforms of the raw and of the decompressed pose, the additive base applied first when there is one, the value of stripped tracks taken from the raw tracks. Samples are measured at the key frames, interpolated only when a database or stripped key frames may leave some out. When a bone precedes its parent the result is wrong, and when every scalar track is stripped it is -1 (findings).", "quantifier": "all track lists, all decompressed values, all error metrics with non negative errors, any contents of the buffers", "why_tests_cant": "it is about the maximum over all inputs; the tools trust this function to validate everything else", "anchors": ["includes/acl/compression/track_error.h: track_error, calculate_compression_error", "includes/acl/compression/impl/track_error.impl.h: calculate_scalar_track_error, calculate_transform_track_error, get_scalar_track_error, remap_output"]}
{"id": "C61", "title": "Rigid shells enclose everything below a bone", "statement": "The error of a bone is measured on a shell around it. For every clip (and segment) with samples whose bones follow their parents, the shell distance used for a bone is the larger of what its track description asks for and of what each child reaches in the bone's space; a child reaches the largest distance of its shell over the samples, plus its precision when its own shell was enlarged. Hence a point within the shell of any bone, moved up the hierarchy at any sample, stays within the shell of every bone on the way. The precision used for a bone is the one asked for by the bone whose shell dominates. (Finding: the tighter precision a bone asks for itself is dropped when a child has a larger shell.)", "quantifier": "all hierarchies, all descriptions, all motions and sample counts; distances in any linear order", "why_tests_cant": "a statement about all points, all samples and all depths of a hierarchy", "anchors": ["includes/acl/compression/impl/rigid_shell_utils.h: compute_clip_shell_distances, compute_segment_shell_distances", "includes/acl/compression/impl/clip_context.h: rigid_shell_metadata_t", "includes/acl/core/track_desc.h: track_desc_transformf"]}
{"id": "C62", "title": "The bit rate search ends with legal rates, picks the smallest good ones locally, and reaches the precision or the highest rates", "statement": "For every segment whose bones follow their parents, and whatever errors the metric reports, the search for the bit rates ends, after a number of steps linear in the bones; sub-tracks that are not variable are left alone, the others get a bit rate between 1 and 24, or 0 if the segment has range information. In local space the rates chosen for a bone are the smallest legal ones whose error is below the precision at every sample (if there are any), and the most accurate of those of that size; later phases only raise rates. If raising rates never makes an error larger and rotations are full quaternions, every bone ends up below its precision or has, with all its ancestors, the highest bit rates; a root misses its precision only if the highest bit rates do, with any format. Buffers that are not initialized have no influence. Findings: with other rotation formats (the default) the search can give up on a bone although the highest rates would meet the precision; and at the highest compression level one of the ways to spread 3 increments over a chain is never tried.", "quantifier": "all error functions (in a linear order), all hierarchies, all sub-track kinds, thresholds, compression levels, sample counts", "why_tests_cant": "the search branches on errors that depend on every sample and on the user's metric; termination and minimality are about all of them", "anchors": ["includes/acl/compression/impl/quantize.transform.h: find_optimal_bit_rates, calculate_local_space_bit_rates, calculate_bone_permutation_error, increase_bone_bit_rate, initialize_bone_bit_rates, calculate_max_error_at_bit_rate_local, calculate_max_error_at_bit_rate_object", "includes/acl/compression/impl/transform_bit_rate_permutations.h"]}
{"id": "C63", "title": "Constant and default sub-tracks are replaced exactly when it costs no more than the precision", "statement": "compress_track_list stores a rotation, translation or scale as a single value, or not at all, exactly when the error metric of the settings reports no more than the bone's precision at every sample for the transform with this sub-track replaced by its first sample, respectively by the default value of the track (the sub-tracks treated before it being already replaced). The value stored is the first sample or the default value; all other sub-tracks keep every sample bit for bit. With a raw format a sub-track is only replaced when all its samples are equal numbers, so every sample decodes to an equal number, and every repeated value up to 1e10 is found. If the metric obeys the triangle inequality, the error of a whole bone is at most its precision times the number of its constant sub-tracks. The clip has scale exactly when some bone's scale is not its default; a clip without samples is all default. Findings: the errors of the sub-tracks of one bone do add up, so a bone can exceed its precision before anything is quantized; raw formats lose the sign of zeros despite the comment 'binary exact'; a raw translation or scale whose fourth component differs from the default's is not recognized as default.", "quantifier": "all clips, all samples, all error metrics and additive bases, all formats", "why_tests_cant": "the decision depends on every sample and on the user's metric; the exact equivalence and the bound on the sum are universally quantified", "anchors": ["includes/acl/compression/impl/compact.transform.h: compact_constant_streams, are_samples_constant, are_rotations_constant, are_rotations_default, are_translations_constant, are_translations_default, are_scales_constant, are_scales_default", "includes/acl/compression/impl/normalize.transform.h: calculate_track_range, extract_clip_bone_ranges", "includes/acl/compression/impl/track_stream.h: is_constant, get_sample_clamped"]}
{"id": "C64", "title": "The bit rate search measures the very samples the decoder will produce", "statement": "For every segment and every key frame of it, the sample that compress_track_list measures for an animated sub-track at the bit rate it finally selects is, component by component and bit for bit, the sample that seek and decompress_tracks / decompress_track compute from the compressed bytes for that key frame (same fused or unfused multiply-add on both sides), for every format: variable (with segment and clip range reduction), raw bit rate and constant-in-segment bit rate, and full precision. When the interpolation factor is 0 the translation or scale handed to the writer is the measured value. Every key frame of a segment is measured: for the i-th sample of a segment the compressor computes a time, and the nearest key frame to it in the segment is the i-th, for every sample rate and clips of up to 2^21 samples. What is measured at a rate does not depend on rates selected before.", "quantifier": "all clips, segmentings, bones, sub-tracks, samples, bit rates, formats, multiply-add modes and sample rates", "why_tests_cant": "equality of two independent float pipelines (measure versus pack, store, seek, load and unpack) for every float and every bit rate cannot be enumerated", "anchors": ["includes/acl/compression/impl/sample_streams.h: acl_impl::get_rotation_sample, get_translation_sample, get_scale_sample, sample_streams, get_uniform_sample_key, get_segment_key", "includes/acl/math/vector4_packing.h: decay_vector3_uXX, decay_vector3_u96", "includes/acl/compression/impl/quantize.transform.h: calculate_max_error_at_bit_rate_object, calculate_max_error_at_bit_rate_local", "includes/acl/decompression/impl/animated_track_cache.transform.h: unpack_animated_quat, unpack_animated_vector3"]}
{"id": "C65", "title": "From raw samples to decoded poses: precision of the compressed clip", "statement": "compress_track_list (search for the bit rates of every segment, quantization, writing) succeeds for every legal clip, and the error that the compressor computed for a bone at a key frame during its search, at the rates it selected, is the error of the pose that seek and decompress_tracks produce at that key frame. With full quaternions and a metric that does not get worse with more bits, at every key frame of the clip every bone either decodes with an object space error below its precision, or it and all its ancestors decode to their raw samples, exactly, in every animated sub-track.", "quantifier": "all legal clips, skeletons with parents before children, metrics, formats of translation and scale, key frames, writers", "why_tests_cant": "ranges over all clips, skeletons and user defined error metrics; it composes search, quantization, bit packing and decoding", "anchors": ["includes/acl/compression/impl/compress.transform.impl.h: compress_transform_track_list", "includes/acl/compression/impl/quantize.transform.h: quantize_streams, find_optimal_bit_rates, quantize_all_streams", "includes/acl/compression/impl/write_stream_data.h", "includes/acl/decompression/impl/decompression.transform.h: seek_v0, decompress_tracks_v0"]}
{"id": "C66", "title": "Caching sampled sub-tracks never changes what the bit rate search measures", "statement": "The cache the compressor samples bit rates through is transparent: whatever queries (one bone, a bone with its ancestors, all bones) are built and sampled, at whatever bit rates, in whatever segments and order, each next step depending on all results so far, starting from uninitialized memory, every transform returned is the one that sampling the streams directly gives, and no access leaves the memory reserved. So the errors measured in local and object space are those of the decoded samples (C64, C65). The memory is reserved for the first segment, and no later segment has more samples; whatever the sample time, the key frame sampled is in the segment. This holds even if the generation counter wraps (the code asserts it does not). Findings: the slot evicted is the first one filled and not the least recently used as documented; a query that is sampled after another one was built for the same bone, without being built again, can permanently associate a bit rate with the samples of another (the compressor always builds first).", "quantifier": "all histories and strategies of queries, all bit rates, segments, times, clips, initial memory contents and counter values", "why_tests_cant": "a history dependent cache over unbounded histories; stale entries only show after particular eviction orders and segment changes", "anchors": ["includes/acl/compression/impl/track_bit_rate_database.h: track_bit_rate_database, find_cache_entries, sample_rotation, sample_translation, sample_scale, sample, set_segment, hierarchical_track_query::build, single_track_query::build, every_track_query::build", "includes/acl/compression/impl/quantize.transform.h: quantization_context, calculate_max_error_at_bit_rate_local, calculate_max_error_at_bit_rate_object", "includes/acl/compression/impl/segment.transform.h: split_samples_per_segment"]}
{"id": "C67", "title": "A measured error bounds how far any point near a bone is displaced", "statement": "The error metric reports zero between a transform and itself, does not depend on the order of its arguments, and always reports the displacement of a point at the shell distance. No point between the measured points moves by more. When the bone itself does not move, every point within the shell distance moves by at most \u221a2 times the error measured without scale, and \u221a3 times the error measured with scale (matrices included); otherwise the distance the bone moves comes on top. Both factors are attained, so cannot be improved. With all scales one, a zero error on three points means that no point moves. Findings: contrary to the comment, two points are not sufficient without scale: a lossy rotation about the line through the two points, of any angle, has measured error zero although a point at the shell distance moves by up to 2\u221a2 shell distances; with negative scale a mirrored transform can have measured error zero on three points although the bone moves by more than the shell distance.", "quantifier": "all transforms, shell distances and points (real numbers, no rounding)", "why_tests_cant": "a geometric inequality over a continuum of transforms and points; the blind spots form a set of measure zero that sampling misses", "anchors": ["includes/acl/compression/transform_error_metrics.h: construct_sphere_shell, qvvf_transform_error_metric::calculate_error, qvvf_transform_error_metric::calculate_error_no_scale, qvvf_matrix3x4f_transform_error_metric::calculate_error"]}
{"id": "C68", "title": "Additive formats can be undone and their default values are neutral", "statement": "A transform made additive to a base and then applied to that base is the original transform, for additive0 and additive1 with any invertible base and for relative with a base of uniform scale; converting what was applied gives the additive transform back. Applying the default values of a compressed additive clip, with the default scale announced by its header, leaves the base unchanged for every additive format, and the base made additive to itself has exactly these default values. The variants that skip scale agree with the full ones where scales have their default value. For additive0 and additive1 the translation error of the clip is the translation error after applying it.", "quantifier": "all bases, transforms and additive formats (real numbers, no rounding)", "why_tests_cant": "algebraic identities over all rotations, translations and scales", "anchors": ["includes/acl/core/additive_utils.h: transform_add0, transform_add1, transform_add_no_scale, apply_additive_to_base, apply_additive_to_base_no_scale, convert_to_relative, convert_to_additive0, convert_to_additive1", "includes/acl/compression/impl/compress.transform.impl.h: set_default_scale"]}
{"id": "C69", "title": "A transform clip sampled at a time is within tolerance of its input at that time", "statement": "Compress a transform clip with any bit rates and any key frames stripped, bind a context to the buffer, set a looping policy and seek to any time (before, within or after the clip) without rounding, then decompress all tracks or one. Each component of each animated translation and scale that is written differs from the polyline through the input samples, of the frames kept and closed up to the first frame for looping clips, at exactly that time clamped to the clip, by at most the quantization tolerance of C55 plus float rounding: a 2^-21 part of the magnitude, and (number of samples + 5) / 2^23 of the spread of the component for the rounding of the time. The polyline is well defined: exactly one value at each position, that of the sample at a frame kept, linear between neighbours.", "quantifier": "all clips, bit rates, key frames stripped, looping policies, times, writers", "why_tests_cant": "the whole pipeline over all inputs and a continuum of times; the critical times are those whose float position rounds across a frame or past the rounded duration", "anchors": ["includes/acl/compression/impl/compress.transform.impl.h", "includes/acl/compression/impl/quantize.transform.h", "includes/acl/decompression/impl/decompression.transform.h: seek_v0, decompress_tracks_v0, decompress_track_v0", "includes/acl/core/impl/interpolation_utils.impl.h: find_linear_interpolation_samples_with_sample_rate", "includes/acl/core/impl/compressed_tracks.impl.h: get_finite_duration"]}
{"id": "C70", "title": "Pre-processing transform tracks stays within the precision per action, and without loss changes only quaternion signs", "statement": "pre_process_track_list on transform tracks: with the lossless policy it never fails (when the additive settings are valid) and at most changes the sign of whole quaternions so that W is not negative, which rotates every point as before. With the lossy policy, each sub-track ends up with its default value at every sample, with its first value at every sample, or as it was after normalization, except that the last sample may have become the first one; each of these only if its action was requested. Every sample of the result is within the precision of its track, once per sub-track of each sanitizing action and once more for the last sample of a looping clip, in the error metric given. If the first and last samples of all tracks are close enough they end up identical. It fails exactly when an additive format is requested with scalar tracks, no base or an empty base, or when a lossy action needs an error metric and there is none; then the tracks are unchanged except for normalization and sign of rotations.", "quantifier": "every list of transform tracks with any number of tracks and samples, every combination of actions, every error metric, precision, rigid shells, additive base and normalization function", "why_tests_cant": "The actions run one after the other on data the previous ones changed; the bound on the accumulated error, and the absence of any other change, must hold for every combination of actions, metric and samples.", "anchors": ["includes/acl/compression/pre_process.h: pre_process_track_list", "includes/acl/compression/impl/pre_process.impl.h", "includes/acl/compression/impl/pre_process.transform.h", "includes/acl/compression/impl/optimize_looping.transform.h: is_clip_looping"]}
{"id": "C71", "title": "Pre-processing scalar tracks moves samples by at most the precision", "statement": "pre_process_track_list on scalar tracks never fails without an additive format, keeps the tracks, sample counts and looping policy, and never changes the first sample of a track. A sample is only ever replaced by the first sample of its track, and only when each component differs by at most the precision of the track. A track with all its samples within the precision of each other comes out constant; when the first and the last sample of every track are within the precision, they come out equal in every track, and if those of one track are not, no track is changed by the looping action. With the lossless policy nothing changes. Doing it twice is the same as doing it once.", "quantifier": "every list of scalar tracks, any number of components up to four, tracks and samples, every precision and combination of actions", "why_tests_cant": "Whether a track is flattened depends on the extrema of its samples, wherever they are: a test with monotonic or random data does not reach the sample positions where the extrema are missed.", "anchors": ["includes/acl/compression/impl/pre_process.scalar.h: pre_process_optimize_looping_scalar, pre_process_sanitize_constant_tracks_scalar", "includes/acl/compression/impl/pre_process.impl.h"]}
{"id": "C72", "title": "Converting a compressed clip back to raw tracks recovers every key frame", "statement": "convert_track_list on a valid compressed transform clip that has its track descriptions succeeds. The raw list has one track per output track, with its name, its description (parents as output indices) and as many samples as the clip, at the same sample rate. Sample i of a sub-track is its default from the description, its constant, or its key frame i: the interpolation is undone exactly, so a translation or a scale has the very components of the key frame, and a rotation is that of the key frame, normalized unless only raw formats are used (then it is exact). A frame that was stripped is between its nearest kept neighbours. With the raw formats every animated sample is the number that was compressed; in general it is within the tolerance of the bit rates. Without the descriptions, or when the clip is not valid, an error is returned.", "quantifier": "every compressed transform clip of at most 2^21 samples and a finite duration, with any tracks, formats, segments, stripped key frames, metadata, looping policy and positive sample rate, every sample and component, with and without fused multiply-add, every square root and normalization function", "why_tests_cant": "The time of sample i is i / rate rounded, and is multiplied by the rate again: whether it comes back to i, for every i and every rate, and whether the same context seeked over and over gives what a fresh one gives, cannot be settled by the rates and counts of a test.", "anchors": ["includes/acl/compression/impl/convert.impl.h: convert_track_list", "includes/acl/core/impl/debug_track_writer.h: debug_track_writer", "includes/acl/core/impl/interpolation_utils.impl.h: find_linear_interpolation_samples_with_sample_rate", "includes/acl/decompression/impl/decompression.transform.h: seek_v0"]}
{"id": "C73", "title": "Decoded rotations are unit quaternions", "statement": "With the default normalization policy every rotation whose W component is not stored comes out of decompress_tracks and decompress_track (and every constant one) with a squared length within 2^-20 of one: at every time, with every rounding policy, per track rounding or not, bit rate and segment. With lerp_only every interpolated rotation does, whatever the format. The normalization never divides by a length near zero: before it, the squared length of an interpolated rotation is at least 5/16. A key frame that is not normalized has a squared length of one, or of 2s - 1 when its stored part has a squared length s above one, and its W is within a square root of its error of that of the input.", "quantifier": "every pair of key frames with components of at most 3/2 (or stored in full, of about unit length), every factor in [0, 1], rounding policy, settings, fused multiply-add or not, order of the additions in the dot product, square root accurate to 22 bits; every compressed clip with components in [-1, 1] and time", "why_tests_cant": "Lengths depend on cancellation between reconstructed components, the sign of a rounded dot product and four roundings: the worst case over all floats is not found by sampling.", "anchors": ["includes/acl/math/quatf.h: quat_from_positive_w4, quat_lerp_no_normalization4, quat_normalize4", "includes/acl/decompression/impl/animated_track_cache.transform.h: unpack_rotation_group, unpack_rotation_within_group", "includes/acl/decompression/impl/constant_track_cache.transform.h: unpack_rotation_group", "includes/acl/decompression/decompression_settings.h: rotation_normalization_policy_t"]}
{"id": "C74", "title": "Text files round trip", "statement": "A raw track list (scalar or transform tracks) written with write_track_list to an ACL text file and read back with clip_reader::read_raw_track_list is the same list: list name, track names and order, types, precision, output and parent indices, shell distances, bind transforms, sample rate and every sample, bit for bit; and the compression settings written with it come back as the same level and formats. Every 32 bit pattern of a float survives its hexadecimal text, and every enum name reads back as the value it was written for whatever text follows the closing quote. Whatever a file holds, a list that is accepted is uniform (one type, rate and number of samples, positive rate, finite transforms, no negative precision) and the reader never writes outside the array it counted. The file cannot hold: a list without tracks, a transform that is not finite (refused without an error), a negative precision (replaced by the default), the looping policy, the unused lanes of translations and scales.", "quantifier": "all track lists of any type, number of tracks and samples, all float bit patterns, all names, all settings; for the second part all files (any keys and values, exact or decimal)", "why_tests_cant": "Tests round trip a few clips; the property ranges over all bit patterns, list shapes and arbitrary files.", "anchors": ["includes/acl/io/clip_writer.h: format_hex_float, write_sjson_settings, write_sjson_header, write_sjson_scalar_desc, write_sjson_transform_desc, write_sjson_tracks, write_track_list", "includes/acl/io/clip_reader.h: read_raw_track_list, read_version, read_raw_track_list_header, read_settings, hex_to_float, hex_to_float4f, read_optional_float, read_qvv_sample, process_track_list, create_track_list", "includes/acl/core/track_types.h: get_track_type_name, get_track_type", "includes/acl/core/impl/track_formats.impl.h: get_rotation_format, get_vector_format", "includes/acl/compression/impl/compression_level.impl.h: get_compression_level"]}
{"id": "C75", "title": "Memory of raw tracks", "statement": "Tracks made with make_copy, make_reserve, make_owner, make_ref, get_copy, get_ref, moved, assigned and destroyed in any order, by a client that keeps the memory it refers to, never make the library access memory that is not there or free a buffer twice, with another allocator or with another size. Every sample of a track that owns its memory can be read. Every live buffer of an allocator belongs to exactly one track or is still the client's; when all tracks are destroyed nothing leaks. A copy has exactly the samples of its source (make_copy for every stride) and is independent of it: whatever is done afterwards without touching the copy, its samples stay the same, and the source does not change when the copy is written. A reference sees the samples of its source, also after writes through either. Exceptions: get_copy of a reference whose stride is larger than its samples reads past the last sample; get_copy of a reference with stride zero returns a track whose samples cannot be read; the source of a move construction keeps its number of samples without memory.", "quantifier": "all histories of operations of any length, all numbers of samples, sizes, strides, allocators and memory contents", "why_tests_cant": "Tests try a few sequences; ownership errors depend on the order of copies, moves, references and destructions, of which there are infinitely many.", "anchors": ["includes/acl/compression/track.h: track, track_typed, m_allocator, m_data, m_data_size, is_owner, is_empty", "includes/acl/compression/impl/track.impl.h: track::track(track&&), track::~track, operator=, operator[], get_copy_impl, get_ref_impl, make_copy, make_reserve, make_owner, make_ref"]}
{"id": "C76", "title": "The streamers that ship with the library", "statement": "A database context whose tiers each have a null streamer or a debug streamer can be driven by any sequence of stream_in and stream_out. When a call has returned nothing is being streamed; a call is never refused because streaming is in progress or because a streamer has no free request; it changes one contiguous block of chunks of its tier or nothing. The streamers never fail (no assert of theirs, no write through a null pointer, no second allocation that leaks the first): a call only fails if the bookkeeping of stream_out does (see C25), and never does, asserts included, when tiers are streamed out whole; then stream_in reports done exactly when the tier is streamed in, and asking for all chunks streams in the tier. After any calls the clips decode from the nearest key frames of the clip and of the chunks that are loaded. The debug streamer has a copy of the bulk data exactly while a chunk is loaded, with the bytes of the loaded chunks and 0xCD elsewhere; the null streamer allocates nothing and leaves the bulk data as it is.", "quantifier": "all sets of clips, tier splits, chunk sizes, choices of streamers, sequences of calls of any length, numbers of chunks asked for, asserts compiled in or not", "why_tests_cant": "Which chunks are loaded depends on the whole history of calls; a streamer that frees or overwrites too much only shows for particular interleavings of partial stream_in and stream_out calls on databases with many chunks.", "anchors": ["includes/acl/decompression/database/null_database_streamer.h: null_database_streamer", "includes/acl/decompression/database/impl/debug_database_streamer.h: debug_database_streamer", "includes/acl/decompression/database/impl/database.impl.h: database_context::stream_in, stream_out", "includes/acl/decompression/database/impl/database_streamer.impl.h: complete, build_request"]}
{"id": "C77", "title": "Converting compressed scalar tracks back to raw tracks", "statement": "convert_track_list, given scalar tracks (float1 to float4, vector4) that compress_track_list made with track descriptions included, returns a raw track list with the same type, sample rate and names, one track per output track in order with its output index and precision, and one sample per compressed sample; every component of sample i of a track differs from sample i of the input by at most the precision of the track (and is exactly the input when the precision is zero). No sample is missing unless the loop optimization dropped the last one, in which case (a finding) the converted list is one sample shorter and does not loop. Without descriptions, or for invalid tracks, an error is returned.", "quantifier": "all scalar track lists (any type, number of tracks, output mapping, up to 2^21 samples, finite values, precisions, sample rates, names), with or without loop optimization, with or without fused multiply-add", "why_tests_cant": "Which frame a sample time lands on depends on the rounding of sample_index / sample_rate and of its product with the rate, for every index and rate; bit rates, constant tracks and looping change the path taken.", "anchors": ["includes/acl/compression/convert.h: convert_track_list", "includes/acl/compression/impl/convert.impl.h: convert_track_list(iallocator&, const compressed_tracks&, track_array&)", "includes/acl/core/impl/debug_track_writer.h: write_float1, write_float2, write_float3, write_float4, write_vector4", "includes/acl/decompression/impl/decompression.scalar.h: seek_v0, decompress_tracks_v0"]}
{"id": "C78", "title": "One context for scalar and transform tracks does what the specific contexts do", "statement": "A decompression context whose settings support both scalar and transform tracks behaves, at every point of any history of initialize, relocated, reset, set_looping_policy and seek, like a context specific to the kind of tracks it is bound to: same return values, same is_bound_to, same looping policy, same decompressed pose. Switching kinds is like starting over with a new context; a failed initialize changes nothing. The one exception (a finding) is relocated with tracks of the other kind: the hash is then read from a field of the other kind of context, so tracks that were never bound can be accepted (scalar tracks with hash 0 in place of any transform tracks bound without a database). With settings for any version, exactly the versions 2.0.0 to 2.1.0 are accepted by initialize and all functions handle each of them; with settings for one version exactly that one.", "quantifier": "every history of calls and of changes of memory that keep the type of the tracks at an address, every layout of the two contexts over the same bytes in which the tracks pointer comes first, every content of the uninitialized bytes, all settings", "why_tests_cant": "which stale bytes of one kind of context are read by the other depends on the whole history and on the layout; tests would have to try every order of bindings of both kinds", "anchors": ["includes/acl/decompression/impl/decompression.universal.h: persistent_universal_decompression_context, initialize_v0, relocated_v0, is_bound_to_v0, seek_v0", "includes/acl/decompression/impl/decompression_version_selector.h", "includes/acl/decompression/impl/decompress.impl.h"]}
{"id": "C79", "title": "Converting poses between local and object space", "statement": "local_to_object_space, with parents before their children, gives each bone a transform that moves any point as the local transforms of the bone, its parent and so on up to the root do one after the other (unit rotations, uniform scales), also in place, and writes nothing outside the output pose. object_to_local_space undoes it for poses without rotation and scale; in general (rigid transforms) it gives the local transform of a bone back exactly when the bone is the root or its local transform commutes with the object transform of its parent. Findings: it multiplies the inverse of the parent on the wrong side, so a bone in front of a parent that is turned around comes out behind it; and contrary to its comment it does not work in place, because the parents it needs were already overwritten.", "quantifier": "all bone trees with parents first, any number of bones, all transforms, all positions of the two buffers in memory that are equal or do not overlap", "why_tests_cant": "the repository has no test of these functions; a test on a few poses or with buffers that do not alias would not show for which trees, poses and buffer positions the conversions are right", "anchors": ["includes/acl/compression/transform_pose_utils.h: local_to_object_space, object_to_local_space"]}
{"id": "C80", "title": "Strings keep their text and free what they allocated", "statement": "Strings made from text, from other strings, by get_copy, moved, assigned and destroyed in any order never access memory that is not there, and free every block exactly once, with the allocator and the size it was allocated with. A string has the text it was made from; get_copy and construction from a string give the same text, a move leaves an empty string, move assignment exchanges the two; size, empty and == agree with the text. Each string that is not empty has one block of its own, from the allocator it was given (a copy: the one given to get_copy or that of the original), and there are no other live blocks, so nothing leaks when all strings are destroyed. Exception (a finding): when asserts are off, text with a NUL in it is cut at the NUL and its block is freed with another size than it was allocated with.", "quantifier": "all programs over any number of string variables and allocators, all texts of any length", "why_tests_cant": "Tests try a few sequences; which block is freed by which string depends on the order of moves, exchanges and copies, of which there are infinitely many.", "anchors": ["includes/acl/core/string.h: string", "includes/acl/core/iallocator.h: allocate_type_array, deallocate_type_array"]}
{"id": "C81", "title": "Settings are accepted exactly when they are in range, and errors tell what is wrong", "statement": "compression_settings::is_valid accepts settings exactly when there is an error metric, the stripped proportion is a finite number in [0, 1], the stripping threshold is finite and not negative, and stripping is not enabled together with database support. compression_database_settings::is_valid accepts exactly a chunk size that is a non-zero multiple of 4 KB (no wrapping near 2^32 lets others through), and finite proportions in [0, 1] whose sum, with float rounding, is in [1e-5, 1 + 1e-5]. Every bit pattern is covered: NaN, infinities, -0 and denormals. When settings are refused, what the error says is the case. The raw and default presets are valid once an error metric is set; settings that differ in one field by one byte have different hashes. Findings: both proportions 0 are refused although the documentation allows every value in [0, 1]; the default preset with database support is refused; the hash does not, as documented, uniquely identify a configuration.", "quantifier": "all settings, with every bit pattern of every float and every chunk size", "why_tests_cant": "Tests try a few values; there are 2^32 patterns of each float and 2^96 database settings, and rounding, wrapping and NaN decide at the boundaries.", "anchors": ["includes/acl/compression/compression_settings.h: compression_settings, compression_database_settings, compression_metadata_settings, compression_keyframe_stripping_settings", "includes/acl/compression/impl/compression_settings.impl.h: is_valid, get_hash, get_raw_compression_settings, get_default_compression_settings"]}
{"id": "C82", "title": "Compressing transform tracks gives back the memory it asks for", "statement": "Compressing a list of transform tracks, with any settings and with or without an additive base, either returns an error or a new block with the compressed tracks. Settings that are refused cost no memory. When database support, keyframe stripping and the contributing error metadata are all off, a successful compression gives back every other block it asked the allocator for, exactly once and with the size it was asked for with, and touches no block of the caller. Findings: (1) with any of these three on (keyframe stripping is on in the default settings), every segment that does not have exactly 32 samples gives its keyframe array back with a wrong size (allocated for 32 keyframes, given back with the number of samples), against the contract of iallocator; nothing else is wrong. (2) When a sample of the clip or of the additive base is not finite, everything allocated so far is leaked: 4 blocks, 3 per transform and one more, for each context. (3) The default settings with full precision formats are refused. The error about more than 32 samples per segment is never returned.", "quantifier": "all settings, all numbers of transforms, samples and leaves, all outcomes of looping, compaction and quantization, all sizes of the types, all states of the allocator", "why_tests_cant": "The sizes depend on how many transforms, samples and segments there are and on which sub-tracks are constant or looping; a test sees some of these, and only an allocator that checks sizes notices.", "anchors": ["includes/acl/compression/impl/compress.transform.impl.h: compress_transform_track_list", "includes/acl/compression/impl/clip_context.impl.h: initialize_clip_context, destroy_clip_context", "includes/acl/compression/impl/segment_context.h: destroy_segment_context", "includes/acl/compression/impl/quantize.transform.h: quantization_context, calculate_contributing_error, quantize_streams", "includes/acl/compression/impl/segment.transform.h: segment_streams", "includes/acl/compression/impl/track_stream.h: track_stream", "includes/acl/core/iallocator.h: allocate_type_array, deallocate_type_array"]}
{"id": "C83", "title": "Building a database refuses what it cannot use and gives back the memory it asks for", "statement": "build_database refuses its input exactly when the settings are not valid, the list is empty or has a null entry, an entry is not a valid compressed_tracks, is bound to a database, had keyframes stripped, or has no metadata or no contributing error, or no entry has any sample. The error that is returned is then the case, and nothing was allocated. When every clip was written by the current version and its contributing error is as compression writes it, accepted input always gives one new clip for each input clip and a new database; every other block is given back exactly once with the size it was asked for with and no block of the caller is touched. Finding: for a clip written by a version before v02_01_99_2 (ACL 2.0 and 2.1 pre-releases), which the code means to support by converting its contributing error, the converted array is never stored: if it has a sample, the tiers are assigned by reading through a null pointer, and if it has none its array is leaked.", "quantifier": "all settings, all lists of clips of any version, all numbers of frames for the tiers, all states of the allocator", "why_tests_cant": "The clips of older versions are not produced by the current library, and the memory depends on how many clips and frames there are; each test sees one list.", "anchors": ["includes/acl/compression/impl/compress.database.impl.h: build_database, frame_assignment_context, assign_frames_to_tier", "includes/acl/core/compressed_tracks_version.h: v02_01_99_2", "includes/acl/core/iallocator.h: allocate_type_array, deallocate_type_array"]}
{"id": "C84", "title": "The life of a database context: binding, relocation and its buffer", "statement": "The buffer a database context asks for holds, without overlap and ending where the buffer ends, two bit sets for each tier with a bit for every chunk and, at a multiple of 8, a header for every clip and every segment. In any history of initialize (with or without streamers), relocated, reset and changes of the databases in memory: initialize succeeds exactly when the context is not bound, the database is valid and its bulk data is inline (or both streamers are initialized); relocated exactly when the context is bound and the database is valid and has the hash it had at initialize; a call that fails changes nothing; is_bound_to tells exactly the database last bound, while its hash is the same. While bound the context owns exactly one block of its allocator; after reset or destruction none; no block is given back wrongly, provided the database still has its numbers at reset. What initialize makes does not depend on earlier use. Findings: relocated without streamers is accepted for a context with streamers and forgets the bulk data that was streamed in; relocated with streamers is accepted for a context without and keeps reading where the database was; two databases with the same 32 bit hash are not told apart, and the buffer is then given back with a wrong size and stays allocated.", "quantifier": "all numbers of chunks, clips and segments (that fit in 32 bits), all addresses, every history of calls and changes of memory, any number of databases and allocators", "why_tests_cant": "Histories are unbounded, and a size that is wrong for some numbers is only noticed by an allocator that checks it.", "anchors": ["includes/acl/decompression/database/impl/database.impl.h: calculate_runtime_data_size, initialize, relocated, reset, is_bound_to, ~database_context", "includes/acl/decompression/database/impl/database_context.h: database_context_v0", "includes/acl/core/bitset.h: make_from_num_bits, get_num_bytes", "includes/acl/core/memory_utils.h: align_to"]}
{"id": "C85", "title": "Track descriptions are accepted exactly when they are sound, and what has_trivial_default_values tells", "statement": "A track with samples is valid exactly when it has fewer than 2^32 - 1 of them, its sample rate is a positive finite number and its description is sound: a precision (and shell distance) that is finite and not negative, a default value that is finite with a normalized rotation. Every bit pattern is covered (NaN, infinities, -0), and what an error says is the case; a track without samples in memory is always valid. For a clip with scale that is not of the additive1 format, has_trivial_default_values returns true exactly when the default value of every track is the identity. Findings: for a clip with scale of the additive1 format, whose neutral scale is zero, it always returns false; for a clip where every scale sample equals the default scale of its track, whatever that is (say 2), it returns true when rotations and translations are trivial, though the default scales are needed at decompression.", "quantifier": "all bit patterns of the floats of a description, all track lists with any default values and scale samples, all additive formats", "why_tests_cant": "There are 2^32 patterns for each float and any number of tracks; the flag is wrong only for particular combinations of default values and samples.", "anchors": ["includes/acl/core/impl/track_desc.impl.h: is_valid", "includes/acl/compression/impl/track.impl.h: is_valid", "includes/acl/compression/impl/compress.transform.impl.h: has_trivial_default_values", "includes/acl/compression/impl/compact.transform.h: are_scales_constant, are_scales_default, compact_constant_streams", "includes/acl/core/compressed_tracks.h: has_trivial_default_values"]}
{"id": "C86", "title": "Vectors and rotations packed in a format of a fixed size come back within the precision of the format", "statement": "For vectors in the range of the format (unsigned [0, 1], signed [-1, 1]), pack_vector4_64, pack_vector4_32, pack_vector3_u48/s48, pack_vector3_u24/s24 and pack_vector3_32 with any widths of 1 to 23 bits that add up to 32 write exactly 8, 4, 6, 3 and 4 bytes, and the function that unpacks the format gives every component back within half a step of the format plus float rounding. Whatever the bytes are, unpacking them gives a value in range, and packing this value again gives the same bytes. pack_quat_48 and pack_quat_32 store q or -q, whichever has a w that is not negative; unpacking gives back x, y and z within the precision of the format, and for a unit rotation w within a square root of it; q and -q are stored as the same bytes. The results do not depend on the target having a fused multiply-add. Finding: pack_vector3_32 accepts a width of 24 or more, for which the value 1 overflows into the next component.", "quantifier": "all vectors in range, all buffers and their contents, all widths, unsigned and signed, with and without fused multiply-add, any square root with 22 bits", "why_tests_cant": "There are 2^32 floats per component and 2^64 contents of a buffer; a rounding that leaves the range of a width or carries into the next component is only seen at particular values.", "anchors": ["includes/acl/math/vector4_packing.h: pack_vector4_64, unpack_vector4_64, pack_vector4_32, unpack_vector4_32, pack_vector3_u48_unsafe, pack_vector3_s48_unsafe, pack_vector3_32, unpack_vector3_32, pack_vector3_u24_unsafe, pack_vector3_s24_unsafe", "includes/acl/math/quat_packing.h: pack_quat_48, unpack_quat_48, pack_quat_32, unpack_quat_32"]}
{"id": "C87", "title": "Compressing scalar tracks gives every block of memory back, except the result", "statement": "For every list of scalar tracks, compress_track_list gives back to the allocator every block it asked for, with the size it asked for, except the compressed tracks it returns; blocks of others are left alone. This holds when it fails too: a list that is not valid allocates nothing, and samples that are not finite give an error with nothing left. The result has a sample less and is marked to wrap exactly when loops are to be optimized, the list has tracks and two samples or more, was not marked to wrap, and every last sample is like the first; otherwise it has the samples and the mark of the list, and no samples when every track is stripped. The number of its tracks is the number of tracks that have an output index. (Contrast with transform tracks, C82, which leak when samples are not finite.)", "quantifier": "all numbers of tracks, samples and stripped tracks, all settings, all states of the allocator", "why_tests_cant": "Blocks are given back by destructors with counts the context holds, which other steps change; an error at any point must free exactly what was allocated so far.", "anchors": ["includes/acl/compression/impl/compress.impl.h: compress_track_list", "includes/acl/compression/impl/compress.scalar.impl.h: compress_scalar_track_list", "includes/acl/compression/impl/track_list_context.h: track_list_context, copy_and_promote_track_list, create_output_track_mapping, initialize_context", "includes/acl/compression/impl/optimize_looping.scalar.h: optimize_looping"]}
{"id": "C88", "title": "The base of an additive clip is sampled at the same fraction of its duration as the clip", "statement": "When a clip is compressed or its error is measured with an additive base, the base is sampled at time / duration of the clip times the duration of the base, up to the rounding of two float operations, never before its start nor after its end; later in the clip is never earlier in the base; both start together and end together. A base of one sample is always sampled at its start. Findings: the nearest sample index the error metric is given is scaled by the number of samples of the base instead of by the last index, so it is one past the last sample at the end of the clip and off by one well before; and with a clip of one sample on an animated base, the time is 0 / 0.", "quantifier": "all sample counts of the base below 2^24, all durations, all times within the clip", "why_tests_cant": "The bounds hold for every float time only because of monotonicity of rounding; tests sample a few clips.", "anchors": ["includes/acl/compression/impl/quantize.transform.h: quantization_context::set_segment", "includes/acl/compression/impl/track_error.impl.h: calculate_transform_track_error", "includes/acl/compression/impl/rigid_shell_utils.h: compute_clip_shell_distances"]}
{"id": "C89", "title": "Measuring an error and converting back to raw tracks give back the memory they use", "statement": "Every overload of calculate_compression_error gives back to the allocator each block it asks for, with the size it asked for, and leaves the blocks of others, for every number of tracks, samples and stripped tracks and every error metric; transforms without a metric are answered without memory. convert_track_list from compressed tracks succeeds exactly when they are valid and every track has a description: then the blocks of the list that receives the result are replaced by those of the result (a track per track with room for its samples, names of the same length), and destroying it gives everything back; otherwise that list is as it was and nothing is left of what was asked for.", "quantifier": "all track lists, samples, names, metrics, previous results and states of the allocator", "why_tests_cant": "Optional buffers, temporaries of names and errors in the middle make many paths; a wrong size on one path goes unseen with malloc.", "anchors": ["includes/acl/compression/impl/track_error.impl.h: calculate_compression_error, calculate_scalar_track_error, calculate_transform_track_error", "includes/acl/core/impl/debug_track_writer.h: debug_track_writer", "includes/acl/compression/impl/convert.impl.h: convert_track_list", "includes/acl/core/string.h: string", "includes/acl/compression/track.h: set_name"]}
{"id": "C90", "title": "The allocator that ships with the library", "statement": "For every size and power of two alignment, ansi_allocator asks the system for a size that is a multiple of the alignment and less than one alignment more than asked; where it aligns by itself (Android), the pointer it returns is aligned, its memory and the padding stored in front lie within the block of malloc, nothing else is written, and deallocate finds that block again whatever was written elsewhere. With its checks on, no assertion fails exactly when only live allocations are given back with their size, and the count is the number of live allocations plus that of failed ones, so the destructor's assertion holds exactly when nothing leaked and nothing failed. Findings: sizes close to 2^64 wrap around to a block that is too small, and one failed allocation makes the destructor assert although nothing leaked.", "quantifier": "all sizes, alignments, addresses and contents of memory; all histories of calls", "why_tests_cant": "Address dependent padding and arbitrary histories.", "anchors": ["includes/acl/core/ansi_allocator.h: ansi_allocator", "includes/acl/core/memory_utils.h: align_to"]}
{"id": "C91", "title": "Names of levels, formats, types and algorithms are read back as what they were written for", "statement": "For every string, get_compression_level, get_rotation_format, get_vector_format, get_algorithm_type, get_additive_clip_format and get_track_type give the value of the longest known name, old names included, that the string starts with; when there is none, or the pointer is null, they fail and leave the output as it was. A name given for a value is read back as that value, and the name given for what is not a value is not read. Findings: strings that only start like a name are read; types the library does not have are read as values without an enumerator (\"float1d\" is 5); a vector format that is not a value is named as the variable one.", "quantifier": "all strings, all values, all previous contents of the output", "why_tests_cant": "Names are tested as prefixes in a fixed order, where a short name before a longer one hides it (low, lowest); a test can only try some strings.", "anchors": ["includes/acl/compression/impl/compression_level.impl.h: get_compression_level, get_compression_level_name", "includes/acl/core/impl/track_formats.impl.h: get_rotation_format, get_vector_format, get_rotation_format_name, get_vector_format_name", "includes/acl/core/track_types.h: get_track_type, get_track_type_name", "includes/acl/core/algorithm_types.h: get_algorithm_type, get_algorithm_name", "includes/acl/core/additive_utils.h: get_additive_clip_format, get_additive_clip_format_name"]}
