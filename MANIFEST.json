{
 "claims": [
  {
   "property": "C01",
   "status": "proved",
   "theorems": [
    "Acl.C01.C01_count_set_bits_u32",
    "Acl.C01.C01_count_set_bits_u64",
    "Acl.C01.C01_count_set_bits_u16",
    "Acl.C01.C01_count_set_bits_u8",
    "Acl.C01.C01_count_leading_zeros",
    "Acl.C01.C01_count_trailing_zeros",
    "Acl.C01.C01_and_not",
    "Acl.C01.C01_rotate_bits_left"
   ],
   "note": ""
  },
  {
   "property": "C02",
   "status": "proved",
   "theorems": [
    "Acl.C02.C02_bitset_refines_set",
    "Acl.C02.C02_bitset_count",
    "Acl.C02.C02_description_covers",
    "Acl.C02.C02_memset_exists"
   ],
   "note": ""
  },
  {
   "property": "C03",
   "status": "proved",
   "theorems": [
    "Acl.C03.C03_is_power_of_two",
    "Acl.C03.C03_align_to",
    "Acl.C03.C03_align_to_tight",
    "Acl.C03.C03_is_aligned_to",
    "Acl.C03.C03_align_to_u32",
    "Acl.C03.C03_required_padding"
   ],
   "note": ""
  },
  {
   "property": "C04",
   "status": "proved",
   "theorems": [
    "Acl.C04.C04_byte_swap_u16",
    "Acl.C04.C04_byte_swap_u32",
    "Acl.C04.C04_byte_swap_u64",
    "Acl.C04.C04_byte_swap_involutive"
   ],
   "note": ""
  },
  {
   "property": "C05",
   "status": "proved",
   "theorems": [
    "Acl.C05.C05_memcpy_bits",
    "Acl.C05.C05_memcpy_bits_frame"
   ],
   "note": ""
  },
  {
   "property": "C06",
   "status": "proved",
   "theorems": [
    "Acl.C06.C06_incremental",
    "Acl.C06.C06_single_byte_detected_32",
    "Acl.C06.C06_single_byte_detected_64",
    "Acl.C06.C06_hash_combine_injective",
    "Acl.C06.C06_corruption_detected",
    "Acl.C06.C06_database_corruption_detected",
    "Acl.C06.C06_size_field_unprotected"
   ],
   "note": ""
  },
  {
   "property": "C07",
   "status": "proved",
   "theorems": [
    "Acl.C07.C07_pack_fits",
    "Acl.C07.C07_unpack_unit",
    "Acl.C07.C07_pack_monotone",
    "Acl.C07.C07_unpack_monotone",
    "Acl.C07.C07_round_trip",
    "Acl.C07.C07_error",
    "Acl.C07.C07_wide_finding"
   ],
   "note": "Binary32 round to nearest even on rationals (Verif/Float/F32.lean). 1 to 23 bits; C07_wide_finding shows 24 bits overflow."
  },
  {
   "property": "C08",
   "status": "proved",
   "theorems": [
    "Acl.C08.C08_pack_fits",
    "Acl.C08.C08_unpack_range",
    "Acl.C08.C08_round_trip"
   ],
   "note": "Binary32 rounding; 1 to 23 bits."
  },
  {
   "property": "C09",
   "status": "proved",
   "theorems": [
    "Acl.C09.C09_vector3_round_trip",
    "Acl.C09.C09_raw_round_trip",
    "Acl.C09.C09_zero_bits_undefined"
   ],
   "note": ""
  },
  {
   "property": "C10",
   "status": "proved",
   "theorems": [
    "Acl.C10.C10_floor_ceil_none",
    "Acl.C10.C10_nearest",
    "Acl.C10.C10_nearest_tie_finding",
    "Acl.C10.C10_unit",
    "Acl.C10.C10_monotone"
   ],
   "note": "Binary32 rounding. The exception in the statement is C10_nearest_tie_finding."
  },
  {
   "property": "C11",
   "status": "proved",
   "theorems": [
    "Acl.C11.C11_seek",
    "Acl.C11.C11_with_duration",
    "Acl.C11.C11_position",
    "Acl.C11.C11_loop_end",
    "Acl.C11.C11_floor_at_end_finding",
    "Acl.C11.C11_unbounded_finding"
   ],
   "note": "Binary32 rounding; findings: floor at the end of a loop, sample counts above 2^24."
  },
  {
   "property": "C12",
   "status": "proved",
   "theorems": [
    "Acl.C12.C12_round_trip",
    "Acl.C12.C12_finite_monotone",
    "Acl.C12.C12_static",
    "Acl.C12.C12_overflow_finding",
    "Acl.C12.C12_large_finding"
   ],
   "note": "Binary32 rounding; findings: overflow of the duration, sample counts above 2^24."
  },
  {
   "property": "C13",
   "status": "proved",
   "theorems": [
    "Acl.C13.C13_type_round_trip",
    "Acl.C13.C13_table_size",
    "Acl.C13.C13_walk_visits_class",
    "Acl.C13.C13_counts_before",
    "Acl.C13.C13_each_track_once"
   ],
   "note": "type table round trip, walks of decompress_tracks and counts of decompress_track, any number of tracks"
  },
  {
   "property": "C14",
   "status": "proved",
   "theorems": [
    "Acl.C14.C14_pose_exactly_once",
    "Acl.C14.C14_each_sub_track_once"
   ],
   "note": "Values are terms: the writer default, the constant loaded, or the two samples and how they are combined. Any track count, any classes."
  },
  {
   "property": "C15",
   "status": "proved",
   "theorems": [
    "Acl.C15.C15_single_track",
    "Acl.C15.C15_out_of_range",
    "Acl.C15.C15_agrees_with_pose"
   ],
   "note": "Equal events when rounding is not per track; with per track rounding the two paths combine the same samples under the same policy, by different formulas (slot of four versus rounded alpha). decompress_track does not ask the writer's skip functions. See C11 for the nearest policy."
  },
  {
   "property": "C16",
   "status": "proved",
   "theorems": [
    "Acl.C16.C16_size",
    "Acl.C16.C16_pose_rotations",
    "Acl.C16.C16_single_rotation",
    "Acl.C16.C16_translations",
    "Acl.C16.C16_scales"
   ],
   "note": ""
  },
  {
   "property": "C17",
   "status": "proved",
   "theorems": [
    "Acl.C17.C17_sizes",
    "Acl.C17.C17_each_sample_in_one_segment",
    "Acl.C17.C17_start_indices",
    "Acl.C17.C17_samples_preserved"
   ],
   "note": ""
  },
  {
   "property": "C18",
   "status": "proved",
   "theorems": [
    "Acl.C18.C18_finds_segments",
    "Acl.C18.C18_default_settings",
    "Acl.C18.C18_needs_slack"
   ],
   "note": ""
  },
  {
   "property": "C19",
   "status": "proved",
   "theorems": [
    "Acl.C19.C19_nearest_retained",
    "Acl.C19.C19_retained_unchanged"
   ],
   "note": ""
  },
  {
   "property": "C20",
   "status": "proved",
   "theorems": [
    "Acl.C20.C20_seek",
    "Acl.C20.C20_other_time",
    "Acl.C20.C20_earlier",
    "Acl.C20.C20_streaming_finding",
    "Acl.C20.C20_policy_finding"
   ],
   "note": "The pose is what the decompression model reads: the tracks, the two key frames, the factor, bulk pointers and rounding; C14-C16 and C08 turn these into values. Findings (C20_streaming_finding, C20_policy_finding): seek at the same time and rounding returns early although tiers were streamed or the policy changed."
  },
  {
   "property": "C21",
   "status": "proved",
   "theorems": [
    "Acl.C21.C21_strip",
    "Acl.C21.C21_boundaries_kept",
    "Acl.C21.C21_proportion",
    "Acl.C21.C21_reason",
    "Acl.C21.C21_threshold_stops"
   ],
   "note": "Float product proportion*frames and the threshold comparison are abstract; the sum of the saved bits is assumed < 2^32."
  },
  {
   "property": "C22",
   "status": "proved",
   "theorems": [
    "Acl.C22.C22_tiers"
   ],
   "note": "Model: Verif/Database/Tiers.lean (legacy clip versions not modelled; float product proportion*frames uninterpreted; std::sort = any sorted permutation)."
  },
  {
   "property": "C23",
   "status": "proved",
   "theorems": [
    "Acl.C23.C23_chunks"
   ],
   "note": "Model: Verif/Database/Chunks.lean. Headers are records, sample data is bytes written with memcpy_bits; sizes are naturals. That every segment fits in a chunk with its padding and header is a hypothesis: the code asserts it."
  },
  {
   "property": "C24",
   "status": "proved",
   "theorems": [
    "Acl.C24.C24_refines_specification",
    "Acl.C24.C24_requests_in_range",
    "Acl.C24.C24_stream_in_total",
    "Acl.C24.C24_no_second_request",
    "Acl.C24.C24_deallocation_safe",
    "Acl.C24.C24_zero_count_streams_all"
   ],
   "note": ""
  },
  {
   "property": "C25",
   "status": "partial",
   "theorems": [
    "Acl.C25.C25_done_iff",
    "Acl.C25.C25_refuted",
    "Acl.C25.C25_stream_out_reads_unloaded",
    "Acl.C25.C25_whole_stream_out_partial",
    "Acl.C25.C25_fill_partial"
   ],
   "note": "False in general: C25_refuted (stream out one of 4 loaded chunks, then stream_in reports done) and C25_stream_out_reads_unloaded (undefined behaviour). Proved: exact condition for done after any history, and the full property for histories that only stream out whole tiers, with progress."
  },
  {
   "property": "C26",
   "status": "proved",
   "theorems": [
    "Acl.C26.C26_identifier_sequence",
    "Acl.C26.C26_identifiers_distinct",
    "Acl.C26.C26_stale_identifier_no_effect",
    "Acl.C26.C26_live_until_finished",
    "Acl.C26.C26_finished_only_once"
   ],
   "note": ""
  },
  {
   "property": "C27",
   "status": "proved",
   "theorems": [
    "Acl.C27.C27_nearest_in_memory",
    "Acl.C27.C27_fully_streamed"
   ],
   "note": ""
  },
  {
   "property": "C28",
   "status": "proved",
   "theorems": [
    "Acl.C28.C28_read_own",
    "Acl.C28.C28_read_other",
    "Acl.C28.C28_read_in_range",
    "Acl.C28.C28_last_write_wins",
    "Acl.C28.C28_database_inline_flag"
   ],
   "note": ""
  },
  {
   "property": "C29",
   "status": "partial",
   "theorems": [
    "Acl.C29.C29_track_name",
    "Acl.C29.C29_parent",
    "Acl.C29.C29_scalar_description",
    "Acl.C29.C29_transform_description",
    "Acl.C29.C29_name_partial",
    "Acl.C29.C29_name_finding",
    "Acl.C29.C29_contributing_error"
   ],
   "note": "Every accessor but get_name is proved for every combination of settings. get_name: C29_name_partial holds when track names are also requested or neither is; C29_name_finding shows get_name (compressed_tracks.impl.h) tests the track-name offset and so loses the list name when only the list name was requested."
  },
  {
   "property": "C30",
   "status": "proved",
   "theorems": [
    "Acl.C30.C30_round_trip",
    "Acl.C30.C30_follows_mapping"
   ],
   "note": "Model: Verif/Layout/Metadata.lean, byte-level write_track_names and get_track_name, including the metadata header offsets; also follows the output-index mapping."
  },
  {
   "property": "C31",
   "status": "proved",
   "theorems": [
    "Acl.C31.C31_valid_outputs",
    "Acl.C31.C31_bijection",
    "Acl.C31.C31_parents"
   ],
   "note": "Model: Verif/Raw/TrackArray.lean. C31_valid_outputs shows the check of the output indices is exact (iff)."
  },
  {
   "property": "C32",
   "status": "proved",
   "theorems": [
    "Acl.C32.C32_sections",
    "Acl.C32.C32_contents",
    "Acl.C32.C32_no_overrun"
   ],
   "note": "Transform clips: the whole buffer is written as bytes in the model (writes fail out of bounds) and read back through the offsets stored in it. C32_sections: order, no overlap, alignment, all inside the reported size; C32_contents: what each section holds; C32_no_overrun: no write is out of bounds. Scalar clips: C35."
  },
  {
   "property": "C33",
   "status": "proved",
   "theorems": [
    "Acl.C33.C33_same",
    "Acl.C33.C33_success",
    "Acl.C33.C33_values"
   ],
   "note": "Model: Verif/Raw/TrackArray.lean; the blends of RTM are arbitrary functions."
  },
  {
   "property": "C34",
   "status": "proved",
   "theorems": [
    "Acl.C34.C34_pose_is_tracks",
    "Acl.C34.C34_one_event",
    "Acl.C34.C34_track_of_pose"
   ],
   "note": "Any buffer, any writer. Values are terms over loaded bits; decompress_track does not ask skip_track."
  },
  {
   "property": "C35",
   "status": "proved",
   "theorems": [
    "Acl.C35.C35_round_trip",
    "Acl.C35.C35_round_trip_pose"
   ],
   "note": "Compressor (write_track_data_impl.h, compress.scalar.impl.h layout) to both decompression paths; quantized samples are integers; animated bits below 2^32 (the code checks it)."
  },
  {
   "property": "C36",
   "status": "proved",
   "theorems": [
    "Acl.C36.C36_split",
    "Acl.C36.C36_strip",
    "Acl.C36.C36_split_accessors",
    "Acl.C36.C36_strip_accessors",
    "Acl.C36.C36_errors",
    "Acl.C36.C36_strip_after_split_finding"
   ],
   "note": "Model: Verif/Database/Buffer.lean, byte level. Pointer alignment of the input is assumed; memcpy with a null pointer and size 0 is taken as a no-op. Sizes are naturals, buffers below 4 GB."
  },
  {
   "property": "C37",
   "status": "proved",
   "theorems": [
    "Acl.C37.C37_close",
    "Acl.C37.C37_between",
    "Acl.C37.C37_end_points",
    "Acl.C37.C37_rotation_end_points",
    "Acl.C37.C37_rotation_between",
    "Acl.C37.C37_rotation_shorter",
    "Acl.C37.C37_equal_samples_finding"
   ],
   "note": "Binary32 lerp as in quatf.h (RTM's own scalar_lerp/vector_lerp are not in the repository and are taken to be the same formula), with and without fused multiply-add; slack is max(|s|,|e|)/2^21 + 2^-146. C37_equal_samples_finding: two equal samples can blend to a different float without fused multiply-add."
  },
  {
   "property": "C38",
   "status": "proved",
   "theorems": [
    "Acl.C38.C38_error",
    "Acl.C38.C38_degenerate",
    "Acl.C38.C38_single_segment"
   ],
   "note": "Binary32 arithmetic: clip range and segment range extraction, both normalizations, packing and the decoder's two multiply-adds (Verif/Transform/RangeReduction.lean), one component at a time; clip extent at least 1e-9 in C38_error, C38_degenerate below it."
  },
  {
   "property": "C39",
   "status": "proved",
   "theorems": [
    "Acl.C39.C39_stored",
    "Acl.C39.C39_contains",
    "Acl.C39.C39_tight",
    "Acl.C39.C39_normalized",
    "Acl.C39.C39_wide_extent_finding"
   ],
   "note": "Binary32. C39_wide_extent_finding shows the extent alone does not make the range stay in [0,1]."
  },
  {
   "property": "C40",
   "status": "proved",
   "theorems": [
    "Acl.C40.C40_is_bound_to",
    "Acl.C40.C40_is_bound_to_database",
    "Acl.C40.C40_initialize",
    "Acl.C40.C40_relocated",
    "Acl.C40.C40_contains",
    "Acl.C40.C40_contains_safe",
    "Acl.C40.C40_foreign_finding",
    "Acl.C40.C40_empty_finding"
   ],
   "note": "Findings: contains only checks the offset against the end, so foreign tracks of hash 0 can be said to be contained (C40_foreign_finding); with a database of no clips the bound wraps and the read is out of bounds (C40_empty_finding). compressed_database::contains is in C47."
  },
  {
   "property": "C41",
   "status": "proved",
   "theorems": [
    "Acl.C41.C41_duration",
    "Acl.C41.C41_start_and_end",
    "Acl.C41.C41_optimized",
    "Acl.C41.C41_same_samples",
    "Acl.C41.C41_scalar_precision",
    "Acl.C41.C41_transform_precision"
   ],
   "note": "Model: Verif/Core/LoopOptimize.lean (scalar and transform loop optimization, the error metric is an arbitrary function), Verif/Core/Interpolation.lean; 'equals sampling at time 0' holds up to the weight n/2^23 + 2^-21 without rounding and exactly with nearest (C11_floor_at_end_finding for floor)."
  },
  {
   "property": "C42",
   "status": "proved",
   "theorems": [
    "Acl.C42.C42_rotation_group_eq_single",
    "Acl.C42.C42_vector_group_eq_single",
    "Acl.C42.C42_rotations_group_eq_single_eq_layout",
    "Acl.C42.C42_vectors_group_eq_single_eq_layout"
   ],
   "note": "Samples are terms over the loaded bits (raw value, segment range, clip range); the masked lanes of the group reader compute v*1+0, which may differ from v in the sign of a zero. Bit offsets are naturals."
  },
  {
   "property": "C43",
   "status": "proved",
   "theorems": [
    "Acl.C43.C43_segment_order",
    "Acl.C43.C43_clip_order",
    "Acl.C43.C43_removal_order"
   ],
   "note": ""
  },
  {
   "property": "C44",
   "status": "proved",
   "theorems": [
    "Acl.C44.C44_check_exact",
    "Acl.C44.C44_checked_cast_keeps_value"
   ],
   "note": ""
  },
  {
   "property": "C45",
   "status": "proved",
   "theorems": [
    "Acl.C45.C45_num_bits",
    "Acl.C45.C45_tests",
    "Acl.C45.C45_monotone",
    "Acl.C45.C45_format_byte",
    "Acl.C45.C45_format_byte_total",
    "Acl.C45.C45_scalar_table",
    "Acl.C45.C45_legacy_table"
   ],
   "note": "Both tables, the predicates, the format byte of transform clips and the scalar decoder."
  },
  {
   "property": "C46",
   "status": "proved",
   "theorems": [
    "Acl.C46.C46_resolves",
    "Acl.C46.C46_null_iff_invalid",
    "Acl.C46.C46_largest_is_invalid",
    "Acl.C46.C46_between"
   ],
   "note": ""
  },
  {
   "property": "C47",
   "status": "proved",
   "theorems": [
    "Acl.C47.C47_build",
    "Acl.C47.C47_build_accessors"
   ],
   "note": "Model: Verif/Database/Buffer.lean, byte level. The chunk descriptions, clip metadata and bulk data are arbitrary inputs (C23 is about them); header fields are stored in one step; sizes are naturals, buffers below 4 GB."
  },
  {
   "property": "C48",
   "status": "proved",
   "theorems": [
    "Acl.C48.C48_precision",
    "Acl.C48.C48_key_frame",
    "Acl.C48.C48_between"
   ],
   "note": "Scalar pipeline from raw samples to decoder values, in binary32 (Verif/Scalar/Quantize.lean). Samples finite and below 2^120, precision non-negative; upper lanes loaded by rtm::vector_load1 are a parameter at most the precision; the compressor and the decoder have the same fused multiply-add."
  },
  {
   "property": "C49",
   "status": "proved",
   "theorems": [
    "Acl.C49.C49_round_trip",
    "Acl.C49.C49_unstripped",
    "Acl.C49.C49_progress"
   ],
   "note": "From the quantized streams to the events of the decoder through every byte of the buffer: the writers of compress.transform (ClipWriter, AnimatedWriter, Layout/Clip) composed with seek, the caches and the readers (C14, C15, C16, C18, C19, C32). Legal clips are described by ClipOk: components fit in their bits, segments split with slack (C18), the data of a segment below 2^32 bits, the buffer below 4 GB, no sub-track constant in a segment when there is one segment. Values are exact (the raw sample and its ranges); their float arithmetic is C38/C39/C43. Without a database."
  },
  {
   "property": "C50",
   "status": "proved",
   "theorems": [
    "Acl.C50.C50_sample_at_time",
    "Acl.C50.C50_accuracy"
   ],
   "note": "Context state machine + float time + bytes: initialize, set_looping_policy, seek, then the frames the decompression functions read. Specification in Props/C50.lean: position, following, Nearest, Blend. Time clamping enabled in the settings; single precision rounded to nearest even (Float/F32.lean)."
  },
  {
   "property": "C51",
   "status": "proved",
   "theorems": [
    "Acl.C51.C51_valid",
    "Acl.C51.C51_corruption",
    "Acl.C51.C51_transform",
    "Acl.C51.C51_duration",
    "Acl.C51.C51_database",
    "Acl.C51.C51_database_corruption"
   ],
   "note": "Any output of the metadata writer (scalar and transform) is valid; accessors and durations for transform clips; databases built, split and stripped. Pointers are assumed aligned to 16 bytes, which allocators guarantee (not modelled)."
  },
  {
   "property": "C52",
   "status": "proved",
   "theorems": [
    "Acl.C52.C52_all_loaded",
    "Acl.C52.C52_nothing_loaded",
    "Acl.C52.C52_round_trip"
   ],
   "note": "Composes C22, C23, C27, C36, C40, C43, C47 and C49 at the level of bytes: the input clips are buffers written by the model of the compressor, the outputs and the database are buffers read by the model of the decoder. The hypothesis InputOk.order is what C43 proves of the contributing error. Sizes below 4 GB are hypotheses (the code does not check them); the proportions are given as frame counts (the float product is not modelled). Only clips of the current version; the segment_index finding of older versions is not covered."
  },
  {
   "property": "C53",
   "status": "proved",
   "theorems": [
    "Acl.C53.C53_accessors",
    "Acl.C53.C53_nothing_moved"
   ],
   "note": "Equality with the accessors of the input clip; C29 and C51 give their values. get_name keeps its finding (C29_name_finding): the value is the same, wrong or not. Conjunct SameAccessors was also added to C52_round_trip, with the same placement of key frames."
  },
  {
   "property": "C54",
   "status": "proved",
   "theorems": [
    "Acl.C54.C54_samples",
    "Acl.C54.C54_total",
    "Acl.C54.C54_asserts",
    "Acl.C54.C54_requests",
    "Acl.C54.C54_split",
    "Acl.C54.C54_honest_streamer",
    "Acl.C54.C54_loads_again"
   ],
   "note": "Any database as C52 builds it, any history. C54_samples: decode agrees with what is loaded and not being streamed out; C54_total/C54_asserts: no call fails; C54_requests: byte ranges given to streamers; C54_split: from clips through build_database and split; C54_honest_streamer: Honors can be met; C54_loads_again: finding. One decoder step reads one snapshot of the context; a decoder that races with the update of the runtime headers: C56."
  },
  {
   "property": "C55",
   "status": "proved",
   "theorems": [
    "Acl.C55.C55_compresses",
    "Acl.C55.C55_decoded",
    "Acl.C55.C55_between",
    "Acl.C55.C55_more_bits"
   ],
   "note": "RawClip is the clip after looping optimization, rotation conversion and constant detection. All legal bit rates are quantified over (the search is not modelled). Rotations are bounded per component x, y, z at key frames; the reconstructed W and the normalized interpolation are not bounded here. The error bound excludes samples beyond 1e10 (normalize.transform.h starts ranges at 1e10)."
  },
  {
   "property": "C56",
   "status": "proved",
   "theorems": [
    "Acl.C56.C56_decompress_while_streaming_in",
    "Acl.C56.C56_split",
    "Acl.C56.C56_stale_pointer_finding"
   ],
   "note": "Any database as C52 builds it, any history followed by any history without a stream_out call. C56_decompress_while_streaming_in: every metadata word loaded at its own moment (also twice for the two key frames), then pointers, then bytes, all at any moments of the trace; C56_split: from clips; C56_stale_pointer_finding: the order metadata-before-pointer is needed and the relaxed atomics do not provide it. Moments are sequentially consistent interleavings of single stores; weak memory beyond that is not modelled. Decompression during stream_out is out of scope (the documentation forbids it)."
  },
  {
   "property": "C57",
   "status": "proved",
   "theorems": [
    "Acl.C57.C57_split",
    "Acl.C57.C57_inline",
    "Acl.C57.C57_accuracy"
   ],
   "note": "C57_split: from clips, through build_database, split_database_bulk_data, any history of the streaming API; C57_inline: bulk data inline, every frame is used; C57_accuracy: the blend is at the time up to float rounding. Sample rate finite and positive, at most 2^23-4 samples (float index is exact), clamped times (clamp_sample_time). Sizes below 2^32 as in C52."
  },
  {
   "property": "C58",
   "status": "proved",
   "theorems": [
    "Acl.C58.C58_sample_at_time",
    "Acl.C58.C58_accuracy"
   ],
   "note": "C58_sample_at_time: every policy, against the frames of the compressed list; C58_accuracy: as_compressed, against the raw list at the same time. Clamped times, at most 2^23-4 samples, finite positive sample rate, buffer below 4 GB, at least one output track. Precision above the first lane (quantize.scalar.h:89 loads one lane) is the parameter upper, at most the precision."
  },
  {
   "property": "C59",
   "status": "proved",
   "theorems": [
    "Acl.C59.C59_chain",
    "Acl.C59.C59_parent_first",
    "Acl.C59.C59_object_space_chain",
    "Acl.C59.C59_object_space_pose",
    "Acl.C59.C59_level",
    "Acl.C59.C59_late_parent_finding",
    "Acl.C59.C59_unordered_finding",
    "Acl.C59.C59_cycle_finding"
   ],
   "note": "Ordered hierarchies for the positive theorems (bone after its parent), which is_valid does not require: the three findings show what happens otherwise. Fewer than 2^32 tracks (level: 2^32-32)."
  },
  {
   "property": "C60",
   "status": "proved",
   "theorems": [
    "Acl.C60.C60_scalar",
    "Acl.C60.C60_all_stripped_finding",
    "Acl.C60.C60_transform",
    "Acl.C60.C60_rounding",
    "Acl.C60.C60_unordered_finding"
   ],
   "note": "Errors are rational (no NaN) and the metric non negative. raw and lossy are arbitrary functions of the sample time; that they are the sampled values is the subject of C33 and C50/C58."
  },
  {
   "property": "C61",
   "status": "proved",
   "theorems": [
    "Acl.C61.C61_shells",
    "Acl.C61.C61_encloses",
    "Acl.C61.C61_precision",
    "Acl.C61.C61_precision_finding"
   ],
   "note": "Distances are in a linear order (no NaN); the distance of a shell moved by a local transform is a parameter, monotone for C61_encloses (true of the Euclidean length of a vertex moved by a transform only up to the three vertices the code uses). C61_precision_finding proves that a bone's own precision is lost when a child dominates."
  },
  {
   "property": "C62",
   "status": "proved",
   "theorems": [
    "Acl.C62.C62_local",
    "Acl.C62.C62_legal",
    "Acl.C62.C62_buffer",
    "Acl.C62.C62_precision",
    "Acl.C62.C62_root",
    "Acl.C62.C62_increments",
    "Acl.C62.C62_gives_up_finding"
   ],
   "note": "Errors are in a linear order (a NaN error is below no threshold and would be accepted as not too high by the scan; excluded). Arrays of bit rates are functions of the bone. C62_gives_up_finding and the exception in C62_increments are findings."
  },
  {
   "property": "C63",
   "status": "proved",
   "theorems": [
    "Acl.C63.C63_lossy",
    "Acl.C63.C63_exact",
    "Acl.C63.C63_lossless",
    "Acl.C63.C63_measure",
    "Acl.C63.C63_total",
    "Acl.C63.C63_has_scale",
    "Acl.C63.C63_empty",
    "Acl.C63.C63_total_finding",
    "Acl.C63.C63_zero_finding"
   ],
   "note": "Errors are in a linear order (a NaN error is not greater than the precision, so the code accepts it; excluded). quat_from_positive_w with normalization, the metric and the base key are parameters. C63_total needs exact arithmetic in the triangle inequality and a default rotation that survives dropping W. C63_total_finding and C63_zero_finding are findings."
  },
  {
   "property": "C64",
   "status": "proved",
   "theorems": [
    "Acl.C64.C64_decoded",
    "Acl.C64.C64_key_frame",
    "Acl.C64.C64_key",
    "Acl.C64.C64_independent"
   ],
   "note": "decay is proved equal to unpacking what is packed, for every float. Rotations are compared before the reconstruction of W and normalization, which both sides apply with the same function (drop W formats). Multiply-add fused or not is a parameter shared by compressor and decoder. Key frames: clips of up to 2^21 samples and a finite duration."
  },
  {
   "property": "C65",
   "status": "proved",
   "theorems": [
    "Acl.C65.C65_compresses",
    "Acl.C65.C65_error",
    "Acl.C65.C65_precision"
   ],
   "note": "Error metric is a parameter on decoded poses (its object space error over the whole skeleton; any linear order). C65_precision needs the monotonicity of the metric (C62.Monotone) and full quaternions; drop W formats are covered by C65_error. Key frame stripping, databases and the error correction of constants are outside. The cache of sampled bit rates is proved transparent in C66."
  },
  {
   "property": "C66",
   "status": "proved",
   "theorems": [
    "Acl.C66.C66_transparent",
    "Acl.C66.C66_measure",
    "Acl.C66.C66_reserved",
    "Acl.C66.C66_key_in_segment",
    "Acl.C66.C66_object",
    "Acl.C66.C66_local",
    "Acl.C66.C66_fifo_finding",
    "Acl.C66.C66_stale_query_finding"
   ],
   "note": "Samples and the functions of sample_streams.h are parameters, instantiated with the streams of C65 in C66_object and C66_local. Offsets are Nat (memory of the cache below 2^32 bytes, unchecked by the code). A sub-track has a bit rate in all queries of a segment or in none, which the search guarantees (Allowed). C66_fifo_finding and C66_stale_query_finding are findings, the latter about an unused way of calling."
  },
  {
   "property": "C67",
   "status": "proved",
   "theorems": [
    "Acl.C67.C67_zero",
    "Acl.C67.C67_attained",
    "Acl.C67.C67_between",
    "Acl.C67.C67_three_points",
    "Acl.C67.C67_two_points",
    "Acl.C67.C67_two_points_sharp",
    "Acl.C67.C67_three_points_sharp",
    "Acl.C67.C67_two_points_finding",
    "Acl.C67.C67_three_points_rigid",
    "Acl.C67.C67_mirror_finding"
   ],
   "note": "Exact real arithmetic; RTM functions (quaternion product, rotation of a vector, matrix product with a point) are not in /repo and modelled from their documentation. C67_two_points_finding and C67_mirror_finding are findings: what the metric cannot see. matrix_from_qvv and the products of local_to_object_space are not part of this (the latter: C60)."
  },
  {
   "property": "C68",
   "status": "proved",
   "theorems": [
    "Acl.C68.C68_round_trip",
    "Acl.C68.C68_round_trip_back",
    "Acl.C68.C68_default",
    "Acl.C68.C68_base_is_default",
    "Acl.C68.C68_no_scale",
    "Acl.C68.C68_translation_error"
   ],
   "note": "Exact real arithmetic; RTM functions modelled from their documentation (qvv_mul for scales that are not negative; qvv_inverse from memory, hence the relative format for uniform base scales only)."
  },
  {
   "property": "C69",
   "status": "proved",
   "theorems": [
    "Acl.C69.C69_at_time",
    "Acl.C69.C69_curve",
    "Acl.C69.C69_neighbours"
   ],
   "note": "Composition of C50 and C55: same models and assumptions (clamping of times enabled, at most 2^23 - 4 samples, finite values). Rotations are interpolated as quaternions and normalized, which is not modelled in float arithmetic: only translations and scales here."
  },
  {
   "property": "C70",
   "status": "proved",
   "theorems": [
    "Acl.C70.C70_lossless",
    "Acl.C70.C70_error",
    "Acl.C70.C70_fails",
    "Acl.C70.C70_nothing",
    "Acl.C70.C70_subtracks",
    "Acl.C70.C70_precision",
    "Acl.C70.C70_looping",
    "Acl.C70.C70_misses_no_rotation",
    "Acl.C70.C70_library_laws",
    "Acl.C70.C70_additive_loop_finding",
    "Acl.C70.C70_total_finding"
   ],
   "note": "Error metric, rigid shells and normalization of RTM are arbitrary functions; an error is a value of a linear order (a NaN error, which the code accepts, is outside of it). C70_library_laws: the metric of the library satisfies the laws used. C70_total_finding: the actions together can exceed the precision. C70_additive_loop_finding: for additive clips the looping test compares different samples of the base, so the last sample can be replaced by one that is arbitrarily far."
  },
  {
   "property": "C71",
   "status": "partial",
   "theorems": [
    "Acl.C71.C71_result",
    "Acl.C71.C71_moved_partial",
    "Acl.C71.C71_constant",
    "Acl.C71.C71_looping",
    "Acl.C71.C71_idempotent_partial",
    "Acl.C71.C71_first_sample_finding"
   ],
   "note": "The full statement is false for the code. C71_first_sample_finding: the maximum of the samples starts with the last one and the loop at index 1 (pre_process.scalar.h:89-97), so the first sample is missed: a track d, 0, 0 is found constant and becomes d, d, d whatever d and the precision. C71_moved_partial and C71_idempotent_partial hold when the first sample is not above all the others in any component; what is missing is the general case. C71_result, C71_constant and C71_looping hold without that condition."
  },
  {
   "property": "C72",
   "status": "proved",
   "theorems": [
    "Acl.C72.C72_transform",
    "Acl.C72.C72_missing",
    "Acl.C72.C72_invalid",
    "Acl.C72.C72_key_frame",
    "Acl.C72.C72_fixed",
    "Acl.C72.C72_within",
    "Acl.C72.C72_lossless",
    "Acl.C72.C72_looping_finding"
   ],
   "note": "Transform tracks only; scalar tracks are not modelled. Zero signs and NaN are outside the float model. C72_looping_finding: the looping policy (and one interval of duration) is lost by the conversion."
  },
  {
   "property": "C73",
   "status": "proved",
   "theorems": [
    "Acl.C73.C73_key_frame",
    "Acl.C73.C73_w",
    "Acl.C73.C73_never_zero",
    "Acl.C73.C73_pose",
    "Acl.C73.C73_track",
    "Acl.C73.C73_lerp_only",
    "Acl.C73.C73_constant",
    "Acl.C73.C73_clip",
    "Acl.C73.C73_never_finding",
    "Acl.C73.C73_order_finding",
    "Acl.C73.C73_positive_w_finding"
   ],
   "note": "C73_clip composes the decoding theorems with compressed clips (components in [-1,1], quantization error at most 1/2). Findings: policy never halves the squared length; the group and single track dot products can disagree on the sign and give orthogonal rotations; quat_from_positive_w4 is not always normalized."
  },
  {
   "property": "C74",
   "status": "proved",
   "theorems": [
    "Acl.C74.C74_hex",
    "Acl.C74.C74_names",
    "Acl.C74.C74_round_trip",
    "Acl.C74.C74_negative_precision_finding",
    "Acl.C74.C74_non_finite_finding",
    "Acl.C74.C74_stale_lane_finding",
    "Acl.C74.C74_looping_finding",
    "Acl.C74.C74_accepted",
    "Acl.C74.C74_in_bounds",
    "Acl.C74.C74_empty_finding",
    "Acl.C74.C74_prefix_finding",
    "Acl.C74.C74_type_finding"
   ],
   "note": "Raw track lists survive write_track_list / read_raw_track_list bit for bit (C74_round_trip, C74_hex, C74_names); every accepted file gives a uniform list and stays inside the counted array (C74_accepted, C74_in_bounds). The sjson library is modelled by its values (keys in order), names without escapes; the decimal text of the sample rate is assumed to give the rate back. The legacy clip format reader is not modelled. Findings: fourth lanes of translations and scales hold the rotation's W, a non finite transform makes the file unreadable with no error set, negative precisions become the default, empty lists are refused, the looping policy is not stored, names are matched by prefix, unsupported type names assert."
  },
  {
   "property": "C75",
   "status": "proved",
   "theorems": [
    "Acl.C75.C75_safe",
    "Acl.C75.C75_no_leak",
    "Acl.C75.C75_copy_values",
    "Acl.C75.C75_ref",
    "Acl.C75.C75_isolated",
    "Acl.C75.C75_strided_finding",
    "Acl.C75.C75_stride_zero_finding",
    "Acl.C75.C75_moved_finding"
   ],
   "note": "Histories of every length. Obligations of the client (Client) are explicit; the findings show which of them the library does not document: get_copy of strided references, stride zero, use of moved-from tracks."
  },
  {
   "property": "C76",
   "status": "proved",
   "theorems": [
    "Acl.C76.C76_samples",
    "Acl.C76.C76_results",
    "Acl.C76.C76_memory",
    "Acl.C76.C76_total",
    "Acl.C76.C76_whole",
    "Acl.C76.C76_split"
   ],
   "note": "All histories of calls, both shipped streamers in any mix; asserts of the streamers always on. A stream_out that meets C25's defect (a block with holes) is the only way a call can fail."
  },
  {
   "property": "C77",
   "status": "proved",
   "theorems": [
    "Acl.C77.C77_scalar",
    "Acl.C77.C77_error",
    "Acl.C77.C77_missing",
    "Acl.C77.C77_invalid",
    "Acl.C77.C77_looping_finding"
   ],
   "note": "Conversion of compressed scalar tracks to raw tracks; within the precision, exact at precision 0; looping finding"
  },
  {
   "property": "C78",
   "status": "proved",
   "theorems": [
    "Acl.C78.C78_universal",
    "Acl.C78.C78_types",
    "Acl.C78.C78_relocated_scalar_finding",
    "Acl.C78.C78_relocated_transform_finding",
    "Acl.C78.C78_versions"
   ],
   "note": "C78_universal holds for histories in which relocated is never called with tracks of the other kind; C78_relocated_scalar_finding and C78_relocated_transform_finding say exactly when such a call is (wrongly) accepted with 64 bit pointers. Sample times are clamped or not negative."
  },
  {
   "property": "C79",
   "status": "proved",
   "theorems": [
    "Acl.C79.C79_local_to_object",
    "Acl.C79.C79_object_to_local",
    "Acl.C79.C79_translations",
    "Acl.C79.C79_order_finding",
    "Acl.C79.C79_in_place_finding"
   ],
   "note": "Exact arithmetic. local_to_object_space is proved for uniform scales (rtm::qvv_mul itself is not exact for others); object_to_local_space for rigid transforms, with the exact criterion when it is right; C79_order_finding and C79_in_place_finding show where it is wrong."
  },
  {
   "property": "C80",
   "status": "proved",
   "theorems": [
    "Acl.C80.C80_strings",
    "Acl.C80.C80_no_leak",
    "Acl.C80.C80_nul_finding"
   ],
   "note": "All programs over string variables; allocations succeed, sizes are not limited to 64 bits. C80_nul_finding: text with an embedded NUL (asserted against in debug builds)."
  },
  {
   "property": "C81",
   "status": "proved",
   "theorems": [
    "Acl.C81.C81_database_accepted",
    "Acl.C81.C81_database_sum",
    "Acl.C81.C81_empty_tiers_refused",
    "Acl.C81.C81_accepted",
    "Acl.C81.C81_refusal_true",
    "Acl.C81.C81_database_refusal_true",
    "Acl.C81.C81_presets",
    "Acl.C81.C81_enabled",
    "Acl.C81.C81_hash_separates",
    "Acl.C81.C81_database_hash_separates",
    "Acl.C81.C81_hash_not_unique",
    "Acl.C81.C81_example"
   ],
   "note": "Every bit pattern of the floats. C81_empty_tiers_refused, C81_presets (default settings with database support) and C81_hash_not_unique are findings. An error metric is represented by its hash."
  },
  {
   "property": "C82",
   "status": "proved",
   "theorems": [
    "Acl.C82.C82_results",
    "Acl.C82.C82_refused",
    "Acl.C82.C82_balanced",
    "Acl.C82.C82_wrong_size",
    "Acl.C82.C82_every_segment",
    "Acl.C82.C82_not_finite_leaks",
    "Acl.C82.C82_default_full",
    "Acl.C82.C82_example"
   ],
   "note": "What depends on sample values (constant sub-tracks, looping, quantized sizes) is an arbitrary choice; type sizes are parameters. C82_wrong_size, C82_every_segment, C82_not_finite_leaks and C82_default_full are findings. The bit rate database and its queries are not modelled."
  },
  {
   "property": "C83",
   "status": "proved",
   "theorems": [
    "Acl.C83.C83_refused",
    "Acl.C83.C83_current",
    "Acl.C83.C83_older_null_read",
    "Acl.C83.C83_older_leak",
    "Acl.C83.C83_example"
   ],
   "note": "C83_older_null_read and C83_older_leak are findings. Failing allocations are not modelled."
  },
  {
   "property": "C84",
   "status": "proved",
   "theorems": [
    "Acl.C84.C84_layout",
    "Acl.C84.C84_history",
    "Acl.C84.C84_balanced",
    "Acl.C84.C84_failed",
    "Acl.C84.C84_fresh",
    "Acl.C84.C84_bulk",
    "Acl.C84.C84_forgets",
    "Acl.C84.C84_stale",
    "Acl.C84.C84_collision",
    "Acl.C84.C84_example"
   ],
   "note": "C84_forgets, C84_stale and C84_collision are findings. Failing allocations are not modelled."
  },
  {
   "property": "C85",
   "status": "proved",
   "theorems": [
    "Acl.C85.C85_accepted",
    "Acl.C85.C85_error",
    "Acl.C85.C85_trivial",
    "Acl.C85.C85_additive1",
    "Acl.C85.C85_no_scale",
    "Acl.C85.C85_has_scale",
    "Acl.C85.C85_scale_lost",
    "Acl.C85.C85_example"
   ],
   "note": "C85_additive1 and C85_scale_lost are findings. quat_is_normalized and quat_near_identity are parameters; default values are finite, which validity requires."
  },
  {
   "property": "C86",
   "status": "proved",
   "theorems": [
    "Acl.C86.C86_vector4_64",
    "Acl.C86.C86_vector4_64_stable",
    "Acl.C86.C86_vector4_32",
    "Acl.C86.C86_vector4_32_stable",
    "Acl.C86.C86_vector3_48",
    "Acl.C86.C86_vector3_48_stable",
    "Acl.C86.C86_vector3_24",
    "Acl.C86.C86_vector3_24_stable",
    "Acl.C86.C86_vector3_32",
    "Acl.C86.C86_vector3_32_stable",
    "Acl.C86.C86_wide_finding",
    "Acl.C86.C86_quat_48",
    "Acl.C86.C86_quat_32",
    "Acl.C86.C86_quat_48_w",
    "Acl.C86.C86_quat_32_w",
    "Acl.C86.C86_opposite"
   ],
   "note": "C86_wide_finding: widths of 24 and more overflow. The 128 and 96 bit formats (raw floats) are in C06/C13; the square root is any with 22 bits."
  },
  {
   "property": "C87",
   "status": "proved",
   "theorems": [
    "Acl.C87.C87_invalid",
    "Acl.C87.C87_not_finite",
    "Acl.C87.C87_done",
    "Acl.C87.C87_outputs"
   ],
   "note": "Statistics (compiled out by default) and failing allocations are not modelled."
  },
  {
   "property": "C88",
   "status": "proved",
   "theorems": [
    "Acl.C88.C88_time",
    "Acl.C88.C88_monotone",
    "Acl.C88.C88_start",
    "Acl.C88.C88_end_finding",
    "Acl.C88.C88_nearest_finding",
    "Acl.C88.C88_static",
    "Acl.C88.C88_zero_duration_finding"
   ],
   "note": "NaN and infinite times are not modelled; how a list is sampled at that time is not repeated here."
  },
  {
   "property": "C89",
   "status": "proved",
   "theorems": [
    "Acl.C89.C89_measure",
    "Acl.C89.C89_measure_none",
    "Acl.C89.C89_converted",
    "Acl.C89.C89_refused",
    "Acl.C89.C89_destroyed"
   ],
   "note": "Failing allocations, and a receiving list that uses another allocator, are not modelled."
  },
  {
   "property": "C90",
   "status": "proved",
   "theorems": [
    "Acl.C90.C90_size",
    "Acl.C90.C90_size_wraps_finding",
    "Acl.C90.C90_posix_alignment",
    "Acl.C90.C90_android_fits",
    "Acl.C90.C90_android_frees",
    "Acl.C90.C90_android_writes",
    "Acl.C90.C90_sanitized",
    "Acl.C90.C90_android_wraps_finding",
    "Acl.C90.C90_checks",
    "Acl.C90.C90_count",
    "Acl.C90.C90_destructor",
    "Acl.C90.C90_failed_finding"
   ],
   "note": "The Windows branch has no arithmetic of its own. The count is an unbounded integer (int32_t in the code) and calls are in one order."
  },
  {
   "property": "C91",
   "status": "proved",
   "theorems": [
    "Acl.C91.C91_reads",
    "Acl.C91.C91_round_trip",
    "Acl.C91.C91_vector_finding",
    "Acl.C91.C91_prefix_finding",
    "Acl.C91.C91_type_finding"
   ],
   "note": "Assertions on null pointers are not modelled."
  }
 ]
}