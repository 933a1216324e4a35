import Verif.Core.Lerp
import Verif.Core.ScalarPacking
/-
Range reduction of transform tracks: clip ranges, segment ranges, normalization, quantization and the
reconstruction of the decoder.
/repo/includes/acl/compression/impl/normalize.transform.h:50-75 (ranges), 109-200 (segment ranges), 202-300 (normalization)
/repo/includes/acl/compression/impl/track_stream.h:349-395 (track_stream_range)
/repo/includes/acl/compression/impl/write_range_data.h:208-340 (8 bit segment ranges)
/repo/includes/acl/decompression/impl/animated_track_cache.transform.h:347,459,847,864,944,958,1087,1096

One component (SIMD lane) at a time: every operation here is lane wise. Floats are rationals rounded with
`F32.rnd`. rtm::vector_div is taken as the IEEE division (it is on SSE and NEON64).
-/
namespace Acl.RangeReduction
open Acl.F32 Acl.Lerp Acl.ScalarPacking

/-- track_stream.h:349-395 track_stream_range, one lane -/
structure Range where
  min : ℚ
  max : ℚ
  extent : ℚ

/-- track_stream.h:352-355 from_min_max -/
def fromMinMax (mn mx : ℚ) : Range := Range.mk mn mx (fsub mx mn)

/-- track_stream.h:357-360 from_min_extent -/
def fromMinExtent (mn ex : ℚ) : Range := Range.mk mn (fadd mn ex) ex

/-- normalize.transform.h:50-75 calculate_track_range, one lane -/
def trackRange (samples : List ℚ) : Range :=
  if samples = [] then fromMinMax 0 0
  else fromMinMax (samples.foldl min 10000000000) (samples.foldl max (-10000000000))

/-- `max_range_value_flt`: 8 bits -/
def maxRangeValue : ℚ := 255
/-- `inv_max_range_value` -/
def invMaxRangeValue : ℚ := fdiv 1 maxRangeValue

/-- normalize.transform.h:131-137: the 8 bit minimum, rounded down -/
def quantizedMin0 (range : Range) : ℚ := min (max (⌊fmul range.min maxRangeValue⌋ : ℚ) 0) maxRangeValue

/-- normalize.transform.h:126-166 fixup_range -/
def fixupRange (range : Range) : Range :=
  let quantizedMin0 := quantizedMin0 range
  let quantizedMin1 := max (fsub quantizedMin0 1) 0
  let paddedMin0 := fmul quantizedMin0 invMaxRangeValue
  let paddedMin1 := fmul quantizedMin1 invMaxRangeValue
  let paddedMin := if paddedMin0 ≤ range.min then paddedMin0 else paddedMin1
  let rangeExtent := fsub range.max paddedMin
  let quantizedExtent0 := min (max (⌈fmul rangeExtent maxRangeValue⌉ : ℚ) 0) maxRangeValue
  let quantizedExtent1 := min (fadd quantizedExtent0 1) maxRangeValue
  let paddedExtent0 := fmul quantizedExtent0 invMaxRangeValue
  let paddedExtent1 := fmul quantizedExtent1 invMaxRangeValue
  let paddedExtent := if range.max ≤ paddedExtent0 then paddedExtent0 else paddedExtent1
  fromMinExtent paddedMin paddedExtent

/-- The literal `0.000000001F` -/
def zeroExtent : ℚ := rnd (1 / 1000000000)

/-- normalize.transform.h:202-212 normalize_sample, and the loops 236-256, 277-297, 318-338 -/
def normalizeSample (sample : ℚ) (range : Range) : ℚ :=
  if range.extent < zeroExtent then 0
  else min (fdiv (fsub sample range.min) range.extent) 1

/-- write_range_data.h:265-300: a segment range component on 8 bits (pack_vector3_u24_unsafe) -/
def storeSegmentRange (range : Range) : Option (Nat × Nat) := do
  let mn ← packUnsigned range.min 8
  let ex ← packUnsigned range.extent 8
  pure (mn, ex)

/-- animated_track_cache.transform.h:327-345, 838-846: a segment range component as the decoder loads it -/
def loadSegmentRange (stored : Nat × Nat) : ℚ × ℚ := (unpackUnsigned stored.1 8, unpackUnsigned stored.2 8)

/-- The encoder for one component of a quantized sample: clip range, segment range, `n` bits.
normalize.transform.h (both passes), quantize.transform.h (pack_vector3_uXX_unsafe) -/
def encode (clip segment : Range) (n : Nat) (sample : ℚ) : Option Nat :=
  packUnsigned (normalizeSample (normalizeSample sample clip) segment) n

/-- The decoder for one component of a quantized sample; `segment` is the loaded segment range.
animated_track_cache.transform.h:847+864, 944+958, 1087+1096 -/
def decode (fused : Bool) (clip : Range) (segment : ℚ × ℚ) (n stored : Nat) : ℚ :=
  mulAdd fused (mulAdd fused (unpackUnsigned stored n) segment.2 segment.1) clip.extent clip.min

/-- The encoder of a clip with a single segment, which has no segment range -/
def encodeClipOnly (clip : Range) (n : Nat) (sample : ℚ) : Option Nat :=
  packUnsigned (normalizeSample sample clip) n

/-- The decoder of a clip with a single segment (has_segments false) -/
def decodeClipOnly (fused : Bool) (clip : Range) (n stored : Nat) : ℚ :=
  mulAdd fused (unpackUnsigned stored n) clip.extent clip.min

end Acl.RangeReduction
