import Verif.Scalar.Writer
import Verif.Float.Bits
import Verif.Core.Lerp
import Verif.Core.ScalarPacking
import Verif.Core.Interpolation
/-
From the raw samples of a scalar track list to the quantized track list.
/repo/includes/acl/compression/impl/compress.scalar.impl.h:64-92 (the passes, in order)
/repo/includes/acl/compression/impl/track_range_impl.h:44-65, track_range.h:51-75 (ranges)
/repo/includes/acl/compression/impl/compact.scalar.h:44-80 (constant tracks)
/repo/includes/acl/compression/impl/normalize.scalar.h:44-75
/repo/includes/acl/compression/impl/quantize.scalar.h:46-165
and the values the decoder computes (decompression.scalar.h:279-478).

Floats are rationals rounded with `F32.rnd`; samples are stored as bit patterns. A vector is a function of the
lane; the lanes above the components of the track type are zero in the code (copy_and_promote_track_list) and are
left out: their range is zero and they pass every test. `fused` says whether the target has fused multiply-add.
rtm::vector_load1 (not in the repository) fills the first lane of the precision used by quantize.scalar.h:89; what it
leaves in the others is the parameter `upper`.
-/
namespace Acl.Scalar
open Acl.F32 Acl.Lerp Acl.ScalarPacking

/-- The raw track list: `track_array` with scalar tracks, as far as the compressor reads it. -/
structure RawList where
  trackType : TrackType
  numSamples : Nat
  /-- `track_output_indices` -/
  outputIndices : List Nat
  /-- `track_desc_scalarf::precision` of every track -/
  precision : Nat → ℚ
  /-- samples by track and sample index -/
  sample : Nat → Nat → List (BitVec 32)

/-- One lane of a sample. -/
def RawList.value (r : RawList) (track sample lane : Nat) : ℚ := ofBits ((r.sample track sample).getD lane 0)

/-- The samples of one lane. -/
def RawList.lane (r : RawList) (track lane : Nat) : List ℚ :=
  (List.range r.numSamples).map fun s => r.value track s lane

/-- track_range_impl.h:44-65 extract_scalarf_range, the minimum -/
def rangeMinOf (r : RawList) (track lane : Nat) : ℚ := (r.lane track lane).foldl min 10000000000

/-- track_range_impl.h:44-65 with track_range.h:59 from_min_max, the extent -/
def rangeExtentOf (r : RawList) (track lane : Nat) : ℚ :=
  fsub ((r.lane track lane).foldl max (-10000000000)) (rangeMinOf r track lane)

/-- compact.scalar.h:44-48 and track_range.h:70: constant when every extent is below the precision -/
def isConstantTrack (r : RawList) (track : Nat) : Bool :=
  (List.range (numSampleElements r.trackType)).all fun k => decide (|rangeExtentOf r track k| < r.precision track)

/-- normalize.scalar.h:44-75 normalize_scalarf_track -/
def normalizedOf (r : RawList) (track sample lane : Nat) : ℚ :=
  if rangeExtentOf r track lane < rnd (1 / 1000000000) then 0
  else min (fdiv (fsub (r.value track sample lane) (rangeMinOf r track lane)) (rangeExtentOf r track lane)) 1

/-- quantize.scalar.h:75-83 pack_vector4_uXX: a float with an integer value -/
def packedOf (n : Nat) (x : ℚ) : Int := roundSymmetric (fmul x (ofNat (maxValue n)))

/-- quantize.scalar.h:63-72 decay_vector4_uXX -/
def decayOf (n : Nat) (x : ℚ) : ℚ := fmul (packedOf n x : ℚ) (fdiv 1 (ofNat (maxValue n)))

/-- quantize.scalar.h:89: the precision, lane by lane -/
def laneThreshold (r : RawList) (upper : ℚ) (track lane : Nat) : ℚ := if lane = 0 then r.precision track else upper

/-- quantize.scalar.h:117-135: one sample at a bit width, within the precision -/
def sampleOk (fused : Bool) (upper : ℚ) (r : RawList) (track n sample : Nat) : Bool :=
  (List.range (numSampleElements r.trackType)).all fun k =>
    decide (|fsub (r.value track sample k)
      (mulAdd fused (decayOf n (normalizedOf r track sample k)) (rangeExtentOf r track k) (rangeMinOf r track k))| ≤
        laneThreshold r upper track k)

/-- quantize.scalar.h:113-136: all the samples at a bit rate -/
def bitRateOk (fused : Bool) (upper : ℚ) (r : RawList) (track bitRate : Nat) : Bool :=
  (List.range r.numSamples).all fun s => sampleOk fused upper r track ((getNumBitsAtBitRate bitRate).getD 0) s

/-- quantize.scalar.h:106-145: lower the bit rate until one fails; `bitRate` is tried next, `best` is the last good -/
def searchBitRate (ok : Nat → Bool) : Nat → Nat → Nat
  | 0, best => best
  | bitRate + 1, best => if ok (bitRate + 1) then searchBitRate ok bitRate (bitRate + 1) else best

/-- quantize.scalar.h:104, 147: the bit rate, raw (24) by default, 23 is tried first -/
def bitRateOf (fused : Bool) (upper : ℚ) (r : RawList) (track : Nat) : Nat :=
  searchBitRate (bitRateOk fused upper r track) 23 24

/-- quantize.scalar.h:149-165: the quantized samples of the selected bit rate, cast to uint32_t when they are written
(write_track_data_impl.h:173); there is nothing past the last sample -/
def quantizedOf (fused : Bool) (upper : ℚ) (r : RawList) (track sample : Nat) : List (BitVec 32) :=
  (List.range (numSampleElements r.trackType)).map fun k =>
    if sample < r.numSamples then
      BitVec.ofNat 32 (packedOf ((getNumBitsAtBitRate (bitRateOf fused upper r track)).getD 0) (normalizedOf r track sample k)).toNat
    else 0

/-- compress.scalar.impl.h:73-92: the passes, from the raw list to the list that is written -/
def quantizeList (fused : Bool) (upper : ℚ) (r : RawList) : TrackList where
  trackType := r.trackType
  numSamples := r.numSamples
  outputIndices := r.outputIndices
  isConstant := isConstantTrack r
  bitRate := bitRateOf fused upper r
  reference := r.sample
  quantized := quantizedOf fused upper r
  rangeMin := fun i => (List.range (numSampleElements r.trackType)).map fun k => toBits (rangeMinOf r i k)
  rangeExtent := fun i => (List.range (numSampleElements r.trackType)).map fun k => toBits (rangeExtentOf r i k)

/-! ## The values of the decoder -/

/-- The interpolation factor as a number: `t` is the factor the seek found. -/
def evalAlpha (t : ℚ) : Alpha → ℚ
  | .seek => t
  | .zero => Interp.applyRounding t .floor
  | .one => Interp.applyRounding t .ceil
  | .roundedNearest => Interp.applyRounding t .nearest

/-- decompression.scalar.h:279-308, 335-346: one component of a key frame -/
def evalSample (fused : Bool) (k : Nat) : Sample → ℚ
  | .raw v => ofBits (v.getD k 0)
  | .quantized n v mn ex =>
    mulAdd fused (unpackUnsigned (v.getD k 0).toNat n) (ofBits (ex.getD k 0)) (ofBits (mn.getD k 0))

/-- decompression.scalar.h:311, 350, 389, 428, 467: one component of the value given to the writer -/
def evalValue (fused : Bool) (t : ℚ) (k : Nat) : Value → ℚ
  | .constant v => ofBits (v.getD k 0)
  | .lerp a b alpha => lerp fused (evalSample fused k a) (evalSample fused k b) (evalAlpha t alpha)

end Acl.Scalar
