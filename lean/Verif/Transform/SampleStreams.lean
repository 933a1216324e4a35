import Verif.Transform.Quantize
/-
What the compressor measures while it searches for bit rates: samples as they would come out of the decoder.
/repo/includes/acl/compression/impl/sample_streams.h:161-215 (rotations), 306-355 (translations), 443-493 (scales)
/repo/includes/acl/math/vector4_packing.h:662-672 decay_vector3_u48, 893-903 decay_vector3_uXX

One component at a time, X, Y or Z; the W of a rotation is not modelled. `fused` says if rtm::vector_mul_add rounds once.
The raw stream a raw bit rate is sampled from holds the samples before they are normalized; a rotation is converted to the
format again, which gives what the clip holds (`RawBone.sample`).
-/
namespace Acl.Transform
open Acl.F32 Acl.Lerp Acl.ScalarPacking Acl.RangeReduction

/-- vector4_packing.h:893-903 decay_vector3_uXX; 662-672 decay_vector3_u48 with 16 bits. What rounds is floor, so it is exact. -/
def decay (x : ℚ) (n : Nat) : ℚ :=
  fmul (roundSymmetric (fmul x (ofNat (maxValue n)))) (fdiv 1 (ofNat (maxValue n)))

/-- sample_streams.h:180-187, 323-328: decayed at the bit rate -/
def RawBone.decayed (b : RawBone) (r : RawClip) (g : Nat) (kind : Kind) (i rate : Nat) (lane : Axis) : ℚ :=
  if isConstantBitRate rate then decay (b.clipNormalized r kind lane (r.start g)) 16
  else decay (b.normalized r g kind lane i) ((getNumBitsAtBitRate rate).getD 0)

/-- sample_streams.h:191-200, 333-341: the segment range; not for the constant bit rate, and only with several segments -/
def RawBone.undoSegment (fused : Bool) (b : RawBone) (r : RawClip) (g : Nat) (kind : Kind) (rate : Nat) (lane : Axis) (x : ℚ) : ℚ :=
  if r.sizes.length > 1 ∧ isConstantBitRate rate = false then
    mulAdd fused x (b.segmentRangeOf r g kind lane).extent (b.segmentRangeOf r g kind lane).min
  else x

/-- sample_streams.h:202-209, 343-350: the clip range -/
def RawBone.undoClip (fused : Bool) (b : RawBone) (r : RawClip) (kind : Kind) (lane : Axis) (x : ℚ) : ℚ :=
  mulAdd fused x (b.clipRangeOf r kind lane).extent (b.clipRangeOf r kind lane).min

/-- sample_streams.h:161-215, 306-355, 443-493: sample `i` of segment `g` at a bit rate; 124-159, 217-300, 357-440 without
one, for a format that is not variable: it was not normalized (compress.transform.impl.h:188-198). -/
def RawBone.measured (fused : Bool) (b : RawBone) (r : RawClip) (g : Nat) (kind : Kind) (i rate : Nat) (lane : Axis) : ℚ :=
  if r.isVariable kind = false then b.value kind lane (r.start g + i)
  else if isRawBitRate rate then b.value kind lane (r.start g + i)
  else b.undoClip fused r kind lane (b.undoSegment fused r g kind rate lane (b.decayed r g kind i rate lane))



/-! ## The sample that is measured -/

/-- sample_streams.h:577-600: the nearest key frame, within the segment; uint32_t arithmetic -/
def clampKey0 (start size : Nat) (s : Nat × Nat × ℚ) : Nat × ℚ :=
  let key := (s.1 + 2 ^ 32 - start) % 2 ^ 32
  if size ≤ key then (0, 1) else (key, s.2.2)

def clampKey1 (start size : Nat) (s : Nat × Nat × ℚ) (alpha : ℚ) : Nat × ℚ :=
  let key := (s.2.1 + 2 ^ 32 - start) % 2 ^ 32
  if size ≤ key then (size - 1, 0) else (key, alpha)

def segmentKey (start size : Nat) (s : Nat × Nat × ℚ) : Nat :=
  if (clampKey1 start size s (clampKey0 start size s).2).2 = 0 then (clampKey0 start size s).1
  else (clampKey1 start size s (clampKey0 start size s).2).1

/-- sample_streams.h:556-601 get_uniform_sample_key, of a segment of a clip with `n` samples -/
def uniformSampleKey (n : Nat) (rate : ℚ) (start size : Nat) (time : ℚ) : Option Nat :=
  (Acl.Interp.samplesWithRate n rate time .nearest .clamp).map (segmentKey start size)

/-- quantize.transform.h:720, 772, 819, 869: `sample_indexf`, a float that is incremented -/
def sampleIndexf (start : Nat) : Nat → ℚ
  | 0 => ofNat start
  | i + 1 => fadd (sampleIndexf start i) 1

/-- quantize.transform.h:726-728, 824: `sample_time` -/
def sampleTime (rate duration : ℚ) (start i : Nat) : ℚ := min (fdiv (sampleIndexf start i) rate) duration

end Acl.Transform
