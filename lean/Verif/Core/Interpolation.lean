import Verif.Float.F32
/-
Sample indices, interpolation factors and durations.
/repo/includes/acl/core/impl/interpolation_utils.impl.h
/repo/includes/acl/core/impl/time_utils.impl.h
/repo/includes/acl/core/impl/compressed_tracks.impl.h:81-125 (durations)
/repo/includes/acl/decompression/impl/decompression.transform.h:207-241 (seek)

Floats are rationals rounded with `F32.rnd` (see Verif/Float/F32.lean). `none` is undefined behaviour: a float
outside the range of uint32_t converted to it. Asserts are not modelled.
-/
namespace Acl.Interp
open Acl.F32

/-- core/sample_rounding_policy.h -/
inductive Rounding where | none | floor | ceil | nearest | perTrack
  deriving DecidableEq, Repr

/-- core/sample_looping_policy.h, without `non_looping` (an alias of clamp) -/
inductive Looping where | clamp | wrap | asCompressed
  deriving DecidableEq, Repr

/-- A float result that may be +infinity. -/
inductive FInf where | fin (x : ℚ) | inf
  deriving DecidableEq, Repr

/-- `a / b` for positive operands, with overflow to infinity (largest float: (2 - 2^-23) 2^127; the rounded
result is at least 2^128 exactly when IEEE returns infinity). -/
def fdivInf (a b : ℚ) : FInf := if fdiv a b < pow2 128 then .fin (fdiv a b) else .inf

/-- Conversion to uint32_t: truncation, undefined out of range. -/
def toU32 (x : ℚ) : Option Nat := if -1 < x ∧ x < 2 ^ 32 then some ⌊x⌋.toNat else none

/-- interpolation_utils.impl.h:261-279 apply_rounding_policy -/
def applyRounding (alpha : ℚ) : Rounding → ℚ
  | .none => alpha
  | .perTrack => alpha
  | .floor => 0
  | .ceil => 1
  | .nearest => (⌊fadd alpha (1 / 2)⌋ : ℚ)

/-- interpolation_utils.impl.h:85-117 and 167-200: the part common to both variants, from `sample_index`. -/
def samplesOfIndex (n : Nat) (sampleIndex : ℚ) (rounding : Rounding) (looping : Looping) :
    Option (Nat × Nat × ℚ) := do
  let last := (n + 2 ^ 32 - 1) % 2 ^ 32
  let i0 ← toU32 sampleIndex
  let next := (i0 + 1) % 2 ^ 32
  if looping = .clamp then
    pure (i0, min next last, applyRounding (fsub sampleIndex (ofNat i0)) rounding)
  else if last < i0 then
    pure (0, 0, applyRounding (fsub 0 (ofNat 0)) rounding)
  else
    pure (i0, (if n ≤ next then 0 else next), applyRounding (fsub sampleIndex (ofNat i0)) rounding)

/-- interpolation_utils.impl.h:140-201 find_linear_interpolation_samples_with_sample_rate -/
def samplesWithRate (n : Nat) (rate time : ℚ) (rounding : Rounding) (looping : Looping) :
    Option (Nat × Nat × ℚ) :=
  samplesOfIndex n (fmul time rate) rounding looping

/-- interpolation_utils.impl.h:59-118 find_linear_interpolation_samples_with_duration -/
def samplesWithDuration (n : Nat) (duration time : ℚ) (rounding : Rounding) (looping : Looping) :
    Option (Nat × Nat × ℚ) :=
  let last := (n + 2 ^ 32 - 1) % 2 ^ 32
  let rate :=
    if duration = 0 then 0
    else if looping = .clamp then fdiv (ofNat last) duration
    else fdiv (ofNat n) duration
  samplesOfIndex n (fmul time rate) rounding looping

/-- interpolation_utils.impl.h:219-252 find_linear_interpolation_alpha (indices are uint32_t) -/
def interpolationAlpha (sampleIndex : ℚ) (i0 i1 : Nat) (rounding : Rounding) : ℚ :=
  if rounding = .floor then 0
  else if rounding = .ceil then 1
  else if i0 = i1 then 0
  else
    let alpha :=
      if i0 < i1 then fdiv (fsub sampleIndex (ofNat i0)) (ofNat (i1 - i0))
      else fsub sampleIndex (ofNat i0)
    if rounding = .none ∨ rounding = .perTrack then alpha
    else (⌊fadd alpha (1 / 2)⌋ : ℚ)

/-- time_utils.impl.h:56-70 calculate_num_samples -/
def calculateNumSamples (duration : FInf) (rate : ℚ) : Option Nat :=
  match duration with
  | .inf => some 1
  | .fin d =>
    if d = 0 then some 0
    else (toU32 (⌊fadd (fmul d rate) (1 / 2)⌋ : ℚ)).map fun k => (k + 1) % 2 ^ 32

/-- time_utils.impl.h:83-94 calculate_duration -/
def calculateDuration (n : Nat) (rate : ℚ) : FInf :=
  if n = 0 then .fin 0
  else if n = 1 then .inf
  else fdivInf (ofNat (n - 1)) rate

/-- time_utils.impl.h:103-113 calculate_finite_duration -/
def calculateFiniteDuration (n : Nat) (rate : ℚ) : FInf :=
  if n ≤ 1 then .fin 0
  else fdivInf (ofNat (n - 1)) rate

/-- The fields of tracks_header read here. `isOldVersion` is `version <= v02_00_00`. -/
structure Clip where
  numSamples : Nat
  sampleRate : ℚ
  isOldVersion : Bool
  isWrapOptimized : Bool

/-- compressed_tracks.impl.h:85-93, 107-115, and get_looping_policy: what `as_compressed` stands for -/
def resolveLooping (c : Clip) : Looping → Looping
  | .asCompressed => if c.isOldVersion then .clamp else if c.isWrapOptimized then .wrap else .clamp
  | p => p

/-- compressed_tracks.impl.h:95-98: one more sample when wrapping a non-empty clip -/
def loopedNumSamples (c : Clip) (p : Looping) : Nat :=
  if resolveLooping c p = .wrap ∧ c.numSamples ≠ 0 then (c.numSamples + 1) % 2 ^ 32 else c.numSamples

/-- compressed_tracks.impl.h:81-101 get_duration -/
def Clip.duration (c : Clip) (p : Looping) : FInf := calculateDuration (loopedNumSamples c p) c.sampleRate

/-- compressed_tracks.impl.h:103-123 get_finite_duration -/
def Clip.finiteDuration (c : Clip) (p : Looping) : FInf :=
  calculateFiniteDuration (loopedNumSamples c p) c.sampleRate

/-- rtm::scalar_clamp(t, 0, max) -/
def clampTime (t : ℚ) : FInf → ℚ
  | .fin d => min (max t 0) d
  | .inf => max t 0

/-- decompression.transform.h:207-241 / decompression.scalar.h:182-203: seek on a context bound to clip `c`
with looping policy `p` (`clamp` or `wrap`, resolved at initialization), `clampTimes` is the setting
clamp_sample_time. Returns the two key frames and the interpolation factor. -/
def seek (c : Clip) (p : Looping) (clampTimes : Bool) (time : ℚ) (rounding : Rounding) :
    Option (Nat × Nat × ℚ) :=
  let t := if clampTimes then clampTime time (c.finiteDuration p) else time
  samplesWithRate c.numSamples c.sampleRate t rounding (resolveLooping c p)

end Acl.Interp
