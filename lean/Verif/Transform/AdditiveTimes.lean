import Verif.Core.ScalarPacking
/-
Where the base of an additive clip is sampled.
/repo/includes/acl/compression/impl/quantize.transform.h:287-299 (set_segment), track_error.impl.h:338-348 (calculate_transform_track_error),
rigid_shell_utils.h:105-112 (compute_clip_shell_distances): the same computation three times; the index is in the first two

RTM is not in the repository: scalar_round_bankers rounds to the nearest integer, ties to even. Times are finite floats; a division by
zero (NaN, as only 0 / 0 can be) is `none`, and so is the conversion to uint32_t of what does not fit.
-/
namespace Acl.AdditiveTimes
open Acl.F32 Acl.ScalarPacking

/-- `a / b` -/
def divide (a b : ℚ) : Option ℚ := if b = 0 then none else some (fdiv a b)

/-- quantize.transform.h:289, track_error.impl.h:340, rigid_shell_utils.h:111: normalized_sample_time -/
def normalizedTime (numBase : Nat) (time duration : ℚ) : Option ℚ := if numBase > 1 then divide time duration else some 0

/-- quantize.transform.h:290, track_error.impl.h:341, rigid_shell_utils.h:112: additive_sample_time -/
def baseTime (numBase : Nat) (normalized baseDuration : ℚ) : ℚ := if numBase > 1 then fmul normalized baseDuration else 0

/-- rtm::scalar_round_bankers -/
def roundBankers (x : ℚ) : Int :=
  if x - ⌊x⌋ < 1 / 2 then ⌊x⌋
  else if 1 / 2 < x - ⌊x⌋ then ⌊x⌋ + 1
  else if ⌊x⌋ % 2 = 0 then ⌊x⌋ else ⌊x⌋ + 1

/-- quantize.transform.h:297, track_error.impl.h:346: nearest_base_sample_index, which the error metric is given -/
def baseIndex (numBase : Nat) (normalized : ℚ) : Option Nat := castU32 (roundBankers (fmul normalized (ofNat numBase)))

/-- The time at which the base is sampled, and the index the error metric is told -/
def sampleBase (numBase : Nat) (duration baseDuration time : ℚ) : Option (ℚ × Nat) :=
  (normalizedTime numBase time duration).bind fun n => (baseIndex numBase n).map fun i => (baseTime numBase n baseDuration, i)

end Acl.AdditiveTimes
