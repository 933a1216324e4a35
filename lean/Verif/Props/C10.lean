import Verif.Core.InterpolationLemmas
/-!
# C10: rounding policy semantics

`apply_rounding_policy` turns the interpolation factor between an earlier and a later sample into another
factor. Selecting a sample means blending with weight 1 on it.
-/
namespace Acl.C10
open Acl.F32 Acl.Interp

/-- Specification: the weights (earlier, later) of a blend with factor `a`. -/
def weights (a : ℚ) : ℚ × ℚ := (1 - a, a)

/-- Specification: the sample used is exactly the earlier (later) one. -/
def SelectsEarlier (a : ℚ) : Prop := weights a = (1, 0)
def SelectsLater (a : ℚ) : Prop := weights a = (0, 1)

/-- floor always selects the earlier sample, ceil the later one; none and per_track do not change the factor. -/
theorem C10_floor_ceil_none (a : ℚ) :
    SelectsEarlier (applyRounding a .floor) ∧ SelectsLater (applyRounding a .ceil) ∧
    applyRounding a .none = a ∧ applyRounding a .perTrack = a := by
  refine ⟨?_, ?_, rfl, rfl⟩ <;> simp [SelectsEarlier, SelectsLater, weights, applyRounding]

/-- nearest selects the later sample from one half on, the earlier one below one half; the only float that is
rounded the wrong way is 1/2 - 2^-25, the one just below one half: see `C10_nearest_tie_finding`. -/
theorem C10_nearest (a : ℚ) (hf : IsFloat a) (h0 : 0 ≤ a) (h1 : a ≤ 1) :
    (1 / 2 ≤ a → SelectsLater (applyRounding a .nearest)) ∧
    (a < 1 / 2 → a ≠ 1 / 2 - 1 / 2 ^ 25 → SelectsEarlier (applyRounding a .nearest)) := by
  constructor
  · intro h; rw [nearest_ge_half h h1]; simp [SelectsLater, weights]
  · intro h hne
    have hle : a ≤ 1 / 2 - 1 / 2 ^ 24 := by
      -- floats below one half are multiples of 2^-25 or smaller than one quarter
      by_cases hq : a < 1 / 4
      · norm_num; linarith
      push Not at hq
      obtain ⟨m, e, ha, hm, he, -⟩ := hf
      have hpe := pow2_pos e
      -- m ≥ 1, so e ≤ -2; e ≥ -25 as m < 2^24
      have hmpos : 0 < m := by
        by_contra hc; push Not at hc
        have : (m : ℚ) * pow2 e ≤ 0 := mul_nonpos_of_nonpos_of_nonneg (by exact_mod_cast hc) hpe.le
        rw [← ha] at this; linarith
      rw [abs_of_nonneg hmpos.le] at hm
      have hmq : (m : ℚ) < 2 ^ 24 := by exact_mod_cast hm
      have e25 : -25 ≤ e := by
        by_contra hc; push Not at hc
        have h2 : pow2 e ≤ pow2 (-26) := pow2_mono (by omega)
        have h3 : (m : ℚ) * pow2 e ≤ m * pow2 (-26) := mul_le_mul_of_nonneg_left h2 (by exact_mod_cast hmpos.le)
        have h4 : (m : ℚ) * pow2 (-26) < 2 ^ 24 * pow2 (-26) := mul_lt_mul_of_pos_right hmq (pow2_pos _)
        have h5 : (2 : ℚ) ^ 24 * pow2 (-26) = 1 / 4 := by decide +kernel
        rw [← ha] at h3; linarith
      obtain ⟨k, hk⟩ := Int.eq_ofNat_of_zero_le (show 0 ≤ e + 25 by omega)
      have hz : a = ((m * 2 ^ k : Int) : ℚ) / 2 ^ 25 := by
        rw [ha, show e = (k : Int) + (-25) from by omega, pow2_add, pow2_nat]
        have : pow2 (-25) = 1 / 2 ^ 25 := by decide +kernel
        rw [this]; push_cast; ring
      generalize m * 2 ^ k = z at hz
      have hz1 : z < 2 ^ 24 := by
        have : (z : ℚ) < 2 ^ 24 := by
          rw [hz, div_lt_iff₀ (by norm_num)] at h
          norm_num at h ⊢; linarith
        exact_mod_cast this
      have hz2 : z ≠ 2 ^ 24 - 1 := by
        intro hc; apply hne; rw [hz, hc]; norm_num
      have hz3 : (z : ℚ) ≤ 2 ^ 24 - 2 := by
        have : z ≤ 2 ^ 24 - 2 := by omega
        exact_mod_cast this
      rw [hz, div_le_iff₀ (by norm_num)]
      norm_num at hz3 ⊢; linarith
    rw [nearest_below h0 hle]; simp [SelectsEarlier, weights]

/-- Finding: the float just below one half is nearer to the earlier sample, yet the later one is selected
(`alpha + 0.5F` rounds up to 1). The decoder of whole groups compares with one half instead
(animated_track_cache.transform.h:1527, 1797) and selects the earlier one. -/
theorem C10_nearest_tie_finding :
    IsFloat (1 / 2 - 1 / 2 ^ 25) ∧ SelectsLater (applyRounding (1 / 2 - 1 / 2 ^ 25) .nearest) := by
  constructor
  · exact ⟨2 ^ 24 - 1, -25, by decide +kernel, by decide, by decide, by decide⟩
  · unfold SelectsLater weights; decide +kernel

/-- Every policy keeps the factor between 0 and 1. -/
theorem C10_unit (a : ℚ) (h0 : 0 ≤ a) (h1 : a ≤ 1) (r : Rounding) :
    0 ≤ applyRounding a r ∧ applyRounding a r ≤ 1 := applyRounding_unit h0 h1 r

/-- Rounding is monotone: a later time never selects an earlier sample. -/
theorem C10_monotone (a b : ℚ) (h : a ≤ b) (r : Rounding) : applyRounding a r ≤ applyRounding b r := by
  cases r
  case nearest =>
    simp only [applyRounding, fadd]
    have : ⌊rnd (a + 1 / 2)⌋ ≤ ⌊rnd (b + 1 / 2)⌋ := Int.floor_le_floor (rnd_mono (by linarith))
    exact_mod_cast this
  all_goals simp [applyRounding, h]

/-- The hypotheses are met: factor 3/8. -/
example : IsFloat (3 / 8) ∧ SelectsEarlier (applyRounding (3 / 8) .nearest) := by
  refine ⟨⟨3, -3, by decide +kernel, by decide, by decide, by decide⟩, ?_⟩
  exact (C10_nearest (3 / 8) ⟨3, -3, by decide +kernel, by decide, by decide, by decide⟩ (by norm_num)
    (by norm_num)).2 (by norm_num) (by norm_num)

end Acl.C10
