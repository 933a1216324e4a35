import Verif.Transform.RangeReductionLemmas
/- Error analysis of the normalization and of the reconstruction. -/
namespace Acl.RangeReduction
open Acl.F32 Acl.Lerp Acl.ScalarPacking

attribute [local irreducible] maxValue

theorem zeroExtent_pos : 0 < zeroExtent := by decide +kernel
theorem zeroExtent_float : rnd zeroExtent = zeroExtent := by decide +kernel

theorem tiny_le {E : ℚ} (hE : zeroExtent ≤ E) : pow2 (-148) ≤ E / 2 ^ 100 ∧ pow2 (-150) ≤ E / 2 ^ 100 := by
  have h1 : pow2 (-148) ≤ zeroExtent / 2 ^ 100 := by decide +kernel
  have h2 : pow2 (-150) ≤ zeroExtent / 2 ^ 100 := by decide +kernel
  have : zeroExtent / 2 ^ 100 ≤ E / 2 ^ 100 := by
    apply div_le_div_of_nonneg_right hE; positivity
  constructor <;> linarith

/-- One normalization. -/
theorem normalize_err {v mn mx E : ℚ} (hE : zeroExtent ≤ E) (h0 : mn ≤ v) (hF : rnd (v - mn) ≤ E) :
    0 ≤ normalizeSample v (Range.mk mn mx E) ∧ normalizeSample v (Range.mk mn mx E) ≤ 1 ∧
    |normalizeSample v (Range.mk mn mx E) * E - (v - mn)| ≤ E / 2 ^ 22 ∧
    IsFloat (normalizeSample v (Range.mk mn mx E)) := by
  have hpos : 0 < E := lt_of_lt_of_le zeroExtent_pos hE
  have hn0 : 0 ≤ rnd (v - mn) := rnd_nonneg (by linarith)
  unfold normalizeSample fsub fdiv
  simp only []
  rw [if_neg (not_lt.mpr hE)]
  set F := rnd (v - mn) with hFd
  have q0 : 0 ≤ F / E := div_nonneg hn0 hpos.le
  have q1 : F / E ≤ 1 := by rw [div_le_one hpos]; exact hF
  have r0 := rnd_nonneg q0
  have r1 : rnd (F / E) ≤ 1 := by have := rnd_mono q1; rwa [rnd_one] at this
  rw [min_eq_left r1]
  have hfl : IsFloat (rnd (F / E)) := by
    refine isFloat_rnd (lt_of_le_of_lt (b := 1) ?_ (by decide +kernel))
    rw [abs_of_nonneg q0]; exact q1
  refine ⟨r0, r1, ?_, hfl⟩
  obtain ⟨-, t2⟩ := tiny_le hE
  have e1 := abs_le.mp (rnd_err' (q := v - mn) (B := v - mn) (by rw [abs_of_nonneg (by linarith)]))
  rw [← hFd] at e1
  have e2 := abs_le.mp (rnd_err' (q := F / E) (B := 1) (by rw [abs_of_nonneg q0]; exact q1))
  have e3 : rnd (F / E) * E - F = (rnd (F / E) - F / E) * E := by
    rw [sub_mul, div_mul_cancel₀ _ hpos.ne']
  have t3 : pow2 (-150) ≤ 1 / 2 ^ 100 := by decide +kernel
  have e4 : (rnd (F / E) - F / E) * E ≤ (1 / 2 ^ 24 + 1 / 2 ^ 100) * E :=
    mul_le_mul_of_nonneg_right (by linarith [e2.2]) hpos.le
  have e5 : -(1 / 2 ^ 24 + 1 / 2 ^ 100) * E ≤ (rnd (F / E) - F / E) * E :=
    mul_le_mul_of_nonneg_right (by linarith [e2.1]) hpos.le
  rw [← e3] at e4 e5
  have hD : v - mn ≤ 2 * E := by linarith [e1.1]
  rw [abs_le]
  constructor <;> linarith [e1.1, e1.2]

/-- The reconstruction of the decoder, given the quantization error `h` of the normalized sample. -/
theorem reconstruct_err (fused : Bool) {u n2 n1 pmin pext mn E v h : ℚ}
    (hE : zeroExtent ≤ E) (hu : 0 ≤ u ∧ u ≤ 1) (hn1 : 0 ≤ n1 ∧ n1 ≤ 1)
    (hp : 0 ≤ pmin ∧ pmin ≤ 1) (hx : 0 ≤ pext ∧ pext ≤ 1)
    (h1 : |n1 * E - (v - mn)| ≤ E / 2 ^ 22) (h2 : |n2 * pext - (n1 - pmin)| ≤ pext / 2 ^ 22)
    (h3 : |u - n2| ≤ h + 1 / 2 ^ 21) (hh : 0 ≤ h ∧ h ≤ 1 / 2) :
    |mulAdd fused (mulAdd fused u pext pmin) E mn - v| ≤ E * pext * h + E / 2 ^ 19 + |mn| / 2 ^ 24 ∧
    mn - (E / 2 ^ 19 + |mn| / 2 ^ 24) ≤ mulAdd fused (mulAdd fused u pext pmin) E mn ∧
    mulAdd fused (mulAdd fused u pext pmin) E mn ≤ mn + E * (pmin + pext) + (E / 2 ^ 19 + |mn| / 2 ^ 24) := by
  have hpos : 0 < E := lt_of_lt_of_le zeroExtent_pos hE
  obtain ⟨t1, -⟩ := tiny_le hE
  have t0 : pow2 (-148) ≤ 1 / 2 ^ 100 := by decide +kernel
  have hup0 : 0 ≤ u * pext := mul_nonneg hu.1 hx.1
  have hup1 : u * pext ≤ pext := by nlinarith
  have m1 := mulAdd_err fused (a := u) (b := pext) (c := pmin) (P := 1) (Q := 2)
    (by rw [abs_of_nonneg hup0]; linarith) (by rw [abs_of_nonneg (by linarith)]; linarith)
  set d1 := mulAdd fused u pext pmin with hd1
  obtain ⟨m1a, m1b⟩ := abs_le.mp m1
  have hb0 : -1 / 2 ^ 21 ≤ d1 := by linarith
  have hb1 : d1 ≤ pmin + pext + 1 / 2 ^ 21 := by linarith
  -- quantization
  have k1 : (u - n2) * pext ≤ (h + 1 / 2 ^ 21) * pext :=
    mul_le_mul_of_nonneg_right (abs_le.mp h3).2 hx.1
  have k2 : -(h + 1 / 2 ^ 21) * pext ≤ (u - n2) * pext := by
    have := mul_le_mul_of_nonneg_right (abs_le.mp h3).1 hx.1
    linarith
  obtain ⟨h2a, h2b⟩ := abs_le.mp h2
  have g1 : d1 - n1 ≤ pext * h + (1 / 2 ^ 20 + 1 / 2 ^ 100) := by
    linarith [hx.2]
  have g2 : -(pext * h + (1 / 2 ^ 20 + 1 / 2 ^ 100)) ≤ d1 - n1 := by
    linarith [hx.2]
  -- clip
  have hph : 0 ≤ pext * h := mul_nonneg hx.1 hh.1
  have hd1E : |d1 * E| ≤ 3 * E := by
    rw [abs_mul, abs_of_pos hpos]
    refine mul_le_mul_of_nonneg_right ?_ hpos.le
    rw [abs_le]; constructor <;> linarith
  have hQ : |d1 * E + mn| ≤ 3 * E + |mn| := (abs_add_le _ _).trans (by linarith)
  obtain ⟨m2a, m2b⟩ := abs_le.mp (mulAdd_err fused hd1E hQ)
  obtain ⟨h1a, h1b⟩ := abs_le.mp h1
  have j1 : (d1 - n1) * E ≤ (pext * h + (1 / 2 ^ 20 + 1 / 2 ^ 100)) * E := mul_le_mul_of_nonneg_right g1 hpos.le
  have j2 : -(pext * h + (1 / 2 ^ 20 + 1 / 2 ^ 100)) * E ≤ (d1 - n1) * E := mul_le_mul_of_nonneg_right g2 hpos.le
  have j3 : d1 * E ≤ (pmin + pext + 1 / 2 ^ 21) * E := mul_le_mul_of_nonneg_right hb1 hpos.le
  have j4 : -1 / 2 ^ 21 * E ≤ d1 * E := mul_le_mul_of_nonneg_right hb0 hpos.le
  refine ⟨?_, ?_, ?_⟩
  · rw [abs_le]
    constructor <;> linarith
  · linarith
  · linarith

end Acl.RangeReduction
