import Verif.Props.C07
/-!
# C08: signed scalar quantization is bounded and stable
-/
namespace Acl.C08
open Acl.F32 Acl.ScalarPacking

attribute [local irreducible] maxValue

/-- Packing a value of [-1, 1] gives an integer of `n` bits. -/
theorem C08_pack_fits (x : ℚ) (n : Nat) (h0 : -1 ≤ x) (h1 : x ≤ 1) (hn : n ≤ 23) :
    ∃ k, packSigned x n = some k ∧ k < 2 ^ n := by
  unfold packSigned
  have a1 : fmul x (1 / 2) ≤ 1 / 2 := by
    have := rnd_le_dyadic (x := x * (1 / 2)) 1 1 (by decide) (by decide) (by norm_num; linarith)
    simpa [fmul] using this
  have a0 : -1 / 2 ≤ fmul x (1 / 2) := by
    have := dyadic_le_rnd (x := x * (1 / 2)) (-1) 1 (by decide) (by decide) (by norm_num; linarith)
    simpa [fmul] using this
  apply C07.C07_pack_fits _ n _ _ hn
  · exact rnd_nonneg (by linarith)
  · have := rnd_le_dyadic (x := fmul x (1 / 2) + 1 / 2) 1 0 (by decide) (by decide) (by norm_num; linarith)
    simpa [fadd] using this

/-- Unpacking any integer of `n` bits gives a value of [-1, 1], -1 for 0 and 1 for the maximum. -/
theorem C08_unpack_range (v n : Nat) (hn1 : 1 ≤ n) (hn : n ≤ 23) (hv : v < 2 ^ n) :
    -1 ≤ unpackSigned v n ∧ unpackSigned v n ≤ 1 ∧
    unpackSigned 0 n = -1 ∧ unpackSigned (2 ^ n - 1) n = 1 := by
  obtain ⟨h0, h1, hz, hm⟩ := C07.C07_unpack_unit v n hn1 hn hv
  unfold unpackSigned
  refine ⟨?_, ?_, ?_, ?_⟩
  · have b0 : 0 ≤ fmul (unpackUnsigned v n) 2 := rnd_nonneg (by linarith)
    have := dyadic_le_rnd (x := fmul (unpackUnsigned v n) 2 - 1) (-1) 0 (by decide) (by decide) (by norm_num; linarith)
    simpa [fsub] using this
  · have b1 : fmul (unpackUnsigned v n) 2 ≤ 2 := by
      have := rnd_le_dyadic (x := unpackUnsigned v n * 2) 2 0 (by decide) (by decide) (by norm_num; linarith)
      simpa [fmul] using this
    have := rnd_le_dyadic (x := fmul (unpackUnsigned v n) 2 - 1) 1 0 (by decide) (by decide) (by norm_num; linarith)
    simpa [fsub] using this
  · rw [hz]; decide +kernel
  · rw [hm]; decide +kernel

theorem unpack_isFloat {v n : Nat} (hn1 : 1 ≤ n) (hn : n ≤ 23) (hv : v < 2 ^ n) : IsFloat (unpackUnsigned v n) := by
  have hM := maxValue_lt hn (b := 23) le_rfl
  have hM1 := maxValue_pos hn1 hn
  have he := maxValue_eq hn
  have hvm : v ≤ maxValue n := by omega
  obtain ⟨hc, hc0⟩ := inv_max_err hM1 (show maxValue n < 2 ^ 24 by omega)
  unfold unpackUnsigned
  unfold fmul
  rw [ofNat_eq (show v < 2 ^ 24 by omega)]
  apply isFloat_rnd
  rw [abs_of_nonneg (mul_nonneg (Nat.cast_nonneg _) hc0)]
  have h1 : (v : ℚ) * fdiv 1 (ofNat (maxValue n)) ≤ maxValue n * fdiv 1 (ofNat (maxValue n)) :=
    mul_le_mul_of_nonneg_right (by exact_mod_cast hvm) hc0
  rw [mul_comm (maxValue n : ℚ)] at h1
  have h2 := (abs_le.mp hc).2
  have : (2 : ℚ) < pow2 127 := by decide +kernel
  linarith

theorem double_exact {u : ℚ} (hf : IsFloat u) : fmul u 2 = 2 * u := by
  obtain ⟨m, e, rfl, hm, he, -⟩ := hf
  unfold fmul
  rw [show (m : ℚ) * pow2 e * 2 = m * pow2 (e + 1) by rw [pow2_succ]; ring, rnd_exact hm (by omega), pow2_succ]
  ring

/-- Values of [1/4, 1] go through the signed range unchanged. -/
theorem signed_exact {u : ℚ} (hf : IsFloat u) (h0 : 1 / 4 ≤ u) (h1 : u ≤ 1) :
    fadd (fmul (fsub (fmul u 2) 1) (1 / 2)) (1 / 2) = u := by
  rw [double_exact hf]
  have e4 : pow2 (-2) = 1 / 4 := by decide +kernel
  obtain ⟨z, hz⟩ := isFloat_multiple (k := -2) hf (by rw [e4]; exact h0)
  have e25 : pow2 (-2 - 23) = 1 / 2 ^ 25 := by decide +kernel
  rw [e25] at hz
  have hz0 : (0 : ℚ) ≤ z := by rw [hz] at h0; norm_num at h0; linarith
  have hz1 : (z : ℚ) ≤ 2 ^ 25 := by rw [hz] at h1; norm_num at h1; norm_num; linarith
  have hz0' : 0 ≤ z := by exact_mod_cast hz0
  have hz1' : z ≤ 2 ^ 25 := by exact_mod_cast hz1
  have hs : fsub (2 * u) 1 = 2 * u - 1 := by
    unfold fsub
    rcases hz1'.eq_or_lt with hmax | hlt
    · have hu1 : u = 1 := by rw [hz, hmax]; norm_num
      rw [hu1]; decide +kernel
    · have e : 2 * u - 1 = ((z - 2 ^ 24 : Int) : ℚ) / 2 ^ 24 := by rw [hz]; push_cast; ring
      by_cases hmin : z = 0
      · rw [hmin] at hz; norm_num at hz; rw [hz] at h0; norm_num at h0
      · rw [e]
        exact rnd_dyadic _ 24 (by rw [abs_lt]; omega) (by decide)
  rw [hs]
  have hh : fmul (2 * u - 1) (1 / 2) = u - 1 / 2 := by
    unfold fmul
    rcases hz1'.eq_or_lt with hmax | hlt
    · have hu1 : u = 1 := by rw [hz, hmax]; norm_num
      rw [hu1]; decide +kernel
    · by_cases hmin : z = 0
      · rw [hmin] at hz; norm_num at hz; rw [hz] at h0; norm_num at h0
      · have e : (2 * u - 1) * (1 / 2) = ((z - 2 ^ 24 : Int) : ℚ) / 2 ^ 25 := by rw [hz]; push_cast; ring
        rw [e, rnd_dyadic _ 25 (by rw [abs_lt]; omega) (by decide)]
        rw [hz]; push_cast; ring
  rw [hh]
  unfold fadd
  rw [show u - 1 / 2 + 1 / 2 = u by ring]
  exact rnd_of_isFloat hf

/-- Small values come back within 2^-26 + 2^-27. -/
theorem signed_near {u : ℚ} (hf : IsFloat u) (h0 : 0 ≤ u) (h1 : u < 1 / 4) :
    |fadd (fmul (fsub (fmul u 2) 1) (1 / 2)) (1 / 2) - u| ≤ 3 / 2 ^ 27 ∧
    0 ≤ fadd (fmul (fsub (fmul u 2) 1) (1 / 2)) (1 / 2) := by
  rw [double_exact hf]
  -- s is close to 2u - 1, in [-1, -1/2]
  set s := fsub (2 * u) 1 with hs
  have hs1 : |s - (2 * u - 1)| ≤ 1 / 2 ^ 25 := by
    rcases h0.eq_or_lt with hz | hp
    · rw [hs, ← hz]; decide +kernel
    · have := rnd_err_lt (x := 1 - 2 * u) (k := 0) (by omega) (by linarith) (by
        have e0 : pow2 0 = 1 := by decide +kernel
        rw [e0]; linarith)
      have e25 : pow2 (0 - 25) = 1 / 2 ^ 25 := by decide +kernel
      rw [e25] at this
      rw [hs]; unfold fsub
      rw [show 2 * u - 1 = -(1 - 2 * u) by ring, rnd_neg,
        show -rnd (1 - 2 * u) - -(1 - 2 * u) = -(rnd (1 - 2 * u) - (1 - 2 * u)) by ring, abs_neg]
      exact this
  have hslo : -1 ≤ s := by
    have := dyadic_le_rnd (x := 2 * u - 1) (-1) 0 (by decide) (by decide) (by norm_num; linarith)
    rw [hs]; simpa [fsub] using this
  have hshi : s ≤ -1 / 2 := by
    have := rnd_le_dyadic (x := 2 * u - 1) (-1) 1 (by decide) (by decide) (by norm_num; linarith)
    rw [hs]; simpa [fsub] using this
  have hsf : IsFloat s := by
    rw [hs]; unfold fsub
    apply isFloat_rnd
    rw [abs_lt]
    have : (1 : ℚ) < pow2 127 := by decide +kernel
    constructor <;> linarith
  have hhalf : fmul s (1 / 2) = s / 2 := by
    have e1 : pow2 (-1) = 1 / 2 := by decide +kernel
    have hf' : IsFloat (-s) := by
      obtain ⟨m, e, h, hm, he, he2⟩ := hsf
      exact ⟨-m, e, by push_cast; linarith, by rwa [abs_neg], he, he2⟩
    obtain ⟨z, hz⟩ := isFloat_multiple (k := -1) hf' (by rw [e1]; linarith)
    have e24 : pow2 (-1 - 23) = 1 / 2 ^ 24 := by decide +kernel
    rw [e24] at hz
    have hz1 : (z : ℚ) ≤ 2 ^ 24 := by
      have : (z : ℚ) * (1 / 2 ^ 24) ≤ 1 := by rw [← hz]; linarith
      norm_num at this ⊢; linarith
    have hz0 : (0 : ℚ) ≤ z := by
      have : 0 ≤ (z : ℚ) * (1 / 2 ^ 24) := by rw [← hz]; linarith
      norm_num at this ⊢; linarith
    have hz1' : z ≤ 2 ^ 24 := by exact_mod_cast hz1
    have hz0' : 0 ≤ z := by exact_mod_cast hz0
    unfold fmul
    rcases hz1'.eq_or_lt with hmax | hlt
    · have : s = -1 := by rw [hmax] at hz; norm_num at hz; linarith
      rw [this]; decide +kernel
    · have e : s * (1 / 2) = ((-z : Int) : ℚ) / 2 ^ 25 := by push_cast; linarith
      rw [e, rnd_dyadic _ 25 (by rw [abs_lt]; omega) (by decide)]
      push_cast; linarith
  rw [hhalf]
  obtain ⟨s1, s2⟩ := abs_le.mp hs1
  have hq0 : 0 ≤ s / 2 + 1 / 2 := by linarith
  have herr : |rnd (s / 2 + 1 / 2) - (s / 2 + 1 / 2)| ≤ 1 / 2 ^ 27 := by
    rcases (show s / 2 + 1 / 2 ≤ 1 / 4 by linarith).eq_or_lt with he | hl
    · rw [he]; decide +kernel
    · have e2 : pow2 (-2) = 1 / 4 := by decide +kernel
      have := rnd_err_lt (k := -2) (by omega) hq0 (by rw [e2]; exact hl)
      have e27 : pow2 (-2 - 25) = 1 / 2 ^ 27 := by decide +kernel
      rwa [e27] at this
  obtain ⟨r1, r2⟩ := abs_le.mp herr
  unfold fadd
  refine ⟨?_, rnd_nonneg hq0⟩
  rw [abs_le]; constructor <;> linarith

/-- Unpacking then packing again gives the same integer, for every width of the library. -/
theorem C08_round_trip (v n : Nat) (hn1 : 1 ≤ n) (hn : n ≤ 23) (hv : v < 2 ^ n) :
    packSigned (unpackSigned v n) n = some v := by
  have hM := maxValue_lt hn (b := 23) le_rfl
  have hM1 := maxValue_pos hn1 hn
  have he := maxValue_eq hn
  have hvm : v ≤ maxValue n := by omega
  obtain ⟨h0, h1, -, -⟩ := C07.C07_unpack_unit v n hn1 hn hv
  have hf := unpack_isFloat hn1 hn hv
  unfold packSigned unpackSigned
  by_cases hq : 1 / 4 ≤ unpackUnsigned v n
  · rw [signed_exact hf hq h1]; exact C07.C07_round_trip v n hn1 hn hv
  · push Not at hq
    obtain ⟨hnear, hnn⟩ := signed_near hf h0 hq
    generalize fadd (fmul (fsub (fmul (unpackUnsigned v n) 2) 1) (1 / 2)) (1 / 2) = t at *
    have hm0 : (0 : ℚ) ≤ maxValue n := Nat.cast_nonneg _
    have hm1 : (1 : ℚ) ≤ maxValue n := by exact_mod_cast hM1
    have hv0 : (0 : ℚ) ≤ v := Nat.cast_nonneg _
    have key : |t * maxValue n - v| ≤ 3 / 8 ∧ v < 2 ^ 21 := by
      have hnear' := mul_le_mul_of_nonneg_right hnear hm0
      rw [← abs_of_nonneg hm0, ← abs_mul, abs_of_nonneg hm0, sub_mul] at hnear'
      obtain ⟨n1, n2⟩ := abs_le.mp hnear'
      by_cases hsmall : n ≤ 21
      · have hM21 := maxValue_lt hsmall (b := 21) (by norm_num)
        have herr := unpack_err hn1 hn hvm
        have hmq : (maxValue n : ℚ) ≤ 2 ^ 21 := by exact_mod_cast hM21.le
        have hvq : (v : ℚ) ≤ 2 ^ 21 := by exact_mod_cast (show v ≤ 2 ^ 21 by omega)
        obtain ⟨e1, e2⟩ := abs_le.mp herr
        refine ⟨?_, by omega⟩
        rw [abs_le]; constructor <;> linarith
      · obtain ⟨c1, c2⟩ := inv_max_wide n (by omega) (by omega)
        have hc0 := (inv_max_err hM1 (show maxValue n < 2 ^ 24 by omega)).2
        have hmq : (maxValue n : ℚ) + 1 ≤ 2 ^ 23 := by exact_mod_cast hM
        have e2 : pow2 (-2) = 1 / 4 := by decide +kernel
        have hvc : (v : ℚ) * fdiv 1 (ofNat (maxValue n)) < pow2 (-2) := by
          by_contra hc; push Not at hc
          have h2 := rnd_mono hc
          have e3 : rnd (pow2 (-2)) = pow2 (-2) := by decide +kernel
          rw [e3, e2] at h2
          have h3 : unpackUnsigned v n = rnd (v * fdiv 1 (ofNat (maxValue n))) := by
            unfold unpackUnsigned
            unfold fmul
            rw [ofNat_eq (show v < 2 ^ 24 by omega)]
          rw [h3] at hq; linarith
        have herr := unpack_err_abs hn1 hn hvm (-2) (by omega) hvc
        have e27 : pow2 (-2 - 25) = 1 / 2 ^ 27 := by decide +kernel
        rw [e27] at herr
        have hvM := mul_le_mul_of_nonneg_right hvc.le hm0
        rw [mul_assoc, e2] at hvM
        generalize fdiv 1 (ofNat (maxValue n)) * (maxValue n : ℚ) = g at *
        have g1 : (v : ℚ) * g ≤ v * 1 := mul_le_mul_of_nonneg_left c1 hv0
        have g2 : (v : ℚ) * (1 - 1 / 2 ^ 40) ≤ v * g := mul_le_mul_of_nonneg_left c2 hv0
        obtain ⟨e1, e2⟩ := abs_le.mp herr
        have hv21 : (v : ℚ) < 2 ^ 21 := by linarith
        refine ⟨?_, by exact_mod_cast hv21⟩
        rw [abs_le]; constructor <;> linarith
    unfold packUnsigned
    unfold fmul
    rw [ofNat_eq (show maxValue n < 2 ^ 24 by omega)]
    rw [round_near key.2 (mul_nonneg hnn hm0) key.1]
    exact castU32_nat (by omega)

/-- The hypotheses are met. -/
example : packSigned (unpackSigned 77 8) 8 = some 77 := C08_round_trip 77 8 (by decide) (by decide) (by decide)
example : packSigned (-1 / 3) 8 = some 85 := by decide +kernel

end Acl.C08
