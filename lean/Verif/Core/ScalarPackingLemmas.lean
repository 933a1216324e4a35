import Verif.Core.ScalarPacking
/-! Lemmas about scalar quantization (Verif/Core/ScalarPacking.lean). -/
namespace Acl.ScalarPacking
open Acl.F32

theorem maxValue_eq {n : Nat} (h : n ≤ 23) : maxValue n = 2 ^ n - 1 := by
  have h1 : 2 ^ n ≤ 2 ^ 23 := Nat.pow_le_pow_right (by norm_num) h
  have h2 : 0 < 2 ^ n := Nat.pow_pos (by norm_num)
  unfold maxValue
  rw [show 2 ^ n + 2 ^ 32 - 1 = (2 ^ n - 1) + 2 ^ 32 by omega, Nat.add_mod_right]
  exact Nat.mod_eq_of_lt (by omega)

theorem maxValue_lt {n b : Nat} (h : n ≤ b) (hb : b ≤ 23) : maxValue n < 2 ^ b := by
  rw [maxValue_eq (by omega)]
  have h1 : 2 ^ n ≤ 2 ^ b := Nat.pow_le_pow_right (by norm_num) h
  have h2 : 0 < 2 ^ n := Nat.pow_pos (by norm_num)
  omega

theorem maxValue_pos {n : Nat} (h1 : 1 ≤ n) (h : n ≤ 23) : 1 ≤ maxValue n := by
  rw [maxValue_eq h]
  have : 2 ^ 1 ≤ 2 ^ n := Nat.pow_le_pow_right (by norm_num) h1
  omega

theorem castU32_nat {k : Nat} (h : k < 2 ^ 32) : castU32 (k : Int) = some k := by
  unfold castU32
  rw [if_pos ⟨by omega, by exact_mod_cast h⟩]
  simp

/-- Packing a product `p = x * max` between 0 and `m < 2^23`. -/
theorem round_range {m : Nat} (hm : m < 2 ^ 23) {p : ℚ} (h0 : 0 ≤ p) (hp : p ≤ m) :
    ∃ k : Nat, castU32 (roundSymmetric (rnd p)) = some k ∧ k ≤ m ∧
      roundSymmetric (rnd p) = (k : Int) := by
  have hz : (m : Int) < 2 ^ 23 := by exact_mod_cast hm
  have e24 : (2 : Int) ^ 24 = 2 * 2 ^ 23 := by norm_num
  have hw0 := rnd_nonneg h0
  have hw1 := rnd_le_dyadic (x := p) (m : Int) 0 (by rw [abs_of_nonneg (by omega)]; omega) (by decide)
    (by push_cast; linarith)
  push_cast at hw1
  have hs := rnd_le_dyadic (x := rnd p + 1 / 2) (2 * (m : Int) + 1) 1 (by rw [abs_of_nonneg (by omega)]; omega)
    (by decide) (by push_cast; linarith)
  push_cast at hs
  have hs0 := rnd_nonneg (q := rnd p + 1 / 2) (by linarith)
  have hround : roundSymmetric (rnd p) = ⌊rnd (rnd p + 1 / 2)⌋ := by
    unfold roundSymmetric fadd; rw [if_pos hw0]
  have hf0 : 0 ≤ ⌊rnd (rnd p + 1 / 2)⌋ := Int.floor_nonneg.mpr hs0
  have hf1 : ⌊rnd (rnd p + 1 / 2)⌋ < (m : Int) + 1 := by
    rw [Int.floor_lt]; push_cast; linarith
  obtain ⟨k, hk⟩ := Int.eq_ofNat_of_zero_le hf0
  refine ⟨k, ?_, by omega, by rw [hround, hk]⟩
  rw [hround, hk]
  exact castU32_nat (by omega)

/-- A product within 3/8 of an integer below 2^21 is packed to it. -/
theorem round_near {v : Nat} (hv : v < 2 ^ 21) {p : ℚ} (h0 : 0 ≤ p) (h : |p - v| ≤ 3 / 8) :
    roundSymmetric (rnd p) = (v : Int) := by
  have hz : (v : Int) < 2 ^ 21 := by exact_mod_cast hv
  have e24 : (2 : Int) ^ 24 = 8 * 2 ^ 21 := by norm_num
  have hw0 := rnd_nonneg h0
  obtain ⟨l, u⟩ := abs_le.mp h
  have habs : ∀ c : Int, -3 ≤ c → c ≤ 7 → |8 * (v : Int) + c| < 2 ^ 24 := by
    intro c h1 h2; rw [abs_lt]; omega
  have hi := rnd_le_dyadic (x := p) (8 * (v : Int) + 3) 3 (habs 3 (by omega) (by omega)) (by decide)
    (by push_cast; linarith)
  have lo := dyadic_le_rnd (x := p) (8 * (v : Int) + -3) 3 (habs (-3) (by omega) (by omega)) (by decide)
    (by push_cast; linarith)
  push_cast at hi lo
  have hi2 := rnd_le_dyadic (x := rnd p + 1 / 2) (8 * (v : Int) + 7) 3 (habs 7 (by omega) (by omega)) (by decide)
    (by push_cast; linarith)
  have lo2 := dyadic_le_rnd (x := rnd p + 1 / 2) (8 * (v : Int) + 1) 3 (habs 1 (by omega) (by omega)) (by decide)
    (by push_cast; linarith)
  push_cast at hi2 lo2
  unfold roundSymmetric fadd
  rw [if_pos hw0, Int.floor_eq_iff]
  push_cast
  constructor <;> linarith

theorem pow2_m24 : pow2 (-24) = 1 / 2 ^ 24 := by decide +kernel

/-- The reciprocal of the maximum has one rounding. -/
theorem inv_max_err {m : Nat} (h1 : 1 ≤ m) (hm : m < 2 ^ 24) :
    |fdiv 1 (ofNat m) * m - 1| ≤ 1 / 2 ^ 24 ∧ 0 ≤ fdiv 1 (ofNat m) := by
  rw [ofNat_eq hm]
  have h1q : (1 : ℚ) ≤ m := by exact_mod_cast h1
  have hmq : (m : ℚ) < 2 ^ 24 := by exact_mod_cast hm
  have hpos : (0 : ℚ) < m := by linarith
  have hn : pow2 (-126) ≤ |1 / (m : ℚ)| := by
    rw [abs_of_pos (by positivity), le_div_iff₀ hpos]
    have : pow2 (-126) * m ≤ pow2 (-126) * 2 ^ 24 := mul_le_mul_of_nonneg_left hmq.le (pow2_pos _).le
    have e : pow2 (-126) * 2 ^ 24 ≤ 1 := by decide +kernel
    linarith
  have h := rnd_err_rel hn
  rw [abs_of_pos (show (0 : ℚ) < 1 / m by positivity), pow2_m24] at h
  refine ⟨?_, rnd_nonneg (by positivity)⟩
  unfold fdiv
  have e : rnd (1 / (m : ℚ)) * m - 1 = (rnd (1 / (m : ℚ)) - 1 / m) * m := by field_simp
  rw [e, abs_mul, abs_of_pos hpos]
  calc _ ≤ 1 / 2 ^ 24 * (1 / (m : ℚ)) * m := mul_le_mul_of_nonneg_right h hpos.le
    _ = _ := by field_simp

/-- Unpacking is accurate to two roundings. -/
theorem unpack_err {n v : Nat} (h1 : 1 ≤ n) (hn : n ≤ 23) (hv : v ≤ maxValue n) :
    |unpackUnsigned v n * maxValue n - v| ≤ v * (1 / 2 ^ 23 + 1 / 2 ^ 48) := by
  have hM := maxValue_lt hn (b := 23) le_rfl
  have hM1 := maxValue_pos h1 hn
  unfold unpackUnsigned fmul
  generalize maxValue n = m at *
  obtain ⟨hc, hc0⟩ := inv_max_err hM1 (show m < 2 ^ 24 by omega)
  generalize fdiv 1 (ofNat m) = c at *
  rw [ofNat_eq (show v < 2 ^ 24 by omega)]
  have hmq : (m : ℚ) < 2 ^ 23 := by exact_mod_cast hM
  have h1q : (1 : ℚ) ≤ m := by exact_mod_cast hM1
  have hpos : (0 : ℚ) < m := by linarith
  obtain ⟨c1, c2⟩ := abs_le.mp hc
  rcases Nat.eq_zero_or_pos v with rfl | hvp
  · rw [Nat.cast_zero, zero_mul, rnd_zero, zero_mul, zero_mul, sub_zero, abs_zero]
  have hvq : (1 : ℚ) ≤ v := by exact_mod_cast hvp
  have hcl : pow2 (-126) ≤ c := by
    have h2 : pow2 (-126) * m ≤ pow2 (-126) * 2 ^ 23 := mul_le_mul_of_nonneg_left hmq.le (pow2_pos _).le
    have e : pow2 (-126) * 2 ^ 23 ≤ 1 - 1 / 2 ^ 24 := by decide +kernel
    by_contra hcon
    push Not at hcon
    have := mul_lt_mul_of_pos_right hcon hpos
    linarith
  have hvc : pow2 (-126) ≤ |(v : ℚ) * c| := by
    rw [abs_of_nonneg (mul_nonneg (by linarith) hc0)]
    have : 1 * c ≤ v * c := mul_le_mul_of_nonneg_right hvq hc0
    linarith
  have h := rnd_err_rel hvc
  rw [abs_of_nonneg (mul_nonneg (by linarith) hc0), pow2_m24] at h
  have h' := mul_le_mul_of_nonneg_right h hpos.le
  rw [← abs_of_pos hpos, ← abs_mul, abs_of_pos hpos] at h'
  have e1 : (rnd ((v : ℚ) * c) - v * c) * m = rnd ((v : ℚ) * c) * m - v * (c * m) := by ring
  have e2 : 1 / 2 ^ 24 * ((v : ℚ) * c) * m = v * (c * m) * (1 / 2 ^ 24) := by ring
  rw [e1, e2] at h'
  obtain ⟨a1, a2⟩ := abs_le.mp h'
  have b1 : (v : ℚ) * (c * m) ≤ v * (1 + 1 / 2 ^ 24) := mul_le_mul_of_nonneg_left (by linarith) (by linarith)
  have b2 : (v : ℚ) * (1 - 1 / 2 ^ 24) ≤ v * (c * m) := mul_le_mul_of_nonneg_left (by linarith) (by linarith)
  rw [abs_le]
  constructor <;> linarith

/-- A float slightly above a large integer: the tie goes to the integer. -/
theorem rnd_quarter {v : Nat} (h1 : 2 ^ 22 ≤ v) (h2 : v < 2 ^ 23) : rnd ((v : ℚ) + 1 / 4) = v := by
  have h1q : (2 : ℚ) ^ 22 ≤ v := by exact_mod_cast h1
  have h2q : (v : ℚ) + 1 ≤ 2 ^ 23 := by exact_mod_cast h2
  have hl : ilog2 ((v : ℚ) + 1 / 4) = 22 := by
    apply ilog2_eq
    · have : pow2 22 = 2 ^ 22 := by decide +kernel
      rw [this]; linarith
    · have : pow2 (22 + 1) = 2 ^ 23 := by decide +kernel
      rw [this]; linarith
  have hu : ulp ((v : ℚ) + 1 / 4) = 1 / 2 := by
    unfold ulp expo; rw [hl]; decide +kernel
  rw [rnd_of_nonneg (by positivity)]
  unfold rndPos
  rw [hu]
  have hd : ((v : ℚ) + 1 / 4) / (1 / 2) = ((2 * (v : Int) : Int) : ℚ) + 1 / 2 := by push_cast; ring
  rw [hd]
  have hr : rne (((2 * (v : Int) : Int) : ℚ) + 1 / 2) = 2 * (v : Int) := by
    unfold rne
    have hf : ⌊((2 * (v : Int) : Int) : ℚ) + 1 / 2⌋ = 2 * (v : Int) := by
      rw [Int.floor_eq_iff]; constructor <;> linarith
    rw [hf]
    simp only []
    rw [if_neg (by linarith), if_neg (by linarith), if_pos (by omega)]
  rw [hr]; push_cast; ring

/-- A product between 1/2 below and 1/4 above an integer below 2^23 is packed to it. -/
theorem round_near_wide {v : Nat} (hv : v < 2 ^ 23) {p : ℚ} (h0 : 0 ≤ p) (hlo : (v : ℚ) - 1 / 2 ≤ p)
    (hhi : p ≤ v + 1 / 4) : roundSymmetric (rnd p) = (v : Int) := by
  have hz : (v : Int) < 2 ^ 23 := by exact_mod_cast hv
  have e24 : (2 : Int) ^ 24 = 2 * 2 ^ 23 := by norm_num
  have hw0 := rnd_nonneg h0
  have lo := dyadic_le_rnd (x := p) (2 * (v : Int) + -1) 1 (by rw [abs_lt]; omega) (by decide)
    (by push_cast; linarith)
  push_cast at lo
  have lo2 := dyadic_le_rnd (x := rnd p + 1 / 2) (v : Int) 0 (by rw [abs_lt]; omega) (by decide)
    (by push_cast; linarith)
  push_cast at lo2
  have hi : rnd (rnd p + 1 / 2) ≤ v + 3 / 4 := by
    by_cases hb : v < 2 ^ 22
    · have hbz : (v : Int) < 2 ^ 22 := by exact_mod_cast hb
      have hi := rnd_le_dyadic (x := p) (4 * (v : Int) + 1) 2 (by rw [abs_lt]; omega) (by decide)
        (by push_cast; linarith)
      push_cast at hi
      have hi2 := rnd_le_dyadic (x := rnd p + 1 / 2) (4 * (v : Int) + 3) 2 (by rw [abs_lt]; omega) (by decide)
        (by push_cast; linarith)
      push_cast at hi2
      linarith
    · have hq := rnd_mono hhi
      rw [rnd_quarter (by omega) hv] at hq
      have hi2 := rnd_le_dyadic (x := rnd p + 1 / 2) (2 * (v : Int) + 1) 1 (by rw [abs_lt]; omega) (by decide)
        (by push_cast; linarith)
      push_cast at hi2
      linarith
  unfold roundSymmetric fadd
  rw [if_pos hw0, Int.floor_eq_iff]
  push_cast
  constructor <;> linarith

/-- The reciprocals of the two largest maxima are slightly low. -/
theorem inv_max_wide : ∀ n, n < 24 → 22 ≤ n → fdiv 1 (ofNat (maxValue n)) * (maxValue n : ℚ) ≤ 1 ∧
    1 - 1 / 2 ^ 40 ≤ fdiv 1 (ofNat (maxValue n)) * (maxValue n : ℚ) := by decide +kernel

/-- Unpacking has an absolute error: half an ulp below 1. -/
theorem unpack_err_abs {n v : Nat} (h1 : 1 ≤ n) (hn : n ≤ 23) (hv : v ≤ maxValue n) (b : Int) (hb : -100 ≤ b)
    (hvb : (v : ℚ) * fdiv 1 (ofNat (maxValue n)) < pow2 b) :
    |unpackUnsigned v n * maxValue n - v * (fdiv 1 (ofNat (maxValue n)) * maxValue n)| ≤
      pow2 (b - 25) * maxValue n := by
  have hM := maxValue_lt hn (b := 23) le_rfl
  have hM1 := maxValue_pos h1 hn
  unfold unpackUnsigned fmul
  have hc0 := (inv_max_err hM1 (by omega)).2
  rw [ofNat_eq (show v < 2 ^ 24 by omega)]
  have herr := rnd_err_lt (x := (v : ℚ) * fdiv 1 (ofNat (maxValue n))) (k := b) (by omega)
    (mul_nonneg (Nat.cast_nonneg _) hc0) hvb
  have hm0 : (0 : ℚ) ≤ (maxValue n : ℚ) := Nat.cast_nonneg _
  have := mul_le_mul_of_nonneg_right herr hm0
  rw [← abs_of_nonneg hm0, ← abs_mul, abs_of_nonneg hm0] at this
  rw [← mul_assoc, ← sub_mul]
  exact this

end Acl.ScalarPacking
