import Verif.Core.ScalarPackingLemmas
/-!
# C07: unsigned scalar quantization is bounded, monotone and stable
-/
namespace Acl.C07
open Acl.F32 Acl.ScalarPacking

attribute [local irreducible] maxValue

/-- Packing a value of [0, 1] gives an integer of `n` bits, for 1 to 23 bits. -/
theorem C07_pack_fits (x : ℚ) (n : Nat) (h0 : 0 ≤ x) (h1 : x ≤ 1) (hn : n ≤ 23) :
    ∃ k, packUnsigned x n = some k ∧ k < 2 ^ n := by
  have hM := maxValue_lt hn le_rfl
  have hM2 : maxValue n < 2 ^ n := maxValue_lt le_rfl hn
  unfold packUnsigned fmul
  rw [ofNat_eq (by omega)]
  obtain ⟨k, hk, hle, -⟩ := round_range hM (p := x * maxValue n) (by positivity) (by nlinarith [show (0 : ℚ) ≤ maxValue n by positivity])
  exact ⟨k, hk, by omega⟩

/-- The maximum unpacks to 1 for every width (the only data dependent fact: 23 widths). -/
theorem unpack_max : ∀ n, n < 24 → 1 ≤ n → unpackUnsigned (maxValue n) n = 1 := by decide +kernel

theorem unpack_mono {a b n : Nat} (h : a ≤ b) (hb : b < 2 ^ 24) (hn1 : 1 ≤ n) (hn : n ≤ 23) :
    unpackUnsigned a n ≤ unpackUnsigned b n := by
  have hM := maxValue_lt hn (b := 23) le_rfl
  unfold unpackUnsigned fmul
  rw [ofNat_eq (show a < 2 ^ 24 by omega), ofNat_eq hb]
  exact rnd_mono (mul_le_mul_of_nonneg_right (by exact_mod_cast h)
    (inv_max_err (maxValue_pos hn1 hn) (by omega)).2)

/-- Unpacking any integer of `n` bits gives a value of [0, 1], 0 for 0 and 1 for the maximum. -/
theorem C07_unpack_unit (v n : Nat) (hn1 : 1 ≤ n) (hn : n ≤ 23) (hv : v < 2 ^ n) :
    0 ≤ unpackUnsigned v n ∧ unpackUnsigned v n ≤ 1 ∧
    unpackUnsigned 0 n = 0 ∧ unpackUnsigned (2 ^ n - 1) n = 1 := by
  have hM := maxValue_lt hn (b := 23) le_rfl
  have he := maxValue_eq hn
  have h0 : unpackUnsigned 0 n = 0 := by
    unfold unpackUnsigned fmul
    rw [ofNat_eq (by norm_num), Nat.cast_zero, zero_mul, rnd_zero]
  refine ⟨?_, ?_, h0, ?_⟩
  · rw [← h0]; exact unpack_mono (by omega) (by omega) hn1 hn
  · rw [← unpack_max n (by omega) hn1]; exact unpack_mono (by omega) (by omega) hn1 hn
  · rw [← he]; exact unpack_max n (by omega) hn1

/-- Packing is monotone, up to 23 bits. -/
theorem C07_pack_monotone (x y : ℚ) (n i j : Nat) (h0 : 0 ≤ x) (hxy : x ≤ y) (h1 : y ≤ 1) (hn : n ≤ 23)
    (hi : packUnsigned x n = some i) (hj : packUnsigned y n = some j) : i ≤ j := by
  have hM := maxValue_lt hn le_rfl
  unfold packUnsigned fmul at hi hj
  rw [ofNat_eq (by omega)] at hi hj
  have hm0 : (0 : ℚ) ≤ maxValue n := by positivity
  obtain ⟨k, hk, -, hk2⟩ := round_range hM (p := x * maxValue n) (by positivity) (by nlinarith)
  obtain ⟨l, hl, -, hl2⟩ := round_range hM (p := y * maxValue n) (mul_nonneg (by linarith) hm0) (by nlinarith)
  rw [hk] at hi; rw [hl] at hj
  obtain rfl := Option.some.inj hi
  obtain rfl := Option.some.inj hj
  have hp : rnd (x * maxValue n) ≤ rnd (y * maxValue n) := rnd_mono (mul_le_mul_of_nonneg_right hxy hm0)
  have hx0 : 0 ≤ rnd (x * maxValue n) := rnd_nonneg (by positivity)
  unfold roundSymmetric fadd at hk2 hl2
  rw [if_pos hx0] at hk2
  rw [if_pos (by linarith)] at hl2
  have : ⌊rnd (rnd (x * maxValue n) + 1 / 2)⌋ ≤ ⌊rnd (rnd (y * maxValue n) + 1 / 2)⌋ :=
    Int.floor_le_floor (rnd_mono (by linarith))
  rw [hk2, hl2] at this
  exact_mod_cast this

/-- Unpacking is monotone. -/
theorem C07_unpack_monotone (a b n : Nat) (hn1 : 1 ≤ n) (hn : n ≤ 23) (h : a ≤ b) (hb : b < 2 ^ n) :
    unpackUnsigned a n ≤ unpackUnsigned b n := by
  have := maxValue_lt hn (b := 23) le_rfl
  have := maxValue_eq hn
  exact unpack_mono h (by omega) hn1 hn

theorem round_trip_narrow (v n : Nat) (hn1 : 1 ≤ n) (hn : n ≤ 21) (hv : v < 2 ^ n) :
    packUnsigned (unpackUnsigned v n) n = some v := by
  have hM := maxValue_lt hn (b := 21) (by norm_num)
  have he := maxValue_eq (n := n) (by omega)
  have hvm : v ≤ maxValue n := by omega
  have herr := unpack_err hn1 (by omega) hvm
  have h0 := (C07_unpack_unit v n hn1 (by omega) hv).1
  unfold packUnsigned fmul
  rw [ofNat_eq (show maxValue n < 2 ^ 24 by omega)]
  have hvq : (v : ℚ) ≤ 2 ^ 21 := by exact_mod_cast (show v ≤ 2 ^ 21 by omega)
  have hb : (v : ℚ) * (1 / 2 ^ 23 + 1 / 2 ^ 48) ≤ 3 / 8 := by
    have : (v : ℚ) * (1 / 2 ^ 23 + 1 / 2 ^ 48) ≤ 2 ^ 21 * (1 / 2 ^ 23 + 1 / 2 ^ 48) :=
      mul_le_mul_of_nonneg_right hvq (by norm_num)
    have e : (2 : ℚ) ^ 21 * (1 / 2 ^ 23 + 1 / 2 ^ 48) ≤ 3 / 8 := by norm_num
    linarith
  rw [round_near (by omega) (mul_nonneg h0 (by positivity)) (herr.trans hb)]
  exact castU32_nat (by omega)

theorem round_trip_wide (v n : Nat) (hn1 : 22 ≤ n) (hn : n ≤ 23) (hv : v < 2 ^ n) :
    packUnsigned (unpackUnsigned v n) n = some v := by
  have hM := maxValue_lt hn (b := 23) le_rfl
  have hM1 := maxValue_pos (show 1 ≤ n by omega) hn
  have he := maxValue_eq hn
  have hvm : v ≤ maxValue n := by omega
  have h0 := (C07_unpack_unit v n (by omega) hn hv).1
  obtain ⟨c1, c2⟩ := inv_max_wide n (by omega) hn1
  have hc0 := (inv_max_err hM1 (show maxValue n < 2 ^ 24 by omega)).2
  unfold packUnsigned
  unfold fmul
  rw [ofNat_eq (show maxValue n < 2 ^ 24 by omega)]
  have hmq : (maxValue n : ℚ) ≤ 2 ^ 23 := by exact_mod_cast hM.le
  have hvq : (v : ℚ) ≤ maxValue n := by exact_mod_cast hvm
  have hv0 : (0 : ℚ) ≤ v := Nat.cast_nonneg _
  have hm0 : (0 : ℚ) ≤ maxValue n := Nat.cast_nonneg _
  -- v / max rounds to at most one
  by_cases hvmax : v = maxValue n
  · rw [hvmax, unpack_max n (by omega) (by omega), one_mul]
    rw [round_near_wide hM hm0 (by linarith) (by linarith)]
    exact castU32_nat (by omega)
  have hvlt : (v : ℚ) + 1 ≤ maxValue n := by exact_mod_cast (show v + 1 ≤ maxValue n by omega)
  have hp1 : (v : ℚ) * fdiv 1 (ofNat (maxValue n)) < pow2 0 := by
    have e0 : pow2 0 = 1 := by decide +kernel
    rw [e0]
    have hcpos : 0 < fdiv 1 (ofNat (maxValue n)) := by
      rcases hc0.eq_or_lt with hz | h
      · rw [← hz, zero_mul] at c2; norm_num at c2
      · exact h
    have : (v : ℚ) * fdiv 1 (ofNat (maxValue n)) < maxValue n * fdiv 1 (ofNat (maxValue n)) :=
      mul_lt_mul_of_pos_right (by linarith) hcpos
    rw [mul_comm (maxValue n : ℚ)] at this
    linarith
  have herr := unpack_err_abs (show 1 ≤ n by omega) hn hvm 0 (by omega) hp1
  have e25 : pow2 (0 - 25) = 1 / 2 ^ 25 := by decide +kernel
  rw [e25] at herr
  obtain ⟨e1, e2⟩ := abs_le.mp herr
  generalize fdiv 1 (ofNat (maxValue n)) * (maxValue n : ℚ) = g at *
  have g1 : (v : ℚ) * g ≤ v * 1 := mul_le_mul_of_nonneg_left c1 hv0
  have g2 : (v : ℚ) * (1 - 1 / 2 ^ 40) ≤ v * g := mul_le_mul_of_nonneg_left c2 hv0
  rw [round_near_wide (v := v) (by omega) (mul_nonneg h0 hm0) (by linarith) (by linarith)]
  exact castU32_nat (by omega)

/-- Unpacking then packing again gives the same integer, for every width of the library (1 to 23 bits). -/
theorem C07_round_trip (v n : Nat) (hn1 : 1 ≤ n) (hn : n ≤ 23) (hv : v < 2 ^ n) :
    packUnsigned (unpackUnsigned v n) n = some v := by
  by_cases h : n ≤ 21
  · exact round_trip_narrow v n hn1 h hv
  · exact round_trip_wide v n (by omega) hn hv

/-- The reconstruction error is at most half a quantization step plus 2^-21 of float slack, up to 23 bits. -/
theorem C07_error (x : ℚ) (n : Nat) (hn1 : 1 ≤ n) (hn : n ≤ 23) (h0 : 0 ≤ x) (h1 : x ≤ 1) :
    ∃ k, packUnsigned x n = some k ∧
      |unpackUnsigned k n - x| ≤ (1 / 2) / (2 ^ n - 1) + 1 / 2 ^ 21 := by
  have hM := maxValue_lt hn (b := 23) le_rfl
  have hM1 := maxValue_pos hn1 hn
  have he := maxValue_eq hn
  have hcast : (2 : ℚ) ^ n - 1 = maxValue n := by
    rw [he, Nat.cast_sub (Nat.one_le_two_pow)]; push_cast; ring
  rw [hcast]
  have hm1 : (1 : ℚ) ≤ maxValue n := by exact_mod_cast hM1
  have hm0 : (0 : ℚ) ≤ maxValue n := by linarith
  have hpos : (0 : ℚ) < maxValue n := by linarith
  have hpm : x * maxValue n ≤ maxValue n := by nlinarith
  have hp0 : 0 ≤ x * maxValue n := by positivity
  obtain ⟨k, hk, hle, hk2⟩ := round_range hM (p := x * maxValue n) hp0 hpm
  refine ⟨k, by unfold packUnsigned fmul; rw [ofNat_eq (show maxValue n < 2 ^ 24 by omega)]; exact hk, ?_⟩
  have herr := unpack_err hn1 hn hle
  have hkq : (k : ℚ) ≤ maxValue n := by exact_mod_cast hle
  generalize hMM : (maxValue n : ℚ) = M at *
  -- the packed integer
  have hw := rnd_err (x * M)
  rw [abs_of_nonneg hp0, pow2_m24] at hw
  have hw0 := rnd_nonneg hp0
  have hs := rnd_err (rnd (x * M) + 1 / 2)
  rw [abs_of_nonneg (show 0 ≤ rnd (x * M) + 1 / 2 by linarith), pow2_m24] at hs
  unfold roundSymmetric fadd at hk2
  rw [if_pos hw0, Int.floor_eq_iff] at hk2
  push_cast at hk2
  obtain ⟨k1, k2⟩ := hk2
  obtain ⟨w1, w2⟩ := abs_le.mp hw
  obtain ⟨s1, s2⟩ := abs_le.mp hs
  have t150 : pow2 (-150) ≤ 1 / 2 ^ 30 := by decide +kernel
  have hkx : |(k : ℚ) - x * M| ≤ 1 / 2 + M * (1 / 2 ^ 22) := by
    rw [abs_le]; constructor <;> linarith
  have hkm : (k : ℚ) * (1 / 2 ^ 23 + 1 / 2 ^ 48) ≤ M * (1 / 2 ^ 23 + 1 / 2 ^ 48) :=
    mul_le_mul_of_nonneg_right hkq (by norm_num)
  have hfin : |(unpackUnsigned k n - x) * M| ≤ 1 / 2 + M * (1 / 2 ^ 21) := by
    rw [sub_mul]
    obtain ⟨a1, a2⟩ := abs_le.mp herr
    obtain ⟨b1, b2⟩ := abs_le.mp hkx
    rw [abs_le]; constructor <;> linarith
  rw [abs_mul, abs_of_pos hpos] at hfin
  have : (1 / 2) / M + 1 / 2 ^ 21 = (1 / 2 + M * (1 / 2 ^ 21)) / M := by field_simp
  rw [this, le_div_iff₀ hpos]
  exact hfin

/-- Finding: the code accepts widths up to 30, but with 24 bits the value 1 does not fit: it packs to 2^24. -/
theorem C07_wide_finding : packUnsigned 1 24 = some (2 ^ 24) := by decide +kernel

/-- The hypotheses are met. -/
example : packUnsigned (unpackUnsigned 200 8) 8 = some 200 := C07_round_trip 200 8 (by decide) (by decide) (by decide)
example : packUnsigned (1 / 3) 8 = some 85 := by decide +kernel

end Acl.C07
