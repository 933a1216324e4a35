import Verif.Float.F32
import Mathlib.Tactic.Linarith
/-
The IEEE 754 binary32 encoding (the bit patterns the code copies with memcpy), as far as finite values go.
-/
namespace Acl.F32

/-- The value of the low 31 bits: exponent and mantissa. -/
def ofMag (k : Nat) : ℚ :=
  if k / 2 ^ 23 = 0 then ((k % 2 ^ 23 : Nat) : ℚ) * pow2 (-149)
  else ((2 ^ 23 + k % 2 ^ 23 : Nat) : ℚ) * pow2 ((k / 2 ^ 23 : Nat) - 150)

/-- The value of a finite binary32. -/
def ofBits (b : BitVec 32) : ℚ :=
  if b.toNat < 2 ^ 31 then ofMag b.toNat else - ofMag (b.toNat - 2 ^ 31)

/-- A pattern that is neither an infinity nor a NaN: the exponent is not 255. -/
def Finite32 (b : BitVec 32) : Prop := b.toNat % 2 ^ 31 < 255 * 2 ^ 23

/-- The low 31 bits of a non-negative float: the biased exponent and the mantissa, as one number. -/
def toMag (x : ℚ) : Nat :=
  if x = 0 then 0 else (expo x + 126).toNat * 2 ^ 23 + ⌊x / ulp x⌋.toNat

/-- The encoding of a finite binary32 value (zero is +0). -/
def toBits (x : ℚ) : BitVec 32 :=
  if x < 0 then BitVec.ofNat 32 (2 ^ 31 + toMag (-x)) else BitVec.ofNat 32 (toMag x)

theorem pow2_126_24 : pow2 (-126) = 2 ^ 23 * pow2 (-149) := by decide +kernel

theorem ofMag_toMag {x : ℚ} (h0 : 0 ≤ x) (h : IsFloat x) : ofMag (toMag x) = x ∧ toMag x < 255 * 2 ^ 23 := by
  rcases h0.eq_or_lt with rfl | hpos
  · constructor <;> decide +kernel
  obtain ⟨m, e, hx, hm, he, he2⟩ := h
  have hpe := pow2_pos e
  have hmpos : 0 < m := by
    by_contra hc
    push Not at hc
    have : (m : ℚ) * pow2 e ≤ 0 := mul_nonpos_of_nonpos_of_nonneg (by exact_mod_cast hc) hpe.le
    linarith
  have hm24 : m < 2 ^ 24 := (abs_lt.mp hm).2
  have hs := ilog2_spec hpos
  -- exponent bounds
  have hk0 := expo_ge x
  have hlt := lt_pow2_expo hpos.le
  have hk1 : expo x ≤ 127 := by
    have : x < pow2 128 := by
      have h24 : (m : ℚ) < 2 ^ 24 := by exact_mod_cast hm24
      have : x < 2 ^ 24 * pow2 e := by rw [hx]; exact mul_lt_mul_of_pos_right h24 hpe
      have h2 : 2 ^ 24 * pow2 e = pow2 (24 + e) := by rw [pow2_add]; rfl
      rw [h2] at this
      exact lt_of_lt_of_le this (pow2_mono (by omega))
    have := pow2_lt_iff.mp (lt_of_le_of_lt hs.1 this)
    unfold expo; omega
  -- the quotient is an integer
  have hexp : expo x - 23 ≤ e ∨ ∃ j : Nat, expo x - 23 = e + j := by
    rcases le_total (expo x - 23) e with h | h
    · exact Or.inl h
    · exact Or.inr ⟨(expo x - 23 - e).toNat, by omega⟩
  have hint : ∃ z : Int, x / ulp x = z := by
    have hr := rnd_of_isFloat ⟨m, e, hx, hm, he, he2⟩
    rw [rnd_of_nonneg hpos.le] at hr
    unfold rndPos at hr
    refine ⟨rne (x / ulp x), ?_⟩
    rw [div_eq_iff (ulp_pos x).ne']; exact hr.symm
  obtain ⟨z, hz⟩ := hint
  have hzpos : 0 ≤ z := by
    have : 0 ≤ x / ulp x := div_nonneg hpos.le (ulp_pos x).le
    rw [hz] at this; exact_mod_cast this
  have hxz : x = z * ulp x := by rw [← hz, div_mul_cancel₀ _ (ulp_pos x).ne']
  have hz24 : z < 2 ^ 24 := by
    have e1 : pow2 (expo x + 1) = 2 ^ 24 * ulp x := by
      unfold ulp; rw [show expo x + 1 = 24 + (expo x - 23) from by ring, pow2_add]; rfl
    rw [e1, hxz] at hlt
    have : (z : ℚ) < 2 ^ 24 := by
      have hu := ulp_pos x
      rw [← hxz] at hlt
      by_contra hc
      push Not at hc
      have := mul_le_mul_of_nonneg_right hc hu.le
      rw [← hxz] at this
      linarith
    exact_mod_cast this
  have hfl : ⌊x / ulp x⌋ = z := by rw [hz]; exact Int.floor_intCast z
  have hzn : (z.toNat : Int) = z := Int.toNat_of_nonneg hzpos
  have hzq : ((z.toNat : Nat) : ℚ) = z := by exact_mod_cast hzn
  set k := (expo x + 126).toNat with hk
  have hkz : (k : Int) = expo x + 126 := Int.toNat_of_nonneg (by omega)
  have hmag : toMag x = k * 2 ^ 23 + z.toNat := by unfold toMag; rw [if_neg hpos.ne', hfl]
  have hz24n : z.toNat < 2 ^ 24 := by omega
  rw [hmag]
  have hulp : ulp x = pow2 ((k : Int) - 149) := by unfold ulp; congr 1; omega
  have hk253 : k ≤ 253 := by omega
  refine ⟨?_, by omega⟩
  by_cases hsub : z.toNat < 2 ^ 23
  · -- subnormal: the exponent is the smallest
    have hk0' : k = 0 := by
      by_contra hc
      have hgt : -126 < expo x := by omega
      have h1 := pow2_expo_le hpos hgt
      have e1 : pow2 (expo x) = 2 ^ 23 * ulp x := by
        unfold ulp
        conv_lhs => rw [show expo x = 23 + (expo x - 23) from by ring, pow2_add]
        rfl
      rw [e1, hxz] at h1
      rw [← hxz] at h1
      have hu := ulp_pos x
      have : (z : ℚ) < 2 ^ 23 := by
        have : ((z.toNat : Nat) : ℚ) < 2 ^ 23 := by exact_mod_cast hsub
        rwa [hzq] at this
      have := mul_lt_mul_of_pos_right this hu
      rw [← hxz] at this
      linarith
    rw [hk0'] at hulp ⊢
    unfold ofMag
    rw [Nat.zero_mul, Nat.zero_add, Nat.div_eq_of_lt hsub, if_pos rfl, Nat.mod_eq_of_lt hsub, hzq]
    have : ulp x = pow2 (-149) := by rw [hulp]; rfl
    rw [← this]; exact hxz.symm
  · push Not at hsub
    have hd : (k * 2 ^ 23 + z.toNat) / 2 ^ 23 = k + 1 := by omega
    have hmo : 2 ^ 23 + (k * 2 ^ 23 + z.toNat) % 2 ^ 23 = z.toNat := by omega
    unfold ofMag
    rw [hd, if_neg (by omega), hmo, hzq]
    have : pow2 (((k + 1 : Nat) : Int) - 150) = ulp x := by rw [hulp]; congr 1; push_cast; ring
    rw [this]; exact hxz.symm

theorem toBits_finite {x : ℚ} (h : IsFloat x) : Finite32 (toBits x) := by
  unfold Finite32 toBits
  split
  · next hn =>
    have hf : IsFloat (-x) := by
      obtain ⟨m, e, rfl, hm, h1, h2⟩ := h
      exact ⟨-m, e, by push_cast; ring, by rwa [abs_neg], h1, h2⟩
    have := (ofMag_toMag (by linarith) hf).2
    rw [BitVec.toNat_ofNat]; omega
  · next hn =>
    push Not at hn
    have := (ofMag_toMag hn h).2
    rw [BitVec.toNat_ofNat]; omega

/-- Encoding a finite value and reading it back gives the value. -/
theorem ofBits_toBits {x : ℚ} (h : IsFloat x) : ofBits (toBits x) = x := by
  unfold toBits
  split
  · next hn =>
    have hf : IsFloat (-x) := by
      obtain ⟨m, e, rfl, hm, h1, h2⟩ := h
      exact ⟨-m, e, by push_cast; ring, by rwa [abs_neg], h1, h2⟩
    obtain ⟨h1, h2⟩ := ofMag_toMag (by linarith) hf
    unfold ofBits
    rw [BitVec.toNat_ofNat, Nat.mod_eq_of_lt (by omega), if_neg (by omega), Nat.add_sub_cancel_left, h1]
    ring
  · next hn =>
    push Not at hn
    obtain ⟨h1, h2⟩ := ofMag_toMag hn h
    unfold ofBits
    rw [BitVec.toNat_ofNat, Nat.mod_eq_of_lt (by omega), if_pos (by omega), h1]

theorem isFloat_ofMag {k : Nat} (h : k < 255 * 2 ^ 23) : IsFloat (ofMag k) := by
  unfold ofMag
  split
  · next h0 =>
    refine ⟨((k % 2 ^ 23 : Nat) : Int), -149, by push_cast; rfl, ?_, by omega, by omega⟩
    rw [abs_of_nonneg (by positivity)]
    have : k % 2 ^ 23 < 2 ^ 24 := by omega
    exact_mod_cast this
  · next h0 =>
    refine ⟨((2 ^ 23 + k % 2 ^ 23 : Nat) : Int), (k / 2 ^ 23 : Nat) - 150, by push_cast; rfl, ?_, by omega, by omega⟩
    rw [abs_of_nonneg (by positivity)]
    have : 2 ^ 23 + k % 2 ^ 23 < 2 ^ 24 := by omega
    exact_mod_cast this

/-- Every finite pattern denotes a float. -/
theorem isFloat_ofBits {b : BitVec 32} (h : Finite32 b) : IsFloat (ofBits b) := by
  unfold Finite32 at h
  unfold ofBits
  have := b.isLt
  split
  · next hl => exact isFloat_ofMag (by omega)
  · next hl =>
    obtain ⟨m, e, hx, hm, h1, h2⟩ := isFloat_ofMag (k := b.toNat - 2 ^ 31) (by omega)
    exact ⟨-m, e, by rw [hx]; push_cast; ring, by rwa [abs_neg], h1, h2⟩

example : ofBits 0x3F800000#32 = 1 ∧ toBits 1 = 0x3F800000#32 ∧ toBits (-3 / 2) = 0xBFC00000#32 ∧
    ofBits 0x00000001#32 = pow2 (-149) := by
  refine ⟨?_, ?_, ?_, ?_⟩ <;> decide +kernel

end Acl.F32
