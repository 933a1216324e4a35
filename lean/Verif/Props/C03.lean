import Verif.Core.MemoryLemmas
/-! C03: alignment arithmetic is exact. -/
namespace Acl.C03

/-- `is_power_of_two` accepts exactly the powers of two. -/
theorem C03_is_power_of_two (x : BitVec 64) :
    isPowerOfTwo x = true ↔ ∃ k, x.toNat = 2 ^ k := by
  unfold isPowerOfTwo
  have hx := x.isLt
  simp only [Bool.and_eq_true, bne_iff_ne, beq_iff_eq, ne_eq]
  constructor
  · rintro ⟨h0, h1⟩
    have hn : x.toNat ≠ 0 := by
      intro h; apply h0; apply BitVec.eq_of_toNat_eq; simpa using h
    refine ⟨x.toNat.log2, ?_⟩
    have hlo := Nat.log2_self_le hn
    have hhi : x.toNat < 2 ^ (x.toNat.log2 + 1) := Nat.lt_log2_self
    rw [Nat.pow_succ] at hhi
    generalize x.toNat.log2 = k at *
    apply Classical.byContradiction
    intro hne
    have e1 : (x - 1#64).toNat = x.toNat - 1 := by
      rw [BitVec.toNat_sub_of_le]
      · simp
      · rw [BitVec.le_def]; simp; omega
    have b1 : x.toNat.testBit k = true := by
      have : x.toNat = 2 ^ k + (x.toNat - 2 ^ k) := by omega
      rw [this, Nat.testBit_two_pow_add_eq, Nat.testBit_lt_two_pow (by omega)]; rfl
    have b2 : (x.toNat - 1).testBit k = true := by
      have : x.toNat - 1 = 2 ^ k + (x.toNat - 1 - 2 ^ k) := by omega
      rw [this, Nat.testBit_two_pow_add_eq, Nat.testBit_lt_two_pow (by omega)]; rfl
    have hz := congrArg (fun y : BitVec 64 => y.toNat.testBit k) h1
    simp only [BitVec.toNat_and, Nat.testBit_and, b1] at hz
    have e1' : (x - 1).toNat = x.toNat - 1 := e1
    rw [e1', b2] at hz
    simp at hz
  · rintro ⟨k, hk⟩
    have hp := Nat.one_le_two_pow (n := k)
    constructor
    · rintro rfl; simp at hk; omega
    · apply BitVec.eq_of_toNat_eq
      have e1 : (x - 1#64).toNat = x.toNat - 1 := by
        rw [BitVec.toNat_sub_of_le]
        · simp
        · rw [BitVec.le_def]; simp; omega
      have e1' : (x - 1).toNat = x.toNat - 1 := e1
      rw [BitVec.toNat_and, e1', hk, Nat.and_two_pow_sub_one_eq_mod]
      simp

theorem alignTo_toNat (v a : BitVec 64) (k : Nat) (hk : a.toNat = 2 ^ k)
    (hov : v.toNat + (a.toNat - 1) < 2 ^ 64) :
    (alignTo v a).toNat = (v.toNat + (2 ^ k - 1)) / 2 ^ k * 2 ^ k := by
  have ha := a.isLt
  have hk64 : k < 64 := by
    rw [hk] at ha
    exact (Nat.pow_lt_pow_iff_right (by omega)).1 ha
  have hae : a = 1#64 <<< k := by
    apply BitVec.eq_of_toNat_eq
    rw [BitVec.toNat_shiftLeft, hk]
    simp only [BitVec.toNat_ofNat, Nat.shiftLeft_eq]
    omega
  have hp := Nat.one_le_two_pow (n := k)
  unfold alignTo
  have e1 : (a - 1#64).toNat = a.toNat - 1 := by
    rw [BitVec.toNat_sub_of_le]
    · simp
    · rw [BitVec.le_def]; simp; omega
  have e2 : (v + (a - 1#64)).toNat = v.toNat + (2 ^ k - 1) := by
    rw [BitVec.toNat_add, e1, hk, Nat.mod_eq_of_lt]; omega
  have := and_not_low (v + (a - 1#64)) k hk64
  rw [e2] at this
  rw [← this, hae]
  rfl

/-- Specification: `r` is the least multiple of `a` that is at least `v`. -/
def IsLeastMultiple (r v a : Nat) : Prop :=
  a ∣ r ∧ v ≤ r ∧ ∀ m, a ∣ m → v ≤ m → r ≤ m

theorem ceil_least (v a : Nat) (ha : 0 < a) : IsLeastMultiple ((v + (a - 1)) / a * a) v a := by
  refine ⟨Nat.dvd_mul_left a _, ?_, ?_⟩
  · have h1 := Nat.div_add_mod (v + (a - 1)) a
    have h2 := Nat.mod_lt (v + (a - 1)) ha
    rw [Nat.mul_comm a] at h1
    omega
  · rintro m ⟨q, rfl⟩ hm
    rw [Nat.mul_comm a q]
    apply Nat.mul_le_mul_right
    rw [Nat.div_le_iff_le_mul_add_pred ha]
    omega

/-- `align_to` returns the least multiple of the alignment that is not below the value. -/
theorem C03_align_to (v a : BitVec 64) (hp : isPowerOfTwo a = true)
    (hov : v.toNat + (a.toNat - 1) < 2 ^ 64) :
    IsLeastMultiple (alignTo v a).toNat v.toNat a.toNat := by
  obtain ⟨k, hk⟩ := (C03_is_power_of_two a).1 hp
  rw [alignTo_toNat v a k hk hov, hk]
  exact ceil_least _ _ (Nat.two_pow_pos k)

/-- Never adds a full alignment. -/
theorem C03_align_to_tight (v a : BitVec 64) (hp : isPowerOfTwo a = true)
    (hov : v.toNat + (a.toNat - 1) < 2 ^ 64) :
    (alignTo v a).toNat < v.toNat + a.toNat := by
  obtain ⟨k, hk⟩ := (C03_is_power_of_two a).1 hp
  have := Nat.div_mul_le_self (v.toNat + (2 ^ k - 1)) (2 ^ k)
  have := Nat.two_pow_pos k
  rw [alignTo_toNat v a k hk hov]
  omega

/-- `is_aligned_to` is true exactly on multiples of the alignment. -/
theorem C03_is_aligned_to (v a : BitVec 64) (hp : isPowerOfTwo a = true) :
    isAlignedTo v a = true ↔ a.toNat ∣ v.toNat := by
  obtain ⟨k, hk⟩ := (C03_is_power_of_two a).1 hp
  have hpos := Nat.two_pow_pos k
  unfold isAlignedTo
  have e1 : (a - 1#64).toNat = a.toNat - 1 := by
    rw [BitVec.toNat_sub_of_le]
    · simp
    · rw [BitVec.le_def]; simp; omega
  have e1' : (a - 1).toNat = a.toNat - 1 := e1
  rw [beq_iff_eq]
  constructor
  · intro h
    have := congrArg BitVec.toNat h
    rw [BitVec.toNat_and, e1', hk, Nat.and_two_pow_sub_one_eq_mod] at this
    rw [hk]; exact Nat.dvd_of_mod_eq_zero (by simpa using this)
  · intro h
    apply BitVec.eq_of_toNat_eq
    rw [BitVec.toNat_and, e1', hk, Nat.and_two_pow_sub_one_eq_mod]
    rw [hk] at h
    simpa using Nat.mod_eq_zero_of_dvd h

/-- `align_to` on 32 bit offsets never loses bits as long as the result fits. -/
theorem C03_align_to_u32 (v : BitVec 32) (a : BitVec 64) (hp : isPowerOfTwo a = true)
    (hov : v.toNat + a.toNat ≤ 2 ^ 32) :
    IsLeastMultiple (alignTo32 v a).toNat v.toNat a.toNat := by
  have e : (v.setWidth 64).toNat = v.toNat := by
    rw [BitVec.toNat_setWidth]; have := v.isLt; omega
  have hov' : (v.setWidth 64).toNat + (a.toNat - 1) < 2 ^ 64 := by rw [e]; omega
  have h1 := C03_align_to (v.setWidth 64) a hp hov'
  have h2 := C03_align_to_tight (v.setWidth 64) a hp hov'
  rw [e] at h1 h2
  unfold alignTo32
  rw [BitVec.toNat_setWidth, Nat.mod_eq_of_lt (by omega)]
  exact h1

/-- Padding between two members brings the second to its alignment. -/
theorem C03_required_padding (size align : BitVec 64) (hp : isPowerOfTwo align = true)
    (hov : size.toNat + (align.toNat - 1) < 2 ^ 64) :
    IsLeastMultiple (size.toNat + (requiredPadding size align).toNat) size.toNat align.toNat ∧
      (requiredPadding size align).toNat < align.toNat := by
  have h1 := C03_align_to size align hp hov
  have h2 := C03_align_to_tight size align hp hov
  have e : requiredPadding size align = alignTo size align - size := rfl
  have h3 : (requiredPadding size align).toNat = (alignTo size align).toNat - size.toNat := by
    rw [e, BitVec.toNat_sub_of_le]
    rw [BitVec.le_def]; exact h1.2.1
  rw [h3]
  have h4 := h1.2.1
  have : size.toNat + ((alignTo size align).toNat - size.toNat) = (alignTo size align).toNat := by omega
  rw [this]
  exact ⟨h1, by omega⟩

example : isPowerOfTwo 16 = true ∧ (alignTo 33 16).toNat = 48 ∧ (alignTo 48 16).toNat = 48 ∧
    isPowerOfTwo 24 = false := by decide

end Acl.C03
