import Verif.Layout.Headers
/-!
C46: pointer offsets are resolved consistently.
-/
namespace Acl.C46
open Acl.Headers

/-- An offset built from a value that fits and is not the largest one is valid and resolves to base + value,
through both resolvers. -/
theorem C46_resolves (w : Nat) (hw : w ≤ 64) (v : Nat) (hv : v < 2 ^ w - 1) (base : BitVec 64) :
    ptrOffsetIsValid (ptrOffsetOf w v) = true ∧
    (ptrOffsetAddTo (ptrOffsetOf w v) base).toNat = (base.toNat + v) % 2 ^ 64 ∧
    ptrOffsetSafeAddTo (ptrOffsetOf w v) base = some (ptrOffsetAddTo (ptrOffsetOf w v) base) := by
  have hvalid : ptrOffsetIsValid (ptrOffsetOf w v) = true := by
    unfold ptrOffsetIsValid ptrOffsetOf ptrOffsetInvalid
    rw [bne_iff_ne]
    intro h
    have := congrArg BitVec.toNat h
    rw [BitVec.toNat_ofNat, BitVec.toNat_allOnes, Nat.mod_eq_of_lt (by omega)] at this
    omega
  have hle := Nat.pow_le_pow_right (n := 2) (by omega) hw
  refine ⟨hvalid, ?_, ?_⟩
  · unfold ptrOffsetAddTo ptrOffsetOf
    rw [BitVec.toNat_add, BitVec.toNat_setWidth, BitVec.toNat_ofNat, Nat.mod_eq_of_lt (a := v) (by omega),
      Nat.mod_eq_of_lt (a := v) (b := 2 ^ 64) (by omega)]
  · unfold ptrOffsetSafeAddTo
    rw [if_pos hvalid]

/-- The null pointer is returned exactly for the invalid offset. -/
theorem C46_null_iff_invalid (w : Nat) (o : BitVec w) (base : BitVec 64) :
    ptrOffsetSafeAddTo o base = none ↔ o = ptrOffsetInvalid w := by
  unfold ptrOffsetSafeAddTo ptrOffsetIsValid
  by_cases h : o = ptrOffsetInvalid w
  · simp [h]
  · simp [h]

/-- The largest value cannot be told from an invalid offset. -/
theorem C46_largest_is_invalid (w : Nat) : ptrOffsetOf w (2 ^ w - 1) = ptrOffsetInvalid w := by
  apply BitVec.eq_of_toNat_eq
  unfold ptrOffsetOf ptrOffsetInvalid
  have := Nat.two_pow_pos w
  rw [BitVec.toNat_ofNat, BitVec.toNat_allOnes, Nat.mod_eq_of_lt (by omega)]

/-- An offset built from two pointers of one aggregate leads from the first to the second. -/
theorem C46_between (w : Nat) (hw : w ≤ 64) (base ptr : BitVec 64) (h : base.toNat ≤ ptr.toNat)
    (hfit : ptr.toNat - base.toNat < 2 ^ w - 1) :
    ptrOffsetSafeAddTo (ptrOffsetBetween w base ptr) base = some ptr := by
  have hsub : (ptr - base).toNat = ptr.toNat - base.toNat := BitVec.toNat_sub_of_le h
  have hle := Nat.pow_le_pow_right (n := 2) (by omega) hw
  have heq : ptrOffsetBetween w base ptr = ptrOffsetOf w (ptr.toNat - base.toNat) := by
    apply BitVec.eq_of_toNat_eq
    unfold ptrOffsetBetween ptrOffsetOf
    rw [BitVec.toNat_setWidth, hsub, BitVec.toNat_ofNat]
  obtain ⟨_, h2, h3⟩ := C46_resolves w hw _ hfit base
  rw [heq, h3]
  congr 1
  apply BitVec.eq_of_toNat_eq
  rw [h2, Nat.add_sub_cancel' h, Nat.mod_eq_of_lt ptr.isLt]

example : ptrOffsetSafeAddTo (ptrOffsetBetween 32 0x1000#64 0x1040#64) 0x1000#64 = some 0x1040#64 := by decide

end Acl.C46
