import Verif.Core.ScanLemmas
/-!
C01: bit counting and scanning primitives are exact.
Specification vocabulary: `v.getLsbD i` is bit `i` of `v` (0 = least significant);
`setPositions v` lists the positions of the one bits.
-/
namespace Acl.C01

/-- Specification: the positions of the one bits of a word, in increasing order. -/
def setPositions {w : Nat} (v : BitVec w) : List Nat := (List.range w).filter (fun i => v.getLsbD i)

theorem popSpec_eq {w : Nat} (v : BitVec w) : popSpec v = (setPositions v).length := by
  simp [popSpec, countBelow, setPositions, List.countP_eq_length_filter]

theorem C01_count_set_bits_u32 (v : BitVec 32) :
    (countSetBits32 v).toNat = (setPositions v).length := by
  rw [countSetBits32_toNat, popSpec_eq]

theorem C01_count_set_bits_u64 (v : BitVec 64) :
    (countSetBits64 v).toNat = (setPositions v).length := by
  rw [countSetBits64_toNat, popSpec_eq]

theorem narrow_count {w : Nat} (hw : w ≤ 32) (v : BitVec w) :
    popSpec (v.setWidth 32) = popSpec v := by
  unfold popSpec
  have e : 32 = w + (32 - w) := by omega
  have hlow : countBelow w (fun i => (v.setWidth 32).getLsbD i) = countBelow w (fun i => v.getLsbD i) :=
    countBelow_congr (fun i hi => by
      rw [BitVec.getLsbD_setWidth]; simp; intro; omega)
  have hhigh : countBelow (32 - w) (fun i => (v.setWidth 32).getLsbD (w + i)) =
      countBelow (32 - w) (fun _ => false) :=
    countBelow_congr (fun i hi => by rw [BitVec.getLsbD_setWidth]; simp)
  conv => lhs; rw [e, countBelow_add]
  rw [← e, hlow, hhigh]
  simp [countBelow]

theorem C01_count_set_bits_u16 (v : BitVec 16) :
    (countSetBits16 v).toNat = (setPositions v).length := by
  unfold countSetBits16
  rw [BitVec.toNat_setWidth, countSetBits32_toNat, narrow_count (by decide), ← popSpec_eq,
    Nat.mod_eq_of_lt]
  have := countBelow_le 16 (fun i => v.getLsbD i)
  unfold popSpec; omega

theorem C01_count_set_bits_u8 (v : BitVec 8) :
    (countSetBits8 v).toNat = (setPositions v).length := by
  unfold countSetBits8
  rw [BitVec.toNat_setWidth, countSetBits32_toNat, narrow_count (by decide), ← popSpec_eq,
    Nat.mod_eq_of_lt]
  have := countBelow_le 8 (fun i => v.getLsbD i)
  unfold popSpec; omega

/-- For a non zero word the result `k` is such that bit `31-k` is set and every bit above is clear;
for zero the result is 32. -/
theorem C01_count_leading_zeros (v : BitVec 32) :
    (v = 0 → (countLeadingZeros v).toNat = 32) ∧
    (v ≠ 0 → (countLeadingZeros v).toNat < 32 ∧
      v.getLsbD (31 - (countLeadingZeros v).toNat) = true ∧
      ∀ i, 31 - (countLeadingZeros v).toNat < i → v.getLsbD i = false) := by
  constructor
  · rintro rfl; exact clz_zero
  · intro h
    obtain ⟨k, h1, h2, h3⟩ := exists_top (p := fun i => v.getLsbD i = true) 32 (exists_bit_of_ne_zero h)
    have h3' : ∀ j, k < j → v.getLsbD j = false := by
      intro j hj
      rcases Nat.lt_or_ge j 32 with h' | h'
      · simpa using h3 j hj h'
      · exact BitVec.getLsbD_of_ge _ _ h'
    rw [clz_spec v k h1 h2 h3']
    have : 31 - (31 - k) = k := by omega
    rw [this]
    exact ⟨by omega, h2, h3'⟩

/-- For a non zero word the result `k` is such that bit `k` is set and every bit below is clear;
for zero the result is 32. -/
theorem C01_count_trailing_zeros (v : BitVec 32) :
    (v = 0 → (countTrailingZeros v).toNat = 32) ∧
    (v ≠ 0 → (countTrailingZeros v).toNat < 32 ∧
      v.getLsbD (countTrailingZeros v).toNat = true ∧
      ∀ i, i < (countTrailingZeros v).toNat → v.getLsbD i = false) := by
  constructor
  · rintro rfl; decide
  · intro h
    obtain ⟨k, h1, h2, h3⟩ := exists_bot (p := fun i => v.getLsbD i = true) 32 (exists_bit_of_ne_zero h)
    have h3' : ∀ j, j < k → v.getLsbD j = false := fun j hj => by simpa using h3 j hj
    rw [ctz_spec v k h1 h2 h3']
    exact ⟨h1, h2, h3'⟩

theorem C01_and_not (a b : BitVec 32) (i : Nat) :
    (andNot a b).getLsbD i = (b.getLsbD i && !a.getLsbD i) := by
  unfold andNot
  rw [BitVec.getLsbD_and, BitVec.getLsbD_not]
  rcases Nat.lt_or_ge i 32 with h | h
  · simp [h, Bool.and_comm]
  · simp [BitVec.getLsbD_of_ge _ _ h]

/-- Rotating left by `n < 32` moves bit `i` to bit `(i + n) % 32`. -/
theorem C01_rotate_bits_left (v : BitVec 32) (n i : Nat) (hn : n < 32) (hi : i < 32) :
    (rotateBitsLeft v n).getLsbD ((i + n) % 32) = v.getLsbD i := by
  unfold rotateBitsLeft
  simp only [BitVec.getLsbD_or, BitVec.getLsbD_shiftLeft, BitVec.getLsbD_ushiftRight,
    Nat.mod_eq_of_lt hn]
  rcases Nat.lt_or_ge (i + n) 32 with h | h
  · rw [Nat.mod_eq_of_lt h]
    have e1 : i + n - n = i := by omega
    simp only [e1, h, decide_true, Bool.true_and]
    rcases Nat.eq_zero_or_pos n with h0 | h0
    · subst h0; simp
    · have : (32 - n) % 32 = 32 - n := Nat.mod_eq_of_lt (by omega)
      rw [this]
      have hge : 32 ≤ (32 - n) + (i + n) := by omega
      rw [BitVec.getLsbD_of_ge _ _ hge]
      simp
  · have e : (i + n) % 32 = i + n - 32 := by omega
    have e' : (32 - n) % 32 = 32 - n := Nat.mod_eq_of_lt (by omega)
    rw [e, e']
    have e2 : 32 - n + (i + n - 32) = i := by omega
    have hlt : i + n - 32 < n := by omega
    rw [e2]; simp [hlt]

example : (countLeadingZeros 0x00800001#32).toNat = 8 ∧ (countTrailingZeros 0x00F00000#32).toNat = 20
    ∧ (countSetBits32 0xF0F01001#32).toNat = 10 ∧ (0x00800001#32 : BitVec 32) ≠ 0 := by decide

end Acl.C01
