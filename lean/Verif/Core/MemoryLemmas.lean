import Verif.Core.Memory
namespace Acl

/-- Bit `i` of a byte buffer, most significant bit of each byte first (big endian bit order). -/
def bufBit (m : List (BitVec 8)) (i : Nat) : Bool := (m.getD (i / 8) 0).getLsbD (7 - i % 8)

theorem ff_bit (i : Nat) : (0xFF#32).getLsbD i = decide (i < 8) := by
  have : (0xFF#32 : BitVec 32) = (BitVec.allOnes 8).setWidth 32 := by decide
  rw [this, BitVec.getLsbD_setWidth, BitVec.getLsbD_allOnes]
  by_cases h : i < 8
  · simp [h]; omega
  · simp [h]

theorem copyBitsInByte_bit (d s : BitVec 8) (dOff sOff n j : Nat) (h1 : 1 ≤ n) (hd : dOff + n ≤ 8)
    (hs : sOff + n ≤ 8) (hj : j < 8) :
    (copyBitsInByte d s dOff sOff n).getLsbD (7 - j) =
      if dOff ≤ j ∧ j < dOff + n then s.getLsbD (7 - (j - dOff + sOff)) else d.getLsbD (7 - j) := by
  unfold copyBitsInByte
  simp only [BitVec.getLsbD_setWidth, BitVec.getLsbD_or, BitVec.getLsbD_and, BitVec.getLsbD_not,
    BitVec.getLsbD_ushiftRight, BitVec.getLsbD_shiftLeft, ff_bit]
  have a1 : 7 - j < 8 := by omega
  have a2 : 7 - j < 32 := by omega
  by_cases hc : dOff ≤ j ∧ j < dOff + n
  · rw [if_pos hc]
    have b1 : dOff + (7 - j) < 8 := by omega
    have b2 : ¬ (7 - j < 8 - n - dOff) := by omega
    have b3 : 7 - j - (8 - n - dOff) < 8 := by omega
    have b4 : 8 - n + (7 - j - (8 - n - dOff)) < 8 := by omega
    have b5 : 8 - sOff - n + (7 - j - (8 - n - dOff)) = 7 - (j - dOff + sOff) := by omega
    have b6 : 7 - (j - dOff + sOff) < 32 := by omega
    simp only [b5]
    simp [a1, a2, b1, b2, b3, b4, b6]
  · rw [if_neg hc]
    by_cases hlt : j < dOff
    · have b1 : ¬ (dOff + (7 - j) < 8) := by omega
      have b2 : ¬ (7 - j < 8 - n - dOff) := by omega
      have b4 : ¬ (8 - n + (7 - j - (8 - n - dOff)) < 8) := by omega
      simp [a1, a2, b1, b2, b4]
    · have b2 : (7 - j < 8 - n - dOff) := by omega
      simp [a1, a2, b2]

theorem bufBit_set (m : List (BitVec 8)) (k : Nat) (b : BitVec 8) (i : Nat) (hk : k < m.length) :
    bufBit (m.set k b) i = if i / 8 = k then b.getLsbD (7 - i % 8) else bufBit m i := by
  unfold bufBit
  simp only [List.getD_eq_getElem?_getD, List.getElem?_set]
  by_cases h : k = i / 8
  · subst h; simp [hk]
  · have : i / 8 ≠ k := fun e => h e.symm
    simp [h, this]

theorem memcpyBits_spec (n : Nat) (dest : List (BitVec 8)) (dOff : Nat) (src : List (BitVec 8))
    (sOff : Nat) (hd : dOff + n ≤ 8 * dest.length) (hs : sOff + n ≤ 8 * src.length) :
    ∃ r, memcpyBits dest dOff src sOff n = some r ∧ r.length = dest.length ∧
      ∀ i, bufBit r i = if dOff ≤ i ∧ i < dOff + n then bufBit src (i - dOff + sOff) else bufBit dest i := by
  induction n using Nat.strongRecOn generalizing dest dOff sOff with
  | ind n ih =>
  unfold memcpyBits
  by_cases hn : n = 0
  · subst hn
    exact ⟨dest, by simp, rfl, fun i => by rw [if_neg]; omega⟩
  · rw [if_neg hn]
    have hsl : sOff / 8 < src.length := by omega
    have hdl : dOff / 8 < dest.length := by omega
    generalize hc : min (min (8 - dOff % 8) (8 - sOff % 8)) n = c
    have hc1 : 1 ≤ c := by omega
    have hcd : dOff % 8 + c ≤ 8 := by omega
    have hcs : sOff % 8 + c ≤ 8 := by omega
    have hcn : c ≤ n := by omega
    simp only [List.getElem?_eq_getElem hsl, List.getElem?_eq_getElem hdl]
    generalize hd' : dest.set (dOff / 8) (copyBitsInByte dest[dOff/8] src[sOff/8] (dOff % 8) (sOff % 8) c) = dest'
    have hlen : dest'.length = dest.length := by rw [← hd']; simp
    have hbit : ∀ i, bufBit dest' i =
        if dOff ≤ i ∧ i < dOff + c then bufBit src (i - dOff + sOff) else bufBit dest i := by
      intro i
      rw [← hd', bufBit_set _ _ _ _ hdl]
      by_cases hi : i / 8 = dOff / 8
      · rw [if_pos hi, copyBitsInByte_bit _ _ _ _ _ _ hc1 hcd hcs (by omega)]
        have hdi : dest.getD (i/8) 0 = dest[dOff/8] := by
          rw [hi]; simp [List.getElem?_eq_getElem hdl]
        by_cases hr : dOff ≤ i ∧ i < dOff + c
        · rw [if_pos hr, if_pos (by omega)]
          unfold bufBit
          have e1 : (i - dOff + sOff) / 8 = sOff / 8 := by omega
          have e2 : (i - dOff + sOff) % 8 = i % 8 - dOff % 8 + sOff % 8 := by omega
          rw [e1, e2]
          simp [List.getElem?_eq_getElem hsl]
        · rw [if_neg hr, if_neg (by omega)]
          unfold bufBit
          rw [hdi]
      · rw [if_neg hi, if_neg]; omega
    by_cases hfin : n ≤ c
    · rw [if_pos hfin]
      have : n = c := by omega
      subst this
      exact ⟨dest', rfl, hlen, hbit⟩
    · rw [if_neg hfin]
      obtain ⟨r, e, l, b⟩ := ih (n - c) (by omega) dest' (dOff + c) (sOff + c) (by omega) (by omega)
      refine ⟨r, e, by omega, ?_⟩
      intro i
      rw [b i, hbit i]
      by_cases h1 : dOff + c ≤ i ∧ i < dOff + c + (n - c)
      · rw [if_pos h1, if_pos (by omega)]; congr 1; omega
      · rw [if_neg h1]
        by_cases h2 : dOff ≤ i ∧ i < dOff + c
        · rw [if_pos h2, if_pos (by omega)]
        · rw [if_neg h2, if_neg (by omega)]

/-- Masking away the low `k` bits. -/
theorem and_not_low (x : BitVec 64) (k : Nat) (hk : k < 64) :
    (x &&& ~~~((1#64 <<< k) - 1)).toNat = x.toNat / 2 ^ k * 2 ^ k := by
  have hmask : ∀ i, ((1#64 <<< k) - 1#64).getLsbD i = decide (i < k) := by
    intro i
    rw [← BitVec.testBit_toNat, BitVec.toNat_sub_of_le]
    · have h2 : (2:Nat) ^ k < 2 ^ 64 := Nat.pow_lt_pow_right (by omega) hk
      rw [BitVec.toNat_shiftLeft]
      simp only [BitVec.toNat_ofNat, Nat.shiftLeft_eq]
      rw [show (1 % 2 ^ 64 * 2 ^ k) % 2 ^ 64 = 2 ^ k by omega, show 1 % 2 ^ 64 = 1 by rfl]
      rw [Nat.testBit_two_pow_sub_one]
    · have h2 : (2:Nat) ^ k < 2 ^ 64 := Nat.pow_lt_pow_right (by omega) hk
      have := Nat.one_le_two_pow (n := k)
      rw [BitVec.le_def, BitVec.toNat_shiftLeft]
      simp only [BitVec.toNat_ofNat, Nat.shiftLeft_eq]
      omega
  have : x &&& ~~~((1#64 <<< k) - 1) = (x >>> k) <<< k := by
    apply BitVec.eq_of_getLsbD_eq
    intro i hi
    rw [BitVec.getLsbD_and, BitVec.getLsbD_not, BitVec.getLsbD_shiftLeft, BitVec.getLsbD_ushiftRight]
    have := hmask i
    simp only [BitVec.ofNat_eq_ofNat] at *
    rw [this]
    by_cases h : i < k
    · simp [h]
    · have e : k + (i - k) = i := by omega
      simp [h, hi, e]
  rw [this, BitVec.toNat_shiftLeft, BitVec.toNat_ushiftRight, Nat.shiftRight_eq_div_pow,
    Nat.shiftLeft_eq, Nat.mod_eq_of_lt]
  have := Nat.div_mul_le_self x.toNat (2^k)
  have := x.isLt
  omega

end Acl
