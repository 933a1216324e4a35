import Verif.Core.Memory
/-! C04: byte_swap reverses the bytes. Specification: byte `k` of the result is byte `n-1-k` of the
input, where `byteAt v k` is the `k`-th byte, least significant first. -/
namespace Acl.C04

/-- Byte `k` of a word, least significant first. -/
def byteAt {w : Nat} (v : BitVec w) (k : Nat) : BitVec 8 := v.extractLsb' (8 * k) 8

/-- One exchange step: fields of `s` bits are swapped pairwise. -/
theorem exchange_bit {w : Nat} (v lo hi : BitVec w) (s : Nat)
    (hlo : ∀ i, i < w → lo.getLsbD i = decide (i / s % 2 = 0))
    (hhi : ∀ i, i < w → hi.getLsbD i = decide (i / s % 2 = 1))
    (i : Nat) (hiw : i < w) (hs : 0 < s) (hw : i / s % 2 = 0 → i + s < w) :
    (((v &&& lo) <<< s) ||| ((v &&& hi) >>> s)).getLsbD i =
      v.getLsbD (if i / s % 2 = 0 then i + s else i - s) := by
  simp only [BitVec.getLsbD_or, BitVec.getLsbD_shiftLeft, BitVec.getLsbD_ushiftRight, BitVec.getLsbD_and]
  have hadd : (s + i) / s = i / s + 1 := by rw [Nat.add_div_left _ hs]
  rcases Nat.mod_two_eq_zero_or_one (i / s) with h | h
  · rw [if_pos h]
    have h1 : (hi.getLsbD (s + i)) = true := by
      rw [hhi _ (by have := hw h; omega), hadd]; simp; omega
    have h2 : i < s ∨ (lo.getLsbD (i - s)) = false := by
      rcases Nat.lt_or_ge i s with h' | h'
      · exact Or.inl h'
      · right
        rw [hlo _ (by omega)]
        have : (i - s) / s = i / s - 1 := by
          have := Nat.sub_mul_div i s 1; simpa using this
        have : 1 ≤ i / s := (Nat.le_div_iff_mul_le hs).2 (by omega)
        simp; omega
    rw [h1, Nat.add_comm s i]
    rcases h2 with h2 | h2 <;> simp [h2]
  · rw [if_neg (by omega)]
    have hge : s ≤ i := by
      rcases Nat.lt_or_ge i s with h' | h'
      · rw [Nat.div_eq_of_lt h'] at h; omega
      · exact h'
    have hsub : (i - s) / s = i / s - 1 := by
      have := Nat.sub_mul_div i s 1; simpa using this
    have h1 : lo.getLsbD (i - s) = true := by
      rw [hlo _ (by omega), hsub]; simp; omega
    have h2 : (v.getLsbD (s + i) && hi.getLsbD (s + i)) = false := by
      rcases Nat.lt_or_ge (s + i) w with h' | h'
      · rw [hhi _ h', hadd]; simp; omega
      · simp [BitVec.getLsbD_of_ge _ _ h']
    rw [h1, h2]
    have : ¬ (i < s) := by omega
    simp [hiw, this]

theorem lift {n : Nat} {p : Nat → Prop} (h : ∀ i : Fin n, p i.val) : ∀ i, i < n → p i :=
  fun i hi => h ⟨i, hi⟩

theorem swap16_bit (v : BitVec 16) (i : Nat) (hi : i < 16) :
    (byteSwap16 v).getLsbD i = v.getLsbD (8 * (1 - i / 8) + i % 8) := by
  unfold byteSwap16
  simp only [BitVec.getLsbD_setWidth, BitVec.getLsbD_or, BitVec.getLsbD_shiftLeft,
    BitVec.getLsbD_ushiftRight, BitVec.getLsbD_and]
  have hl : ∀ i, i < 32 → (0x00FF#32).getLsbD i = decide (i < 8) := lift (by decide +kernel)
  have hh : ∀ i, i < 32 → (0xFF00#32).getLsbD i = decide (8 ≤ i ∧ i < 16) := lift (by decide +kernel)
  rw [hl _ (by omega), hh _ (by omega)]
  rcases Nat.lt_or_ge i 8 with h | h
  · have e : 8 * (1 - i / 8) + i % 8 = 8 + i := by omega
    have h1 : 8 + i < 32 := by omega
    have h2 : 8 + i < 16 := by omega
    rw [e]; simp [hi, h, h1, h2]
  · have e : 8 * (1 - i / 8) + i % 8 = i - 8 := by omega
    have h1 : ¬ i < 8 := by omega
    have h2 : i - 8 < 8 := by omega
    have h3 : i < 32 := by omega
    have h4 : i - 8 < 32 := by omega
    have h5 : ¬ (8 + i < 16) := by omega
    rw [e]; simp [hi, h1, h2, h3, h4, h5]

theorem swap32_bit (v : BitVec 32) (i : Nat) (hi : i < 32) :
    (byteSwap32 v).getLsbD i = v.getLsbD (8 * (3 - i / 8) + i % 8) := by
  unfold byteSwap32
  simp only
  rw [exchange_bit _ _ _ 8 (lift (by decide +kernel)) (lift (by decide +kernel)) i hi (by omega) (by omega),
    exchange_bit _ _ _ 16 (lift (by decide +kernel)) (lift (by decide +kernel)) _ (by split <;> omega)
      (by omega) (by split <;> omega)]
  congr 1
  split <;> split <;> omega

theorem swap64_bit (v : BitVec 64) (i : Nat) (hi : i < 64) :
    (byteSwap64 v).getLsbD i = v.getLsbD (8 * (7 - i / 8) + i % 8) := by
  unfold byteSwap64
  simp only
  rw [exchange_bit _ _ _ 8 (lift (by decide +kernel)) (lift (by decide +kernel)) i hi (by omega) (by omega)]
  generalize hj : (if i / 8 % 2 = 0 then i + 8 else i - 8) = j
  have hj' : j < 64 := by rw [← hj]; split <;> omega
  rw [exchange_bit _ _ _ 16 (lift (by decide +kernel)) (lift (by decide +kernel)) j hj' (by omega) (by omega)]
  generalize hk : (if j / 16 % 2 = 0 then j + 16 else j - 16) = k
  have hk' : k < 64 := by rw [← hk]; split <;> omega
  rw [exchange_bit _ _ _ 32 (lift (by decide +kernel)) (lift (by decide +kernel)) k hk' (by omega) (by omega)]
  congr 1
  split at hj <;> split at hk <;> split <;> omega

theorem C04_byte_swap_u16 (v : BitVec 16) (k : Nat) (hk : k < 2) :
    byteAt (byteSwap16 v) k = byteAt v (1 - k) := by
  apply BitVec.eq_of_getLsbD_eq
  intro i hi
  simp only [byteAt, BitVec.getLsbD_extractLsb', hi, decide_true, Bool.true_and]
  rw [swap16_bit v _ (by omega)]; congr 1; omega

theorem C04_byte_swap_u32 (v : BitVec 32) (k : Nat) (hk : k < 4) :
    byteAt (byteSwap32 v) k = byteAt v (3 - k) := by
  apply BitVec.eq_of_getLsbD_eq
  intro i hi
  simp only [byteAt, BitVec.getLsbD_extractLsb', hi, decide_true, Bool.true_and]
  rw [swap32_bit v _ (by omega)]; congr 1; omega

theorem C04_byte_swap_u64 (v : BitVec 64) (k : Nat) (hk : k < 8) :
    byteAt (byteSwap64 v) k = byteAt v (7 - k) := by
  apply BitVec.eq_of_getLsbD_eq
  intro i hi
  simp only [byteAt, BitVec.getLsbD_extractLsb', hi, decide_true, Bool.true_and]
  rw [swap64_bit v _ (by omega)]; congr 1; omega

/-- Swapping twice gives the original value. -/
theorem C04_byte_swap_involutive (a : BitVec 16) (b : BitVec 32) (c : BitVec 64) :
    byteSwap16 (byteSwap16 a) = a ∧ byteSwap32 (byteSwap32 b) = b ∧ byteSwap64 (byteSwap64 c) = c := by
  refine ⟨?_, ?_, ?_⟩ <;> apply BitVec.eq_of_getLsbD_eq <;> intro i hi
  · rw [swap16_bit _ _ hi, swap16_bit _ _ (by omega)]; congr 1; omega
  · rw [swap32_bit _ _ hi, swap32_bit _ _ (by omega)]; congr 1; omega
  · rw [swap64_bit _ _ hi, swap64_bit _ _ (by omega)]; congr 1; omega

example : byteSwap32 0x11223344#32 = 0x44332211#32 ∧ byteSwap16 0x1122#16 = 0x2211#16 ∧
    byteSwap64 0x1122334455667788#64 = 0x8877665544332211#64 := by decide

end Acl.C04
