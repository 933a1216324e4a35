import Verif.Transform.SeekSpec
import Verif.Transform.SegmentSearch
import Verif.Database.StreamingLemmas
/-! The mask searches of seek_v0. -/
namespace Acl.Seek
open Acl.Segmenting

theorem sub31_eq (n : Nat) (h : n ≤ 31) : sub31 n = 31 - n := by unfold sub31; omega

theorem msb_eq (w : BitVec 32) (k : Nat) (h : k < 32) : w.getMsbD k = w.getLsbD (31 - k) := by
  simp [BitVec.getMsbD, h]

theorem shl_ones_bit (n i : Nat) (h : n < 32) : (0xFFFFFFFF#32 <<< n).getLsbD i = decide (n ≤ i ∧ i < 32) := by
  rw [show 0xFFFFFFFF#32 = BitVec.allOnes 32 by decide]
  simp only [BitVec.getLsbD_shiftLeft, BitVec.getLsbD_allOnes]
  by_cases h1 : i < 32 <;> by_cases h2 : n ≤ i <;> simp [h1, h2] <;> omega

theorem shr_ones_bit (n i : Nat) : (0xFFFFFFFF#32 >>> n).getLsbD i = decide (n + i < 32) := by
  rw [show 0xFFFFFFFF#32 = BitVec.allOnes 32 by decide]
  simp only [BitVec.getLsbD_ushiftRight, BitVec.getLsbD_allOnes]

theorem nearestBefore_spec (w : BitVec 32) (kf : Nat) (h : kf < 32) (he : ∃ j, j ≤ kf ∧ w.getMsbD j = true) :
    ∃ k, nearestBefore w kf = some k ∧ k ≤ kf ∧ w.getMsbD k = true ∧
      ∀ j, k < j → j ≤ kf → w.getMsbD j = false := by
  have hm : shlOnes (sub31 kf) = some (0xFFFFFFFF#32 <<< (31 - kf)) := by
    rw [sub31_eq _ (by omega)]; simp [shlOnes]; omega
  have hbit : ∀ i, (w &&& (0xFFFFFFFF#32 <<< (31 - kf))).getLsbD i = (w.getLsbD i && decide (31 - kf ≤ i ∧ i < 32)) := by
    intro i
    rw [BitVec.getLsbD_and, shl_ones_bit _ _ (by omega)]
  obtain ⟨h1, h2, h3⟩ := Streaming.ctz_bits (w &&& (0xFFFFFFFF#32 <<< (31 - kf)))
  generalize ht0 : (countTrailingZeros (w &&& (0xFFFFFFFF#32 <<< (31 - kf)))) = t at *
  obtain ⟨j, hj, hb⟩ := he
  rw [msb_eq _ _ (by omega)] at hb
  have ht : t.toNat ≤ 31 - j := by
    apply Classical.byContradiction
    intro hc
    have := h2 (31 - j) (by omega)
    rw [hbit, hb] at this
    simp at this
    omega
  have h4 := h3 (by omega)
  rw [hbit] at h4
  simp only [Bool.and_eq_true, decide_eq_true_eq] at h4
  refine ⟨31 - t.toNat, ?_, by omega, ?_, ?_⟩
  · unfold nearestBefore
    rw [hm]
    simp only [Option.bind_eq_bind, Option.bind_some, Option.pure_def]
    rw [ht0, sub31_eq _ (by omega)]
  · rw [msb_eq _ _ (by omega)]
    rw [show 31 - (31 - t.toNat) = t.toNat by omega]
    exact h4.1
  · intro i hi1 hi2
    rw [msb_eq _ _ (by omega)]
    have := h2 (31 - i) (by omega)
    rw [hbit] at this
    have hd : decide (31 - kf ≤ 31 - i ∧ 31 - i < 32) = true := by simp; omega
    rw [hd] at this
    simpa using this

theorem nearestAfter_spec (w : BitVec 32) (kf : Nat) (he : ∃ j, kf ≤ j ∧ j < 32 ∧ w.getMsbD j = true) :
    ∃ k, nearestAfter w kf = some k ∧ kf ≤ k ∧ k < 32 ∧ w.getMsbD k = true ∧
      ∀ j, kf ≤ j → j < k → w.getMsbD j = false := by
  obtain ⟨j, hj, hj2, hb⟩ := he
  have hm : shrOnes kf = some (0xFFFFFFFF#32 >>> kf) := by simp [shrOnes]; omega
  have hbit : ∀ i, (w &&& (0xFFFFFFFF#32 >>> kf)).getLsbD i = (w.getLsbD i && decide (kf + i < 32)) := by
    intro i
    rw [BitVec.getLsbD_and, shr_ones_bit]
  obtain ⟨h1, h2, h3⟩ := Streaming.clz_bits (w &&& (0xFFFFFFFF#32 >>> kf))
  generalize ht0 : (countLeadingZeros (w &&& (0xFFFFFFFF#32 >>> kf))) = t at *
  rw [msb_eq _ _ hj2] at hb
  have ht : t.toNat ≤ j := by
    apply Classical.byContradiction
    intro hc
    have := h2 j (by omega)
    rw [hbit, hb] at this
    simp at this
    omega
  have h4 := h3 (by omega)
  rw [hbit] at h4
  simp only [Bool.and_eq_true, decide_eq_true_eq] at h4
  refine ⟨t.toNat, ?_, by omega, by omega, ?_, ?_⟩
  · unfold nearestAfter
    rw [hm]
    simp only [Option.bind_eq_bind, Option.bind_some, Option.pure_def]
    rw [ht0]
  · rw [msb_eq _ _ (by omega)]; exact h4.1
  · intro i hi1 hi2
    rw [msb_eq _ _ (by omega)]
    have := h2 i (by omega)
    rw [hbit] at this
    have hd : decide (kf + (31 - i) < 32) = true := by simp; omega
    rw [hd] at this
    simpa using this

theorem countBelow_reverse (n : Nat) (p : Nat → Bool) : countBelow n (fun i => p (n - 1 - i)) = countBelow n p := by
  induction n generalizing p with
  | zero => rfl
  | succ n ih =>
    rw [countBelow_succ]
    have := ih (fun i => p (1 + i))
    rw [show countBelow (n + 1) p = countBelow (1 + n) p by rw [Nat.add_comm], countBelow_add, ← this]
    rw [show countBelow 1 p = if p 0 then 1 else 0 by simp [countBelow, List.range_succ, List.countP_cons]]
    simp only [Nat.add_sub_cancel, Nat.sub_self]
    rw [countBelow_congr (q := fun i => p (1 + (n - 1 - i)))]
    · omega
    · intro i hi
      congr 1; omega

theorem storedPosition_spec (w : BitVec 32) (kf : Nat) (h : kf < 32) :
    storedPosition kf w = some (countBelow kf (fun j => w.getMsbD j)) := by
  have hm : shrOnes kf = some (0xFFFFFFFF#32 >>> kf) := by simp [shrOnes]; omega
  unfold storedPosition
  rw [hm]
  simp only [Option.bind_eq_bind, Option.bind_some, Option.pure_def, Option.some.injEq]
  rw [countSetBits32_toNat, popSpec]
  have hsplit := countBelow_add (32 - kf) kf (fun i => (andNot (0xFFFFFFFF#32 >>> kf) w).getLsbD i)
  rw [show 32 - kf + kf = 32 by omega] at hsplit
  have hbit : ∀ i, (andNot (0xFFFFFFFF#32 >>> kf) w).getLsbD i = (decide (32 ≤ kf + i) && w.getLsbD i) := by
    intro i
    unfold andNot
    rw [BitVec.getLsbD_and, BitVec.getLsbD_not, shr_ones_bit]
    by_cases h1 : i < 32
    · by_cases h2 : kf + i < 32
      · simp [h1, h2]
      · simp [h1, h2]
        omega
    · rw [BitVec.getLsbD_of_ge w i (by omega)]; simp
  have hz : countBelow (32 - kf) (fun i => (andNot (0xFFFFFFFF#32 >>> kf) w).getLsbD i) = 0 := by
    apply Classical.byContradiction
    intro hc
    obtain ⟨i, hi, hb⟩ := (Streaming.countBelow_ge_one _ _).1 hc
    rw [hbit] at hb
    have : ¬ (32 ≤ kf + i) := by omega
    simp [this] at hb
  rw [hsplit, hz, Nat.zero_add, ← countBelow_reverse kf (fun j => w.getMsbD j)]
  apply countBelow_congr
  intro i hi
  rw [hbit, msb_eq _ _ (by omega)]
  have : 32 ≤ kf + (32 - kf + i) := by omega
  simp only [this, decide_true, Bool.true_and]
  congr 1; omega

theorem lo32_eq (m : BitVec 64) : lo32 m = m.extractLsb' 0 32 := by
  apply BitVec.eq_of_getLsbD_eq
  intro i hi
  simp [lo32, hi]

theorem hi32_eq (m : BitVec 64) : hi32 m = (m.extractLsb' 32 32).toNat := by
  unfold hi32
  simp [BitVec.extractLsb'_toNat]
  rw [Nat.mod_eq_of_lt]
  have := m.isLt
  omega

/-- Testing a sample in the 64 bit metadata looks at its low half. -/
theorem meta_bit (m : BitVec 64) (k : Nat) (h : k < 32) :
    (m &&& (1#64 <<< (sub31 k)) ≠ 0) ↔ (m.extractLsb' 0 32).getMsbD k = true := by
  rw [sub31_eq _ (by omega), msb_eq _ _ h, BitVec.getLsbD_extractLsb']
  have hk : 31 - k < 32 := by omega
  simp only [hk, decide_true, Bool.true_and, Nat.zero_add]
  have hb : ∀ i, (m &&& (1#64 <<< (31 - k))).getLsbD i = (m.getLsbD i && decide (i = 31 - k)) := by
    intro i
    rw [BitVec.getLsbD_and, BitVec.getLsbD_shiftLeft]
    by_cases h1 : i = 31 - k
    · subst h1; simp; intro _; omega
    · have : ¬ (i < 31 - k) ∧ i < 64 → (1#64).getLsbD (i - (31 - k)) = false := by
        intro h2
        rw [BitVec.getLsbD_one]
        simp; omega
      simp only [h1, decide_false, Bool.and_false]
      by_cases h3 : i < 64
      · by_cases h4 : i < 31 - k
        · simp [h4]
        · rw [this ⟨h4, h3⟩]; simp
      · simp [h3]
  constructor
  · intro hne
    obtain ⟨i, hi, hbi⟩ := exists_bit_of_ne_zero hne
    rw [hb] at hbi
    simp only [Bool.and_eq_true, decide_eq_true_eq] at hbi
    rw [← hbi.2]; exact hbi.1
  · intro hbit h0
    have := hb (31 - k)
    rw [h0, hbit] at this
    simp at this

end Acl.Seek
