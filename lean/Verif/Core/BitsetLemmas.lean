import Verif.Core.Bitset
import Verif.Core.ScanLemmas
namespace Acl

/-- Abstraction: bit `i` of a bit set stored most significant bit first. -/
def bsBit (m : List (BitVec 32)) (i : Nat) : Bool := (m.getD (i / 32) 0).getLsbD (31 - i % 32)

theorem bitMask_bit (i j : Nat) : (bitMask i).getLsbD j = decide (j = 31 - i % 32) := by
  unfold bitMask
  rw [BitVec.getLsbD_shiftLeft, BitVec.getLsbD_one]
  by_cases h : j = 31 - i % 32
  · subst h; simp; omega
  · simp [h]; omega

theorem and_mask_ne_zero (w : BitVec 32) (i : Nat) :
    ((w &&& bitMask i) != 0) = w.getLsbD (31 - i % 32) := by
  rw [Bool.eq_iff_iff, bne_iff_ne]
  constructor
  · intro h
    obtain ⟨k, _, hk⟩ := exists_bit_of_ne_zero h
    rw [BitVec.getLsbD_and, bitMask_bit] at hk
    simp at hk
    obtain ⟨h1, h2⟩ := hk
    subst h2; exact h1
  · intro h h0
    have : (w &&& bitMask i).getLsbD (31 - i % 32) = true := by
      rw [BitVec.getLsbD_and, bitMask_bit, h]; simp
    rw [h0] at this; simp at this

theorem bitsetTest_eq (m : List (BitVec 32)) (i : Nat) (h : i / 32 < m.length) :
    bitsetTest m i = some (bsBit m i) := by
  unfold bitsetTest bsBit
  simp only [List.getElem?_eq_getElem h, Option.bind_eq_bind, Option.bind_some, Option.pure_def,
    List.getD_eq_getElem?_getD, Option.getD_some]
  rw [and_mask_ne_zero]

theorem bitsetSet_spec (m : List (BitVec 32)) (i : Nat) (v : Bool) (h : i / 32 < m.length) :
    ∃ m', bitsetSet m i v = some m' ∧ m'.length = m.length ∧
      (∀ j, j ≠ i / 32 → m'[j]? = m[j]?) ∧
      ∀ j, bsBit m' j = if j = i then v else bsBit m j := by
  refine ⟨m.set (i / 32) (if v then m[i/32] ||| bitMask i else m[i/32] &&& ~~~(bitMask i)), ?_, ?_, ?_, ?_⟩
  · unfold bitsetSet writeWord
    simp [h]
  · simp
  · intro j hj; rw [List.getElem?_set_ne]; omega
  · intro j
    unfold bsBit
    simp only [List.getD_eq_getElem?_getD, List.getElem?_set]
    by_cases hw : i / 32 = j / 32
    · have hj : j / 32 < m.length := by omega
      have hg : m[i/32]? = some m[i/32] := List.getElem?_eq_getElem h
      simp only [hw, if_true, hj]
      have hg2 : m[j/32]? = some m[j/32] := List.getElem?_eq_getElem hj
      have hmod : (31 - j % 32 = 31 - i % 32) ↔ j = i := by omega
      have hm : m[i/32] = m[j/32] := by simp [hw]
      rw [hg2]
      simp only [Option.getD_some]
      by_cases hji : j = i
      · subst hji
        cases v
        · simp [BitVec.getLsbD_and, BitVec.getLsbD_not, bitMask_bit]
        · simp [BitVec.getLsbD_or, bitMask_bit]
      · have hmod' : ¬ (31 - j % 32 = 31 - i % 32) := fun h => hji (hmod.1 h)
        cases v
        · simp [BitVec.getLsbD_and, BitVec.getLsbD_not, bitMask_bit, hji, hmod']
          intro; omega
        · simp [BitVec.getLsbD_or, bitMask_bit, hji, hmod']
    · have : j ≠ i := by rintro rfl; exact hw rfl
      simp [hw, this]

theorem bitsetSetRange_spec (n : Nat) (m : List (BitVec 32)) (s size : Nat) (v : Bool)
    (h : s + n ≤ size * 32) (hs : size ≤ m.length) :
    ∃ m', bitsetSetRange m s n v = some m' ∧ m'.length = m.length ∧
      (∀ j, size ≤ j → m'[j]? = m[j]?) ∧
      ∀ j, bsBit m' j = if s ≤ j ∧ j < s + n then v else bsBit m j := by
  induction n generalizing m s with
  | zero => 
    refine ⟨m, rfl, rfl, fun _ _ => rfl, fun j => ?_⟩
    rw [if_neg]; omega
  | succ n ih =>
    obtain ⟨m1, e1, l1, o1, b1⟩ := bitsetSet_spec m s v (by omega)
    obtain ⟨m2, e2, l2, o2, b2⟩ := ih m1 (s + 1) (by omega) (by omega)
    refine ⟨m2, ?_, by omega, ?_, ?_⟩
    · simp only [bitsetSetRange, e1, Option.bind_eq_bind, Option.bind_some, e2]
    · intro j hj; rw [o2 j hj, o1 j (by omega)]
    · intro j; rw [b2, b1]
      by_cases hj : j = s
      · subst hj; rw [if_neg (by omega), if_pos rfl, if_pos (by omega)]
      · by_cases h2 : s + 1 ≤ j ∧ j < s + 1 + n
        · rw [if_pos h2, if_pos (by omega)]
        · rw [if_neg h2, if_neg hj, if_neg (by omega)]

theorem bitsetResetFrom_spec (k : Nat) (m : List (BitVec 32)) (o : Nat) (v : Bool)
    (h : o + k ≤ m.length) :
    ∃ m', bitsetResetFrom m o k v = some m' ∧ m'.length = m.length ∧
      (∀ j, (j < o ∨ o + k ≤ j) → m'[j]? = m[j]?) ∧
      ∀ j, o ≤ j → j < o + k → m'[j]? = some (if v then 0xFFFFFFFF#32 else 0#32) := by
  induction k generalizing m o with
  | zero => exact ⟨m, rfl, rfl, fun _ _ => rfl, fun j h1 h2 => by omega⟩
  | succ k ih =>
    have ho : o < m.length := by omega
    obtain ⟨m', e, l, out, inn⟩ := ih (m.set o (if v then 0xFFFFFFFF#32 else 0#32)) (o+1) (by simp; omega)
    refine ⟨m', ?_, by simpa using l, ?_, ?_⟩
    · simp only [bitsetResetFrom, writeWord, ho, if_true, Option.bind_eq_bind, Option.bind_some, e]
    · intro j hj; rw [out j (by omega), List.getElem?_set_ne]; omega
    · intro j h1 h2
      by_cases hj : j = o
      · subst hj; rw [out j (by omega), List.getElem?_set_self ho]
      · exact inn j (by omega) (by omega)

theorem bitsetAndNotInto_spec (k : Nat) (other m : List (BitVec 32)) (o : Nat)
    (h : o + k ≤ m.length) (h' : o + k ≤ other.length) :
    ∃ m', bitsetAndNotInto other m o k = some m' ∧ m'.length = m.length ∧
      (∀ j, (j < o ∨ o + k ≤ j) → m'[j]? = m[j]?) ∧
      ∀ j, o ≤ j → j < o + k → m'[j]? = some (andNot (other.getD j 0) (m.getD j 0)) := by
  induction k generalizing m o with
  | zero => exact ⟨m, rfl, rfl, fun _ _ => rfl, fun j h1 h2 => by omega⟩
  | succ k ih =>
    have ho : o < m.length := by omega
    have ho' : o < other.length := by omega
    obtain ⟨m', e, l, out, inn⟩ := ih (m.set o (andNot other[o] m[o])) (o+1) (by simp; omega) (by omega)
    refine ⟨m', ?_, by simpa using l, ?_, ?_⟩
    · simp only [bitsetAndNotInto, writeWord, ho, if_true, Option.bind_eq_bind, Option.bind_some, e,
        List.getElem?_eq_getElem ho, List.getElem?_eq_getElem ho']
    · intro j hj; rw [out j (by omega), List.getElem?_set_ne]; omega
    · intro j h1 h2
      by_cases hj : j = o
      · subst hj; rw [out j (by omega), List.getElem?_set_self ho]
        simp [List.getElem?_eq_getElem ho, List.getElem?_eq_getElem ho']
      · rw [inn j (by omega) (by omega)]
        simp only [List.getD_eq_getElem?_getD]
        rw [List.getElem?_set_ne]; omega

theorem bitsetNotAndInto_spec (k : Nat) (other m : List (BitVec 32)) (o : Nat)
    (h : o + k ≤ m.length) (h' : o + k ≤ other.length) :
    ∃ m', bitsetNotAndInto other m o k = some m' ∧ m'.length = m.length ∧
      (∀ j, (j < o ∨ o + k ≤ j) → m'[j]? = m[j]?) ∧
      ∀ j, o ≤ j → j < o + k → m'[j]? = some (andNot (m.getD j 0) (other.getD j 0)) := by
  induction k generalizing m o with
  | zero => exact ⟨m, rfl, rfl, fun _ _ => rfl, fun j h1 h2 => by omega⟩
  | succ k ih =>
    have ho : o < m.length := by omega
    have ho' : o < other.length := by omega
    obtain ⟨m', e, l, out, inn⟩ := ih (m.set o (andNot m[o] other[o])) (o+1) (by simp; omega) (by omega)
    refine ⟨m', ?_, by simpa using l, ?_, ?_⟩
    · simp only [bitsetNotAndInto, writeWord, ho, if_true, Option.bind_eq_bind, Option.bind_some, e,
        List.getElem?_eq_getElem ho, List.getElem?_eq_getElem ho']
    · intro j hj; rw [out j (by omega), List.getElem?_set_ne]; omega
    · intro j h1 h2
      by_cases hj : j = o
      · subst hj; rw [out j (by omega), List.getElem?_set_self ho]
        simp [List.getElem?_eq_getElem ho, List.getElem?_eq_getElem ho']
      · rw [inn j (by omega) (by omega)]
        simp only [List.getD_eq_getElem?_getD]
        rw [List.getElem?_set_ne]; omega

theorem countBelow_rev (n : Nat) (p : Nat → Bool) :
    countBelow n (fun i => p (n - 1 - i)) = countBelow n p := by
  induction n generalizing p with
  | zero => rfl
  | succ n ih =>
    have e : n + 1 = 1 + n := by omega
    have h1 : countBelow (n + 1) (fun i => p (n + 1 - 1 - i)) = countBelow n (fun i => p (n - 1 - i + 1)) + (if p 0 then 1 else 0) := by
      rw [countBelow_succ]
      congr 1
      · exact countBelow_congr (fun i hi => by congr 1; omega)
      · simp
    have h2 : countBelow (1 + n) p = (if p 0 then 1 else 0) + countBelow n (fun i => p (1 + i)) := by
      rw [countBelow_add]; simp [countBelow, List.range_succ, List.countP_cons]
    rw [h1, ih (fun i => p (i + 1)), e, h2]
    have : (fun i => p (i + 1)) = fun i => p (1 + i) := by funext i; congr 1; omega
    rw [this]; omega

theorem popSpec_word (m : List (BitVec 32)) (o : Nat) :
    popSpec (m.getD o 0) = countBelow 32 (fun i => bsBit m (32 * o + i)) := by
  unfold popSpec
  rw [← countBelow_rev]
  apply countBelow_congr
  intro i hi
  unfold bsBit
  have e1 : (32 * o + i) / 32 = o := by omega
  have e2 : (32 * o + i) % 32 = i := by omega
  rw [e1, e2]

theorem bitsetCountFrom_spec (k : Nat) (m : List (BitVec 32)) (o : Nat) (acc : BitVec 32)
    (h : o + k ≤ m.length) (hb : acc.toNat + 32 * k < 2 ^ 32) :
    ∃ c, bitsetCountFrom m o k acc = some c ∧
      c.toNat = acc.toNat + countBelow (32 * k) (fun i => bsBit m (32 * o + i)) := by
  induction k generalizing o acc with
  | zero => exact ⟨acc, rfl, by simp [countBelow]⟩
  | succ k ih =>
    have ho : o < m.length := by omega
    have hp := countSetBits32_toNat m[o]
    have hw := popSpec_word m o
    have hg : m.getD o 0 = m[o] := by simp [List.getElem?_eq_getElem ho]
    rw [hg] at hw
    have hle := countBelow_le 32 (fun i => bsBit m (32 * o + i))
    have hadd : (acc + countSetBits32 m[o]).toNat = acc.toNat + popSpec m[o] := by
      rw [BitVec.toNat_add, hp, Nat.mod_eq_of_lt]; omega
    obtain ⟨c, e, hc⟩ := ih (o + 1) (acc + countSetBits32 m[o]) (by omega) (by omega)
    refine ⟨c, ?_, ?_⟩
    · simp only [bitsetCountFrom, List.getElem?_eq_getElem ho, Option.bind_eq_bind, Option.bind_some, e]
    · rw [hc, hadd, hw]
      have : 32 * (k + 1) = 32 + 32 * k := by omega
      rw [this, countBelow_add]
      have : (fun i => bsBit m (32 * (o + 1) + i)) = (fun i => bsBit m (32 * o + (32 + i))) := by
        funext i; congr 1; omega
      rw [this]; omega

end Acl
