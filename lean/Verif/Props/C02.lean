import Verif.Core.BitsetLemmas
/-!
C02: a bit set behaves as a set of indices.
Specification: a set of indices is a predicate `Nat → Bool`; `specStep` is the textbook meaning of
each operation. `MemSet size m A` says that `bitset_test` answers membership in `A` for every index
of the bit set.
-/
namespace Acl.C02

/-- Textbook meaning of an operation on a set of indices. The operand of the and-not operations is
read through `bitset_test`. -/
def specStep (A : Nat → Bool) : BitsetOp → (Nat → Bool)
  | .reset v => fun _ => v
  | .set i v => fun j => if j = i then v else A j
  | .setRange s n v => fun j => if s ≤ j ∧ j < s + n then v else A j
  | .andNot o => fun j => A j && !(bitsetTest o j = some true)
  | .notAnd o => fun j => (bitsetTest o j = some true) && !(A j)

/-- The asserted preconditions of each operation. -/
def Legal (size : Nat) : BitsetOp → Prop
  | .reset _ => True
  | .set i _ => i < bitsetNumBits size
  | .setRange s n _ => s < bitsetNumBits size ∧ s + n ≤ bitsetNumBits size
  | .andNot o => size ≤ o.length
  | .notAnd o => size ≤ o.length

/-- `m` holds exactly the set `A` (restricted to the indices of the bit set). -/
def MemSet (size : Nat) (m : List (BitVec 32)) (A : Nat → Bool) : Prop :=
  ∀ i, i < bitsetNumBits size → bitsetTest m i = some (A i)

theorem step_ok (size : Nat) (m : List (BitVec 32)) (A : Nat → Bool) (op : BitsetOp)
    (hs : size ≤ m.length) (hA : MemSet size m A) (hl : Legal size op) :
    ∃ m', bitsetStep size m op = some m' ∧ m'.length = m.length ∧
      (∀ j, size ≤ j → m'[j]? = m[j]?) ∧ MemSet size m' (specStep A op) := by
  have key : ∀ m', m'.length = m.length → ∀ B : Nat → Bool,
      (∀ i, i < size * 32 → bsBit m' i = B i) → MemSet size m' B := by
    intro m' hl' B hB i hi
    have hi' : i < size * 32 := hi
    rw [bitsetTest_eq m' i (by omega), hB i hi']
  have hAb : ∀ i, i < size * 32 → bsBit m i = A i := by
    intro i hi
    have := hA i hi
    rw [bitsetTest_eq m i (by omega)] at this
    exact Option.some.inj this
  cases op with
  | reset v =>
    obtain ⟨m', e, l, o, b⟩ := bitsetResetFrom_spec size m 0 v (by omega)
    refine ⟨m', e, l, fun j hj => o j (by omega), key m' l _ ?_⟩
    intro i hi
    unfold bsBit
    rw [List.getD_eq_getElem?_getD, b (i / 32) (by omega) (by omega)]
    cases v
    · simp [specStep]
    · simp only [specStep, Option.getD_some, if_true]
      have h : 31 - i % 32 < 32 := by omega
      have : (0xFFFFFFFF#32 : BitVec 32) = BitVec.allOnes 32 := by decide
      rw [this, BitVec.getLsbD_allOnes]; simp [h]
  | set i v =>
    have hi : i < size * 32 := hl
    obtain ⟨m', e, l, o, b⟩ := bitsetSet_spec m i v (by omega)
    refine ⟨m', e, l, fun j hj => o j (by omega), key m' l _ ?_⟩
    intro j hj; rw [b j, hAb j hj]; rfl
  | setRange s n v =>
    obtain ⟨m', e, l, o, b⟩ := bitsetSetRange_spec n m s size v hl.2 hs
    refine ⟨m', e, l, o, key m' l _ ?_⟩
    intro j hj; rw [b j, hAb j hj]; rfl
  | andNot oth =>
    have ho : size ≤ oth.length := hl
    obtain ⟨m', e, l, o, b⟩ := bitsetAndNotInto_spec size oth m 0 (by omega) (by omega)
    refine ⟨m', e, l, fun j hj => o j (by omega), key m' l _ ?_⟩
    intro j hj
    have := hAb j hj
    simp only [specStep]
    rw [bitsetTest_eq oth j (by omega), ← this]
    unfold bsBit
    rw [List.getD_eq_getElem?_getD, b (j / 32) (by omega) (by omega)]
    simp only [Option.getD_some, andNot, BitVec.getLsbD_and, BitVec.getLsbD_not]
    have h : 31 - j % 32 < 32 := by omega
    simp [h, Bool.and_comm]
  | notAnd oth =>
    have ho : size ≤ oth.length := hl
    obtain ⟨m', e, l, o, b⟩ := bitsetNotAndInto_spec size oth m 0 (by omega) (by omega)
    refine ⟨m', e, l, fun j hj => o j (by omega), key m' l _ ?_⟩
    intro j hj
    have := hAb j hj
    simp only [specStep]
    rw [bitsetTest_eq oth j (by omega), ← this]
    unfold bsBit
    rw [List.getD_eq_getElem?_getD, b (j / 32) (by omega) (by omega)]
    simp only [Option.getD_some, andNot, BitVec.getLsbD_and, BitVec.getLsbD_not]
    have h : 31 - j % 32 < 32 := by omega
    simp [h, Bool.and_comm]

/-- Every history of legal operations, from any memory content: no undefined behaviour, no word
outside the bit set changes, and `bitset_test` answers as the abstract set does. -/
theorem C02_bitset_refines_set (size : Nat) (ops : List BitsetOp) (m : List (BitVec 32))
    (A : Nat → Bool) (hs : size ≤ m.length) (hA : MemSet size m A)
    (hl : ∀ op ∈ ops, Legal size op) :
    ∃ m', bitsetRun size m ops = some m' ∧ m'.length = m.length ∧
      (∀ j, size ≤ j → m'[j]? = m[j]?) ∧ MemSet size m' (ops.foldl specStep A) := by
  induction ops generalizing m A with
  | nil => exact ⟨m, rfl, rfl, fun _ _ => rfl, hA⟩
  | cons op ops ih =>
    obtain ⟨m1, e1, l1, o1, s1⟩ := step_ok size m A op hs hA (hl op (by simp))
    obtain ⟨m2, e2, l2, o2, s2⟩ := ih m1 _ (by omega) s1 (fun o ho => hl o (by simp [ho]))
    refine ⟨m2, ?_, by omega, fun j hj => by rw [o2 j hj, o1 j hj], s2⟩
    simp only [bitsetRun, e1, Option.bind_eq_bind, Option.bind_some, e2]

/-- `bitset_count_set_bits` is the number of indices for which `bitset_test` is true. -/
theorem C02_bitset_count (size : Nat) (m : List (BitVec 32)) (A : Nat → Bool)
    (hs : size ≤ m.length) (hb : size * 32 < 2 ^ 32) (hA : MemSet size m A) :
    ∃ c, bitsetCount m size = some c ∧ c.toNat = ((List.range (bitsetNumBits size)).filter A).length := by
  obtain ⟨c, e, hc⟩ := bitsetCountFrom_spec size m 0 0 (by omega) (by simp; omega)
  refine ⟨c, e, ?_⟩
  rw [hc]
  have : countBelow (32 * size) (fun i => bsBit m (32 * 0 + i)) = countBelow (32 * size) A :=
    countBelow_congr (fun i hi => by
      have h := hA i (by unfold bitsetNumBits; omega)
      rw [bitsetTest_eq m i (by omega)] at h
      simpa using Option.some.inj h)
  rw [this]
  unfold bitsetNumBits
  simp [countBelow, List.countP_eq_length_filter, Nat.mul_comm]

/-- A description made from a number of bits has room for each of them, and wastes less than a word. -/
theorem C02_description_covers (numBits : Nat) :
    numBits ≤ bitsetNumBits (bitsetSize numBits) ∧ bitsetNumBits (bitsetSize numBits) < numBits + 32 := by
  unfold bitsetNumBits bitsetSize; omega

/-- Any memory with enough words represents some set, so the hypotheses are always met. -/
theorem C02_memset_exists (size : Nat) (m : List (BitVec 32)) (hs : size ≤ m.length) :
    MemSet size m (fun i => bsBit m i) := by
  intro i hi
  have hi' : i < size * 32 := hi
  exact bitsetTest_eq m i (by omega)

example : bitsetRun 2 [0#32, 7#32, 9#32] [.reset false, .setRange 30 5 true, .set 31 false] =
    some [2#32, 0xE0000000#32, 9#32] ∧ Legal 2 (.setRange 30 5 true) := by
  constructor
  · decide
  · simp [Legal, bitsetNumBits]

end Acl.C02
