import Verif.Core.Packing
import Verif.Core.MemoryLemmas
import Verif.Props.C04
import Mathlib.Tactic.Ring
namespace Acl
open Acl.C04

theorem getLsbD_append_lt {a b : Nat} (x : BitVec a) (y : BitVec b) (i : Nat) (h : i < b) :
    (x ++ y).getLsbD i = y.getLsbD i := by
  rw [BitVec.getLsbD_append]; simp [h]

theorem getLsbD_append_ge {a b : Nat} (x : BitVec a) (y : BitVec b) (i : Nat) (h : b ≤ i) :
    (x ++ y).getLsbD i = x.getLsbD (i - b) := by
  rw [BitVec.getLsbD_append]; simp [Nat.not_lt.2 h]

theorem bufBit_eq {m : List (BitVec 8)} {k : Nat} {b : BitVec 8} (h : m[k]? = some b) (i : Nat)
    (hi : i / 8 = k) : bufBit m i = b.getLsbD (7 - i % 8) := by
  unfold bufBit; subst hi
  rw [List.getD_eq_getElem?_getD, h]; rfl

/-- Bit `8 k + i` in memory of a little endian 32 bit load. -/
theorem loadLE32_bit (m : List (BitVec 8)) (k : Nat) (h : k + 4 ≤ m.length) :
    ∃ v, loadLE32 m k = some v ∧
      ∀ i, i < 32 → v.getLsbD i = bufBit m (8 * k + (8 * (i / 8) + (7 - i % 8))) := by
  have e0 : m[k]? = some m[k] := List.getElem?_eq_getElem (by omega)
  have e1 : m[k + 1]? = some m[k + 1] := List.getElem?_eq_getElem (by omega)
  have e2 : m[k + 2]? = some m[k + 2] := List.getElem?_eq_getElem (by omega)
  have e3 : m[k + 3]? = some m[k + 3] := List.getElem?_eq_getElem (by omega)
  refine ⟨_, by unfold loadLE32; rw [e0, e1, e2, e3], ?_⟩
  intro i hi
  have hd : i / 8 = 0 ∨ i / 8 = 1 ∨ i / 8 = 2 ∨ i / 8 = 3 := by omega
  rcases hd with hd | hd | hd | hd
  · rw [getLsbD_append_lt _ _ _ (by omega), bufBit_eq e0 _ (by omega)]; congr 1; omega
  · rw [getLsbD_append_ge _ _ _ (by omega), getLsbD_append_lt _ _ _ (by omega), bufBit_eq e1 _ (by omega)]
    congr 1; omega
  · rw [getLsbD_append_ge _ _ _ (by omega), getLsbD_append_ge _ _ _ (by omega),
      getLsbD_append_lt _ _ _ (by omega), bufBit_eq e2 _ (by omega)]
    congr 1; omega
  · rw [getLsbD_append_ge _ _ _ (by omega), getLsbD_append_ge _ _ _ (by omega),
      getLsbD_append_ge _ _ _ (by omega), bufBit_eq e3 _ (by omega)]
    congr 1; omega

theorem loadLE64_bit (m : List (BitVec 8)) (k : Nat) (h : k + 8 ≤ m.length) :
    ∃ v, loadLE64 m k = some v ∧
      ∀ i, i < 64 → v.getLsbD i = bufBit m (8 * k + (8 * (i / 8) + (7 - i % 8))) := by
  obtain ⟨lo, h0, b0⟩ := loadLE32_bit m k (by omega)
  obtain ⟨hi, h1, b1⟩ := loadLE32_bit m (k + 4) (by omega)
  refine ⟨_, by unfold loadLE64; rw [h0, h1], ?_⟩
  intro i hlt
  rcases Nat.lt_or_ge i 32 with hh | hh
  · rw [getLsbD_append_lt _ _ _ hh, b0 _ hh]
  · rw [getLsbD_append_ge _ _ _ hh, b1 _ (by omega)]; congr 1; omega

theorem loadBE32_bit (m : List (BitVec 8)) (k : Nat) (h : k + 4 ≤ m.length) :
    ∃ v, loadLE32 m k = some v ∧
      ∀ i, i < 32 → (byteSwap32 v).getLsbD i = bufBit m (8 * k + (31 - i)) := by
  obtain ⟨v, e, b⟩ := loadLE32_bit m k h
  refine ⟨v, e, ?_⟩
  intro i hi
  rw [swap32_bit _ _ hi, b _ (by omega)]; congr 1; omega

theorem loadBE64_bit (m : List (BitVec 8)) (k : Nat) (h : k + 8 ≤ m.length) :
    ∃ v, loadLE64 m k = some v ∧
      ∀ i, i < 64 → (byteSwap64 v).getLsbD i = bufBit m (8 * k + (63 - i)) := by
  obtain ⟨v, e, b⟩ := loadLE64_bit m k h
  refine ⟨v, e, ?_⟩
  intro i hi
  rw [swap64_bit _ _ hi, b _ (by omega)]; congr 1; omega

theorem bytesLE_length {w : Nat} (v : BitVec w) : (bytesLE v).length = w / 8 := by
  simp [bytesLE]

theorem bytesLE_bit {w : Nat} (v : BitVec w) (j : Nat) (hj : j / 8 < w / 8) :
    bufBit (bytesLE v) j = v.getLsbD (8 * (j / 8) + (7 - j % 8)) := by
  rw [bufBit_eq (k := j / 8) (b := v.extractLsb' (8 * (j / 8)) 8) _ j rfl]
  · rw [BitVec.getLsbD_extractLsb']
    have : 7 - j % 8 < 8 := by omega
    simp [this]
  · simp [bytesLE, hj]

theorem bytesBE32_bit (v : BitVec 32) (j : Nat) (hj : j < 32) :
    bufBit (bytesLE (byteSwap32 v)) j = v.getLsbD (31 - j) := by
  rw [bytesLE_bit _ _ (by omega), swap32_bit _ _ (by omega)]; congr 1; omega

theorem bytesBE64_bit (v : BitVec 64) (j : Nat) (hj : j < 64) :
    bufBit (bytesLE (byteSwap64 v)) j = v.getLsbD (63 - j) := by
  rw [bytesLE_bit _ _ (by omega), swap64_bit _ _ (by omega)]; congr 1; omega

theorem bufBit_append_left (a b : List (BitVec 8)) (i : Nat) (h : i < 8 * a.length) :
    bufBit (a ++ b) i = bufBit a i := by
  unfold bufBit
  rw [List.getD_eq_getElem?_getD, List.getD_eq_getElem?_getD, List.getElem?_append_left (by omega)]

theorem writeFront_bit (out bs : List (BitVec 8)) (h : bs.length ≤ out.length) :
    ∃ r, writeFront out bs = some r ∧ r.length = out.length ∧
      ∀ i, i < 8 * bs.length → bufBit r i = bufBit bs i := by
  refine ⟨_, by unfold writeFront; rw [if_pos h], by simp; omega, ?_⟩
  intro i hi
  exact bufBit_append_left _ _ _ hi

theorem bit_above {v : BitVec 32} {n : Nat} (h : v.toNat < 2 ^ n) (i : Nat) (hi : n ≤ i) :
    v.getLsbD i = false := by
  rw [BitVec.getLsbD, Nat.testBit_lt_two_pow (Nat.lt_of_lt_of_le h (Nat.pow_le_pow_right (by omega) hi))]

/-- Bits of `mask = (1 << n) - 1`. -/
theorem mask_bit (n i : Nat) (hn : n < 32) :
    (1#32 <<< n - 1).getLsbD i = decide (i < n) := by
  have hp : 2 ^ n < 2 ^ 32 := Nat.pow_lt_pow_right (by omega) hn
  have hpos : 0 < 2 ^ n := Nat.two_pow_pos n
  have h1 : ((1#32 <<< n : BitVec 32)).toNat = 2 ^ n := by
    rw [BitVec.toNat_shiftLeft]
    simp only [BitVec.toNat_ofNat, Nat.one_mod_two_pow_eq_one.2 (by decide : 0 < 32), Nat.shiftLeft_eq, Nat.one_mul]
    exact Nat.mod_eq_of_lt hp
  have : (1#32 <<< n - 1#32).toNat = 2 ^ n - 1 := by
    rw [BitVec.toNat_sub_of_le (by rw [BitVec.le_def, h1]; exact hpos), h1]; rfl
  unfold BitVec.getLsbD
  show Nat.testBit (1#32 <<< n - 1#32).toNat i = _
  rw [this, Nat.testBit_two_pow_sub_one]

/-- What a component read returns: the `n` bits at `off`, first bit most significant. -/
theorem readComponent_bit (n : Nat) (m : List (BitVec 8)) (off : Nat) (h1 : 1 ≤ n) (h2 : n ≤ 23)
    (hb : off / 8 + 4 ≤ m.length) :
    ∃ r, readComponent n m off = some r ∧
      ∀ i, i < 32 → r.getLsbD i = (decide (i < n) && bufBit m (off + (n - 1 - i))) := by
  obtain ⟨v, e, b⟩ := loadBE32_bit m _ hb
  refine ⟨_, by unfold readComponent; rw [e]; simp only [Option.bind_some]; rw [if_pos (by omega)], ?_⟩
  intro i hi
  rw [BitVec.getLsbD_and, mask_bit _ _ (by omega), BitVec.getLsbD_ushiftRight, Bool.and_comm]
  by_cases hin : i < n
  · rw [b _ (by omega)]; simp only [hin, decide_true, Bool.true_and]; congr 1; omega
  · simp [hin]

theorem readRaw_bit (m : List (BitVec 8)) (off i : Nat) (hb : off / 8 + 4 * i + 8 ≤ m.length) :
    ∃ r, readRaw m off i = some r ∧
      ∀ j, j < 32 → r.getLsbD j = bufBit m (off + 32 * i + (31 - j)) := by
  obtain ⟨v, e, b⟩ := loadBE64_bit m _ hb
  refine ⟨_, by unfold readRaw; rw [e]; simp only [Option.bind_some]; rfl, ?_⟩
  intro j hj
  rw [BitVec.getLsbD_setWidth, BitVec.getLsbD_ushiftRight, BitVec.getLsbD_shiftLeft, b _ (by omega)]
  have a1 : 32 + j < 64 := by omega
  have a2 : ¬ (32 + j < off % 8) := by omega
  simp only [hj, a1, a2, decide_true, decide_false, Bool.true_and, Bool.not_false]
  congr 1; omega

/-- `m` holds the `n` bit value `v` at bit `off`, most significant bit first. -/
def Holds (m : List (BitVec 8)) (off n : Nat) (v : BitVec 32) : Prop :=
  ∀ j, j < n → bufBit m (off + j) = v.getLsbD (n - 1 - j)

theorem readComponent_holds {n : Nat} {m : List (BitVec 8)} {off : Nat} {v : BitVec 32} (h1 : 1 ≤ n)
    (h2 : n ≤ 23) (hb : off / 8 + 4 ≤ m.length) (hv : v.toNat < 2 ^ n) (h : Holds m off n v) :
    readComponent n m off = some v := by
  obtain ⟨r, e, b⟩ := readComponent_bit n m off h1 h2 hb
  rw [e]; congr 1
  apply BitVec.eq_of_getLsbD_eq
  intro i hi
  rw [b i hi]
  by_cases hin : i < n
  · rw [h _ (by omega)]; simp only [hin, decide_true, Bool.true_and]; congr 1; omega
  · rw [bit_above hv i (by omega)]; simp [hin]

theorem readRaw_holds {m : List (BitVec 8)} {off i : Nat} {v : BitVec 32}
    (hb : off / 8 + 4 * i + 8 ≤ m.length) (h : Holds m (off + 32 * i) 32 v) :
    readRaw m off i = some v := by
  obtain ⟨r, e, b⟩ := readRaw_bit m off i hb
  rw [e]; congr 1
  apply BitVec.eq_of_getLsbD_eq
  intro j hj
  rw [b j hj, h _ (by omega)]; congr 1; omega

theorem field64 {x : BitVec 32} {n k j : Nat} (hx : x.toNat < 2 ^ n) (hk : n * k ≤ 64)
    (hk1 : 1 ≤ k) (hj : j < 64) : (x.setWidth 64 <<< (64 - n * k)).getLsbD (63 - j) =
      (decide (n * (k - 1) ≤ j ∧ j < n * k) && x.getLsbD (n - 1 - (j - n * (k - 1)))) := by
  obtain ⟨k, rfl⟩ : ∃ k', k = k' + 1 := ⟨k - 1, by omega⟩
  have e : n * (k + 1) = n * k + n := by ring_nf
  rw [e] at hk ⊢
  simp only [Nat.add_sub_cancel]
  generalize n * k = q at *
  rw [BitVec.getLsbD_shiftLeft, BitVec.getLsbD_setWidth]
  have c : 63 - j < 64 := by omega
  by_cases h : j < q + n
  · have a2 : ¬ (63 - j < 64 - (q + n)) := by omega
    have a3 : 63 - j - (64 - (q + n)) < 64 := by omega
    simp only [c, a2, a3, decide_true, decide_false, Bool.true_and, Bool.not_false]
    by_cases h' : q ≤ j
    · simp only [h, h', and_self, decide_true, Bool.true_and]; congr 1; omega
    · rw [bit_above hx _ (by omega)]; simp [h']
  · have a2 : (63 - j < 64 - (q + n)) := by omega
    simp [h, a2]

theorem field32 {x : BitVec 32} {n j : Nat} (hn : n ≤ 32) (hj : j < n) :
    (x <<< (32 - n)).getLsbD (31 - j) = x.getLsbD (n - 1 - j) := by
  rw [BitVec.getLsbD_shiftLeft]
  have c : 31 - j < 32 := by omega
  have a2 : ¬ (31 - j < 32 - n) := by omega
  simp only [c, a2, decide_true, decide_false, Bool.true_and, Bool.not_false]
  congr 1; omega

end Acl
