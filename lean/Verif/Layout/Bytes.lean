import Verif.Core.Hash
import Verif.Core.PackingLemmas
/-
Byte level memory: `memcpy` into a buffer and reads of a range, with bounds. An access outside of the
buffer is undefined behaviour (`none`).
-/
namespace Acl

/-- `std::memcpy(m + off, bs, bs.length)`, also a store of a struct or of a little endian word. -/
def store (m : List (BitVec 8)) (off : Nat) (bs : List (BitVec 8)) : Option (List (BitVec 8)) :=
  if off + bs.length ≤ m.length then some (m.take off ++ bs ++ m.drop (off + bs.length)) else none

/-- The `n` bytes at `m + off`. -/
def loadBytes (m : List (BitVec 8)) (off n : Nat) : Option (List (BitVec 8)) :=
  if off + n ≤ m.length then some ((m.drop off).take n) else none

/-- memory_utils.h:176-190 `align_to` on sizes, for powers of two (C01 proves the bit formula). -/
def alignUp (n a : Nat) : Nat := (n + (a - 1)) / a * a

theorem store_append (A B C X : List (BitVec 8)) (off : Nat) (ho : off = A.length) (hl : X.length = B.length) :
    store (A ++ (B ++ C)) off X = some (A ++ (X ++ C)) := by
  unfold store
  subst ho
  rw [if_pos (by simp; omega), List.take_left, hl, ← List.append_assoc A B C, ← List.length_append, List.drop_left,
    List.append_assoc]

theorem loadBytes_append (A B C : List (BitVec 8)) (off n : Nat) (ho : off = A.length) (hn : n = B.length) :
    loadBytes (A ++ (B ++ C)) off n = some B := by
  unfold loadBytes
  subst ho; subst hn
  rw [if_pos (by simp), List.drop_left, List.take_left]

theorem load32_bytesLE (A C : List (BitVec 8)) (v : BitVec 32) (off : Nat) (ho : off = A.length) :
    load32 (A ++ (bytesLE v ++ C)) off = some v := by
  subst ho
  unfold load32
  have hb : bytesLE v = [v.extractLsb' 0 8, v.extractLsb' 8 8, v.extractLsb' 16 8, v.extractLsb' 24 8] := by
    simp [bytesLE, List.range_succ]
  have g : ∀ k, (A ++ (bytesLE v ++ C))[A.length + k]? = (bytesLE v ++ C)[k]? := by
    intro k; rw [List.getElem?_append_right (by omega)]; congr 1; omega
  have g0 := g 0
  rw [Nat.add_zero] at g0
  rw [g0, g 1, g 2, g 3, hb]
  simp only [List.cons_append, List.nil_append, List.getElem?_cons_zero, List.getElem?_cons_succ, Option.bind_eq_bind, Option.bind_some,
    Option.pure_def]
  congr 1
  ext i hi
  simp only [BitVec.getElem_append, BitVec.getElem_extractLsb', BitVec.getLsbD_eq_getElem hi]
  split
  · simp [BitVec.getLsbD_eq_getElem, hi]
  · split
    · rw [BitVec.getLsbD_eq_getElem (by omega)]; congr 1; omega
    · split
      · rw [BitVec.getLsbD_eq_getElem (by omega)]; congr 1; omega
      · rw [BitVec.getLsbD_eq_getElem (by omega)]; congr 1; omega

theorem load16_bytesLE (A C : List (BitVec 8)) (v : BitVec 16) (off : Nat) (ho : off = A.length) :
    load16 (A ++ (bytesLE v ++ C)) off = some v := by
  subst ho
  unfold load16
  have hb : bytesLE v = [v.extractLsb' 0 8, v.extractLsb' 8 8] := by
    simp [bytesLE, List.range_succ]
  have g : ∀ k, (A ++ (bytesLE v ++ C))[A.length + k]? = (bytesLE v ++ C)[k]? := by
    intro k; rw [List.getElem?_append_right (by omega)]; congr 1; omega
  have g0 := g 0
  rw [Nat.add_zero] at g0
  rw [g0, g 1, hb]
  simp only [List.cons_append, List.nil_append, List.getElem?_cons_zero, List.getElem?_cons_succ, Option.bind_eq_bind, Option.bind_some,
    Option.pure_def]
  congr 1
  ext i hi
  simp only [BitVec.getElem_append, BitVec.getElem_extractLsb']
  split
  · simp [BitVec.getLsbD_eq_getElem, hi]
  · rw [BitVec.getLsbD_eq_getElem (by omega)]; congr 1; omega

theorem bytesLE_length32 (v : BitVec 32) : (bytesLE v).length = 4 := bytesLE_length v
theorem bytesLE_length16 (v : BitVec 16) : (bytesLE v).length = 2 := bytesLE_length v

end Acl
