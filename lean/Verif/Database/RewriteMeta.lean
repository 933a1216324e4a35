import Verif.Database.RewriteLemmas
import Verif.Props.C29
/-
The metadata of a clip build_database gives back: Database/Rewrite.lean, second part.
-/
namespace Acl.Rewrite
open Acl.Headers Acl.Tiers Acl.Chunks Acl.Transform Acl.Meta

/-- The offsets of the sections. -/
def offsetWords : List Nat → Nat → List (BitVec 32)
  | [], _ => [ptrOffsetInvalid 32]
  | z :: rest, offset => (if z ≠ 0 then ptrOffsetOf 32 offset else ptrOffsetInvalid 32) :: offsetWords rest (offset + z)

theorem offsetWords_length (sizes : List Nat) : ∀ o, (offsetWords sizes o).length = sizes.length + 1 := by
  induction sizes with
  | nil => intro o; rfl
  | cons z rest ih => intro o; rw [offsetWords, List.length_cons, ih, List.length_cons]

theorem writeMetadataOffsets_ok (sizes : List Nat) : ∀ (m : List (BitVec 8)) (slot offset : Nat), slot + 4 * (sizes.length + 1) ≤ m.length →
    ∃ m', writeMetadataOffsets sizes slot offset m = some (m', offset + sizes.sum) ∧ Upd m m' slot (slot + 4 * (sizes.length + 1)) ∧
      ∀ (i : Nat) w, (offsetWords sizes offset)[i]? = some w → load32 m' (slot + 4 * i) = some w := by
  induction sizes with
  | nil =>
    intro m slot offset h
    obtain ⟨m', h1, u, a⟩ := store_ok (m := m) (bs := bytesLE (ptrOffsetInvalid 32)) (o := slot) (by rw [bytesLE_length32]; simpa using h)
    rw [bytesLE_length32] at u
    refine ⟨m', by rw [writeMetadataOffsets, h1]; rfl, u, ?_⟩
    intro i w hi
    cases i with
    | zero =>
      simp only [offsetWords, List.getElem?_cons_zero, Option.some.injEq] at hi
      subst hi; exact load32_of_at a
    | succ i => simp [offsetWords] at hi
  | cons z rest ih =>
    intro m slot offset h
    rw [List.length_cons] at h
    generalize hw0 : (if z ≠ 0 then ptrOffsetOf 32 offset else ptrOffsetInvalid 32) = w0
    obtain ⟨m1, h1, u1, a1⟩ := store_ok (m := m) (bs := bytesLE w0) (o := slot) (by rw [bytesLE_length32]; omega)
    rw [bytesLE_length32] at u1
    obtain ⟨m2, h2, u2, a2⟩ := ih m1 (slot + 4) (offset + z) (by rw [u1.length]; omega)
    refine ⟨m2, ?_, Upd.trans u1 u2 (by omega) (by rw [List.length_cons]; omega) (by omega) (by rw [List.length_cons]; omega), ?_⟩
    · rw [writeMetadataOffsets, hw0, h1, Option.bind_some, h2, List.sum_cons]
      simp only [Nat.add_assoc]
    · intro i w hi
      rw [offsetWords, hw0] at hi
      cases i with
      | zero =>
        simp only [List.getElem?_cons_zero, Option.some.injEq] at hi
        subst hi
        exact load32_of_at (u2.at a1 (Or.inl (by rw [bytesLE_length32])))
      | succ i =>
        rw [List.getElem?_cons_succ] at hi
        have := a2 i w hi
        rwa [show slot + 4 * (i + 1) = slot + 4 + 4 * i by omega]

theorem copyMetadata_ok (input : List (BitVec 8)) (l : List (BitVec 32 × Nat)) : ∀ (m : List (BitVec 8)) (p : Nat),
    (∀ q ∈ l, q.2 ≠ 0 → q.1.toNat + q.2 ≤ input.length) → p + (l.map (·.2)).sum ≤ m.length →
    ∃ m', copyMetadata input l p m = some m' ∧ Upd m m' p (p + (l.map (·.2)).sum) ∧
      ∀ (i : Nat) q, l[i]? = some q → ∀ B, At input q.1.toNat B → B.length ≤ q.2 → At m' (p + ((l.take i).map (·.2)).sum) B := by
  induction l with
  | nil => intro m p _ _; exact ⟨m, rfl, Upd.refl _ _ _, fun i q h => by simp at h⟩
  | cons q rest ih =>
    intro m p hin hp
    obtain ⟨o, z⟩ := q
    rw [List.map_cons, List.sum_cons] at hp
    dsimp only at hp
    have step : ∃ m1, (if z ≠ 0 then copy input o.toNat z m p else some m) = some m1 ∧ Upd m m1 p (p + z) ∧
        ∀ B, At input o.toNat B → B.length ≤ z → At m1 p B := by
      by_cases hz : z = 0
      · subst hz
        refine ⟨m, by simp, Upd.refl _ _ _, fun B _ hB => ?_⟩
        have : B = [] := List.length_eq_zero_iff.1 (by omega)
        subst this
        intro j b hj; simp at hj
      · obtain ⟨m1, c, u, a⟩ := copy_ok (input := input) (m := m) (src := o.toNat) (size := z) (dest := p)
          (hin (o, z) List.mem_cons_self hz) (by omega)
        exact ⟨m1, by rw [if_pos hz, c], u, a⟩
    obtain ⟨m1, h1, u1, a1⟩ := step
    obtain ⟨m2, h2, u2, a2⟩ := ih m1 (p + z) (fun q hq => hin q (List.mem_cons_of_mem _ hq)) (by rw [u1.length]; omega)
    refine ⟨m2, by rw [copyMetadata, h1, Option.bind_some, h2], ?_, ?_⟩
    · rw [List.map_cons, List.sum_cons]
      exact u1.trans u2 (by omega) (by dsimp only; omega) (by omega) (by dsimp only; omega)
    · intro i q hi B hB hl
      cases i with
      | zero =>
        simp only [List.getElem?_cons_zero, Option.some.injEq] at hi
        subst hi
        dsimp only at hl
        rw [List.take_zero, List.map_nil, List.sum_nil, Nat.add_zero]
        exact u2.at (a1 B hB hl) (Or.inl (by omega))
      | succ i =>
        rw [List.getElem?_cons_succ] at hi
        have := a2 i q hi B hB hl
        rw [List.take_succ_cons, List.map_cons, List.sum_cons]
        rwa [show p + (z + (List.map (fun x => x.2) (List.take i rest)).sum) = p + z + (List.map (fun x => x.2) (List.take i rest)).sum by omega]

theorem metadataSize_sum (sizes : List Nat) (h : ∀ z ∈ sizes, z % 4 = 0) : metadataSize sizes = sizes.sum := by
  have key : ∀ (l : List Nat) (n : Nat), (∀ z ∈ l, z % 4 = 0) → n % 4 = 0 → l.foldl (fun n z => alignUp n 4 + z) n = n + l.sum ∧ (n + l.sum) % 4 = 0 := by
    intro l
    induction l with
    | nil => intro n _ hn; exact ⟨rfl, hn⟩
    | cons z rest ih =>
      intro n hl hn
      have hz := hl z List.mem_cons_self
      have e : alignUp n 4 = n := by unfold alignUp; omega
      obtain ⟨i1, i2⟩ := ih (n + z) (fun w hw => hl w (List.mem_cons_of_mem _ hw)) (by omega)
      rw [List.foldl_cons, e, i1, List.sum_cons]
      exact ⟨by omega, by omega⟩
  obtain ⟨k1, k2⟩ := key sizes 0 h rfl
  unfold metadataSize
  rw [k1]
  unfold alignUp; omega

/-- The metadata is written: the offsets at `slot` and the sections from `start` on. -/
theorem writeMetadata_ok {input m : List (BitVec 8)} {fields : List (BitVec 32)} {sizes : List Nat} {slot start : Nat}
    (hl : fields.length = sizes.length + 1) (h4 : ∀ z ∈ sizes, z % 4 = 0)
    (hin : ∀ q ∈ fields.zip sizes, q.2 ≠ 0 → q.1.toNat + q.2 ≤ input.length) (hs : start + sizes.sum ≤ slot)
    (hm : slot + 4 * (sizes.length + 1) ≤ m.length) :
    ∃ m', writeMetadata input fields sizes slot start m = some m' ∧ Upd m m' start (slot + 4 * (sizes.length + 1)) ∧
      (∀ (i : Nat) w, (offsetWords sizes start)[i]? = some w → load32 m' (slot + 4 * i) = some w) ∧
      ∀ (i : Nat) o z, fields[i]? = some o → sizes[i]? = some z → ∀ B, At input o.toNat B → B.length ≤ z →
        At m' (start + (sizes.take i).sum) B := by
  obtain ⟨m1, h1, u1, a1⟩ := writeMetadataOffsets_ok sizes m slot start hm
  have hsnd : (fields.zip sizes).map (·.2) = sizes := by
    rw [List.map_snd_zip]; omega
  obtain ⟨m2, h2, u2, a2⟩ := copyMetadata_ok input (fields.zip sizes) m1 start hin (by rw [hsnd, u1.length]; omega)
  rw [hsnd] at u2
  refine ⟨m2, ?_, u1.trans u2 (by omega) (by omega) (by omega) (by omega), ?_, ?_⟩
  · unfold writeMetadata
    rw [h1, Option.bind_some]
    dsimp only
    rw [if_neg (by rw [metadataSize_sum sizes h4]; omega), h2]
  · intro i w hi
    have := a1 i w hi
    have hlt := (List.getElem?_eq_some_iff.1 hi).1
    rw [offsetWords_length] at hlt
    rw [← this]
    unfold load32
    rw [u2.same _ (by omega), u2.same _ (by omega), u2.same _ (by omega), u2.same _ (by omega)]
  · intro i o z ho hz B hB hl
    have := a2 i (o, z) (by rw [List.getElem?_zip_eq_some]; exact ⟨ho, hz⟩) B hB hl
    rwa [List.map_take, hsnd] at this

/-! ### The input -/

/-- The sections of a clip with a contributing error. -/
theorem sectionSizes_eq (b0 b1 b2 b3 : Bool) (p0 p1 p2 p3 p4 : Nat) (h : p4 < 2 ^ 32 - 1) (h0 : p0 ≤ p1) (h1 : p1 ≤ p2) (h2 : p2 ≤ p3)
    (h3 : p3 ≤ p4) (e0 : b0 = false → p1 = p0) (e1 : b1 = false → p2 = p1) (e2 : b2 = false → p3 = p2) (e3 : b3 = false → p4 = p3) :
    sectionSizes [offsetWord b0 p0, offsetWord b1 p1, offsetWord b2 p2, offsetWord b3 p3, offsetWord true p4] =
      some [p1 - p0, p2 - p1, p3 - p2, p4 - p3] := by
  have v0 := C29.valid_offset b0 p0 (by omega)
  have v1 := C29.valid_offset b1 p1 (by omega)
  have v2 := C29.valid_offset b2 p2 (by omega)
  have v3 := C29.valid_offset b3 p3 (by omega)
  have v4 := C29.valid_offset true p4 (by omega)
  have n0 := C29.offset_toNat p0 (by omega)
  have n1 := C29.offset_toNat p1 (by omega)
  have n2 := C29.offset_toNat p2 (by omega)
  have n3 := C29.offset_toNat p3 (by omega)
  have n4 := C29.offset_toNat p4 (by omega)
  unfold sectionSizes sectionSize
  cases b0 <;> cases b1 <;> cases b2 <;> cases b3 <;>
    simp_all [List.find?]
end Acl.Rewrite
