import Mathlib.Data.Multiset.AddSub
import Mathlib.Data.Multiset.MapFold
import Mathlib.Data.Multiset.UnionInter
import Mathlib.Algebra.Order.Group.Multiset
import Mathlib.Algebra.BigOperators.Group.List.Basic
import Mathlib.Tactic.Abel
/-!
An allocator that is told the size of what it gets back, and rules for programs that use it.
/repo/includes/acl/core/iallocator.h:52-76 (allocate, deallocate: "size ... will match the original size requested through 'allocate'"),
108-144 (allocate_type_array, deallocate_type_array)

A block is the address and the size it was asked for with. A free that names no live block (a wrong size, or a block freed already) is kept
in `wrong`, and frees nothing.
-/
namespace Acl.Mem

/-- Blocks: address and size. -/
abbrev Blocks := Multiset (Nat × Nat)

structure Heap where
  next : Nat
  live : Blocks
  wrong : Blocks

/-- A program that uses the allocator. -/
def M (α : Type) : Type := Heap → α × Heap

instance : Monad M where
  pure a := fun h => (a, h)
  bind m k := fun h => k (m h).1 (m h).2

instance : LawfulMonad M := LawfulMonad.mk'
  (id_map := fun _ => rfl) (pure_bind := fun _ _ => rfl) (bind_assoc := fun _ _ _ => rfl)

/-- iallocator.h:61-65 allocate -/
def alloc (size : Nat) : M Nat := fun h => (h.next, ⟨h.next + 1, (h.next, size) ::ₘ h.live, h.wrong⟩)

/-- iallocator.h:67-73 deallocate -/
def free (p size : Nat) : M Unit := fun h =>
  if (p, size) ∈ h.live then ((), ⟨h.next, h.live.erase (p, size), h.wrong⟩) else ((), ⟨h.next, h.live, (p, size) ::ₘ h.wrong⟩)

/-- iallocator.h:131-144 deallocate_type_array: a null pointer is left alone -/
def freeArray (p : Option Nat) (size : Nat) : M Unit :=
  match p with
  | none => pure ()
  | some p => free p size

/-- Addresses of live blocks are distinct and were handed out. -/
def Heap.Ok (h : Heap) : Prop := (h.live.map Prod.fst).Nodup ∧ ∀ x ∈ h.live, x.1 < h.next

/-- From `P`, whatever else is live, the program ends with `Q`, without a wrong free, and leaves the rest. -/
def Own {α : Type} (P : Blocks) (m : M α) (Q : α → Blocks → Prop) : Prop :=
  ∀ h R, h.Ok → h.live = P + R → ∃ F, Q (m h).1 F ∧ (m h).2.live = F + R ∧ (m h).2.wrong = h.wrong ∧ (m h).2.Ok

/-- From `P`, whatever else is live, the program ends with `F`, with `W` freed wrongly, and leaves the rest. -/
def OwnW {α : Type} (P : Blocks) (m : M α) (F W : Blocks) : Prop :=
  ∀ h R, h.Ok → h.live = P + R → (m h).2.live = F + R ∧ (m h).2.wrong = W + h.wrong ∧ (m h).2.Ok

variable {α β : Type}

theorem own_pure {P : Blocks} {a : α} {Q : α → Blocks → Prop} (h : Q a P) : Own P (pure a) Q :=
  fun _ _ ok hl => ⟨P, h, hl, rfl, ok⟩

theorem own_bind {P : Blocks} {m : M α} {k : α → M β} {Q : α → Blocks → Prop} {T : β → Blocks → Prop} (h1 : Own P m Q)
    (h2 : ∀ a F, Q a F → Own F (k a) T) : Own P (m >>= k) T := by
  intro h R ok hl
  obtain ⟨F, q, l, w, ok'⟩ := h1 h R ok hl
  obtain ⟨G, q', l', w', ok''⟩ := h2 _ F q _ R ok' l
  exact ⟨G, q', l', w'.trans w, ok''⟩

theorem own_frame {P : Blocks} {m : M α} {Q : α → Blocks → Prop} (X : Blocks) (h1 : Own P m Q) :
    Own (P + X) m (fun a F => ∃ G, F = G + X ∧ Q a G) := by
  intro h R ok hl
  obtain ⟨F, q, l, w, ok'⟩ := h1 h (X + R) ok (by rw [hl, add_assoc])
  exact ⟨F + X, ⟨F, rfl, q⟩, by rw [l, add_assoc], w, ok'⟩

theorem own_weaken {P : Blocks} {m : M α} {Q T : α → Blocks → Prop} (h1 : Own P m Q) (h2 : ∀ a F, Q a F → T a F) : Own P m T := by
  intro h R ok hl
  obtain ⟨F, q, rest⟩ := h1 h R ok hl
  exact ⟨F, h2 _ _ q, rest⟩

/-- A step that uses part of what there is. -/
theorem own_step {P P1 : Blocks} {m : M α} {k : α → M β} {Q : α → Blocks → Prop} {T : β → Blocks → Prop} (X : Blocks) (h1 : Own P1 m Q)
    (hP : P = P1 + X) (h2 : ∀ a G, Q a G → Own (G + X) (k a) T) : Own P (m >>= k) T := by
  subst hP
  exact own_bind (own_frame X h1) (by rintro a F ⟨G, rfl, q⟩; exact h2 a G q)

theorem own_cast {P P' : Blocks} {m : M α} {Q : α → Blocks → Prop} (h : Own P m Q) (e : P' = P) : Own P' m Q := e ▸ h

theorem ok_alloc {h : Heap} (ok : h.Ok) (size : Nat) : (alloc size h).2.Ok := by
  refine ⟨?_, ?_⟩
  · simp only [alloc, Multiset.map_cons, Multiset.nodup_cons]
    refine ⟨?_, ok.1⟩
    intro hm
    obtain ⟨x, hx, e⟩ := Multiset.mem_map.mp hm
    have := ok.2 x hx
    omega
  · intro x hx
    simp only [alloc, Multiset.mem_cons] at hx ⊢
    rcases hx with rfl | hx
    · simp
    · have := ok.2 x hx
      omega

theorem own_alloc (size : Nat) : Own 0 (alloc size) (fun p F => F = {(p, size)}) := by
  intro h R ok hl
  refine ⟨_, rfl, ?_, rfl, ok_alloc ok size⟩
  rw [zero_add] at hl
  rw [← hl]
  rfl

theorem ok_erase {h : Heap} (ok : h.Ok) (x : Nat × Nat) : Heap.Ok ⟨h.next, h.live.erase x, h.wrong⟩ :=
  ⟨Multiset.nodup_of_le (Multiset.map_le_map (Multiset.erase_le _ _)) ok.1, fun y hy => ok.2 y (Multiset.mem_of_mem_erase hy)⟩

theorem own_free (p size : Nat) : Own {(p, size)} (free p size) (fun _ F => F = 0) := by
  intro h R ok hl
  have hm : (p, size) ∈ h.live := by rw [hl]; simp
  refine ⟨0, rfl, ?_, ?_, ?_⟩
  · simp only [free, if_pos hm]
    rw [hl, zero_add, Multiset.singleton_add, Multiset.erase_cons_head]
  · simp only [free, if_pos hm]
  · simp only [free, if_pos hm]
    exact ok_erase ok _

/-- What an optional block is. -/
def optBlock (p : Option Nat) (size : Nat) : Blocks := match p with | none => 0 | some p => {(p, size)}

theorem own_freeArray (p : Option Nat) (size : Nat) : Own (optBlock p size) (freeArray p size) (fun _ F => F = 0) := by
  cases p with
  | none => exact own_pure rfl
  | some p => exact own_free p size

/-- A free with a size that is not that of the block frees nothing. -/
theorem ownW_free_wrong (p size asked : Nat) (hne : size ≠ asked) : OwnW {(p, size)} (free p asked) {(p, size)} {(p, asked)} := by
  intro h R ok hl
  have hm : (p, asked) ∉ h.live := by
    intro hm
    rw [hl] at hm
    simp only [Multiset.singleton_add, Multiset.mem_cons, Prod.mk.injEq, true_and] at hm
    rcases hm with e | hm
    · exact hne e.symm
    · have nd := ok.1
      rw [hl] at nd
      simp only [Multiset.singleton_add, Multiset.map_cons, Multiset.nodup_cons] at nd
      exact nd.1 (Multiset.mem_map.mpr ⟨_, hm, rfl⟩)
  simp only [free, if_neg hm]
  exact ⟨hl, by rw [Multiset.singleton_add], ok⟩

theorem own_mapM {f : α → M β} {pre : α → Blocks} {post : β → Blocks} {Q : α → β → Prop} :
    ∀ (l : List α), (∀ a ∈ l, Own (pre a) (f a) (fun b F => F = post b ∧ Q a b)) →
      Own (l.map pre).sum (l.mapM f) (fun bs F => F = (bs.map post).sum ∧ List.Forall₂ Q l bs)
  | [], _ => by
    rw [List.mapM_nil]
    exact own_pure ⟨rfl, List.Forall₂.nil⟩
  | a :: l, hf => by
    rw [List.mapM_cons, List.map_cons, List.sum_cons]
    refine own_step (l.map pre).sum (hf a (by simp)) rfl ?_
    rintro b G ⟨rfl, hq⟩
    refine own_step (post b) (own_mapM l fun x hx => hf x (by simp [hx])) (add_comm _ _) ?_
    rintro bs G ⟨rfl, hqs⟩
    refine own_pure ⟨?_, List.Forall₂.cons hq hqs⟩
    rw [List.map_cons, List.sum_cons, add_comm]

theorem ownW_of_own {P : Blocks} {m : M α} {X : Blocks} (h : Own P m (fun _ F => F = X)) : OwnW P m X 0 := by
  intro h' R ok hl
  obtain ⟨F, rfl, l, w, ok'⟩ := h h' R ok hl
  exact ⟨l, by rw [w, zero_add], ok'⟩

theorem ownW_bind {P F W F' W' : Blocks} {m : M α} {k : α → M β} (h1 : OwnW P m F W) (h2 : ∀ a, OwnW F (k a) F' W') :
    OwnW P (m >>= k) F' (W + W') := by
  intro h R ok hl
  obtain ⟨l, w, ok'⟩ := h1 h R ok hl
  obtain ⟨l', w', ok''⟩ := h2 _ _ R ok' l
  refine ⟨l', ?_, ok''⟩
  change (k (m h).1 (m h).2).2.wrong = _
  rw [w', w]
  abel

theorem ownW_frame {P F W : Blocks} {m : M α} (X : Blocks) (h1 : OwnW P m F W) : OwnW (P + X) m (F + X) W := by
  intro h R ok hl
  obtain ⟨l, w, ok'⟩ := h1 h (X + R) ok (by rw [hl, add_assoc])
  exact ⟨by rw [l, add_assoc], w, ok'⟩

theorem ownW_step {P P1 F W F' W' : Blocks} {m : M α} {k : α → M β} (X : Blocks) (h1 : OwnW P1 m F W) (hP : P = P1 + X)
    (h2 : ∀ a, OwnW (F + X) (k a) F' W') : OwnW P (m >>= k) F' (W + W') := by
  subst hP
  exact ownW_bind (ownW_frame X h1) h2

theorem ownW_cast {P F W P' F' W' : Blocks} {m : M α} (h : OwnW P m F W) (e : P' = P) (e2 : F' = F) (e3 : W' = W) : OwnW P' m F' W' := by
  subst e e2 e3; exact h

/-- From `P`, whatever else is live, the program ends with some `F`, with some `W` freed wrongly, related by `Q`, and leaves the rest. -/
def OwnX {α : Type} (P : Blocks) (m : M α) (Q : α → Blocks → Blocks → Prop) : Prop :=
  ∀ h R, h.Ok → h.live = P + R → ∃ F W, Q (m h).1 F W ∧ (m h).2.live = F + R ∧ (m h).2.wrong = W + h.wrong ∧ (m h).2.Ok

theorem ownX_step {P P1 : Blocks} {m : M α} {k : α → M β} {Q : α → Blocks → Prop} {T : β → Blocks → Blocks → Prop} (X : Blocks)
    (h1 : Own P1 m Q) (hP : P = P1 + X) (h2 : ∀ a G, Q a G → OwnX (G + X) (k a) T) : OwnX P (m >>= k) T := by
  intro h R ok hl
  obtain ⟨F, q, l, w, ok'⟩ := h1 h (X + R) ok (by rw [hl, hP, add_assoc])
  obtain ⟨G, W, q', l', w', ok''⟩ := h2 _ F q _ R ok' (by rw [l, add_assoc])
  exact ⟨G, W, q', l', by rw [show ((m >>= k) h).2 = (k (m h).1 (m h).2).2 from rfl, w', w], ok''⟩

theorem ownX_stepW {P P1 F W : Blocks} {m : M α} {k : α → M β} {T : β → Blocks → Prop} (X : Blocks)
    (h1 : OwnW P1 m F W) (hP : P = P1 + X) (h2 : ∀ a, Own (F + X) (k a) T) : OwnX P (m >>= k) (fun b G V => T b G ∧ V = W) := by
  intro h R ok hl
  obtain ⟨l, w, ok'⟩ := h1 h (X + R) ok (by rw [hl, hP, add_assoc])
  obtain ⟨G, q', l', w', ok''⟩ := h2 _ _ R ok' (by rw [l, add_assoc])
  exact ⟨G, W, ⟨q', rfl⟩, l', by rw [show ((m >>= k) h).2 = (k (m h).1 (m h).2).2 from rfl, w', w], ok''⟩

theorem ownX_weaken {P : Blocks} {m : M α} {Q T : α → Blocks → Blocks → Prop} (h1 : OwnX P m Q) (h2 : ∀ a F W, Q a F W → T a F W) :
    OwnX P m T := by
  intro h R ok hl
  obtain ⟨F, W, q, rest⟩ := h1 h R ok hl
  exact ⟨F, W, h2 _ _ _ q, rest⟩

end Acl.Mem
