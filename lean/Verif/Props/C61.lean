import Verif.Transform.RigidShell
import Verif.Props.C59
/-!
C61: the shell on which the error of a bone is measured encloses, at every sample, the shells of everything below the bone,
and its precision is the one that the dominant bone asks for. (The precision a bone asks for itself is dropped when a bone
below it dominates: a finding.)
-/
namespace Acl.C61
open Acl Acl.Raw Acl.Hierarchy Acl.Shell

/-! ### Specification -/

/-- `c` is a child of `p` -/
def ChildOf (parents : List Nat) (c p : Nat) : Prop := parents[c]? = some p ∧ p ≠ invalidIndex

/-- `far` is the largest distance that the shell of `bone` reaches over the samples, 0 included. -/
def Farthest {E : Type} [LinearOrder E] (M : Motion E) (bone : Nat) (shell far : E) : Prop :=
  M.zero ≤ far ∧ (∀ s, s < M.numSamples → M.distance bone s shell ≤ far) ∧
    (far = M.zero ∨ ∃ s, s < M.numSamples ∧ far = M.distance bone s shell)

/-- The shells of a hierarchy: `at_ bone` is what is computed for the bone. -/
structure IsShells {E : Type} [LinearOrder E] (M : Motion E) (parents : List Nat) (descs : List (Desc E))
    (at_ : Nat → Shell E) : Prop where
  /-- in the space of the parent: the farthest point of the shell, with the precision of the bone if a child dominates it -/
  parent : ∀ (i : Nat) (d : Desc E), descs[i]? = some d → ∃ far, Farthest M i (at_ i).localDistance far ∧
    (((at_ i).localDistance = d.shellDistance ∧ (at_ i).parentDistance = far) ∨
      ((at_ i).localDistance ≠ d.shellDistance ∧ (at_ i).parentDistance = M.add far d.precision))
  /-- at least what the description asks for -/
  own : ∀ (i : Nat) (d : Desc E), descs[i]? = some d → d.shellDistance ≤ (at_ i).localDistance
  /-- at least what every child reaches -/
  children : ∀ i c, ChildOf parents c i → (at_ c).parentDistance ≤ (at_ i).localDistance
  /-- one of these, and the precision comes with it -/
  dominant : ∀ (i : Nat) (d : Desc E), descs[i]? = some d →
    ((at_ i).localDistance = d.shellDistance ∧ (at_ i).precision = d.precision) ∨
      (d.shellDistance < (at_ i).localDistance ∧ ∃ c, ChildOf parents c i ∧
        (at_ i).localDistance = (at_ c).parentDistance ∧ (at_ i).precision = (at_ c).precision)

/-- `d` is the bone `i` or below it; `path` leads from `i` down to `d`, both included -/
inductive Below (parents : List Nat) : Nat → Nat → Prop
  | self {i : Nat} : Below parents i i
  | child {i c d : Nat} : ChildOf parents c i → Below parents c d → Below parents i d

/-- The point at the distance of a shell of a bone `d`, moved up to the space of `i` by choosing a sample at every bone on the
way, ends up at distance `x`. -/
inductive Moves {E : Type} (M : Motion E) (parents : List Nat) (d : Nat) (start : E) : Nat → E → Prop
  | here : Moves M parents d start d start
  | up {c i s : Nat} {x : E} : Moves M parents d start c x → ChildOf parents c i → s < M.numSamples →
      Moves M parents d start i (M.distance c s x)

/-! ### Proofs -/

theorem foldl_max {E : Type} [LinearOrder E] (f : Nat → E) (l : List Nat) (z : E) :
    z ≤ l.foldl (fun m s => max m (f s)) z ∧ (∀ s ∈ l, f s ≤ l.foldl (fun m s => max m (f s)) z) ∧
      (l.foldl (fun m s => max m (f s)) z = z ∨ ∃ s ∈ l, l.foldl (fun m s => max m (f s)) z = f s) := by
  induction l generalizing z with
  | nil => exact ⟨le_rfl, by simp, Or.inl rfl⟩
  | cons a l ih =>
    obtain ⟨h1, h2, h3⟩ := ih (max z (f a))
    rw [List.foldl_cons]
    refine ⟨le_trans (le_max_left _ _) h1, ?_, ?_⟩
    · intro s hs
      rcases List.mem_cons.1 hs with rfl | hs
      · exact le_trans (le_max_right _ _) h1
      · exact h2 s hs
    · rcases h3 with h3 | ⟨s, hs, h3⟩
      · rw [h3]
        rcases max_cases z (f a) with ⟨h, -⟩ | ⟨h, -⟩
        · exact Or.inl h
        · exact Or.inr ⟨a, List.mem_cons_self, h⟩
      · exact Or.inr ⟨s, List.mem_cons_of_mem _ hs, h3⟩

theorem reach_spec {E : Type} [LinearOrder E] (M : Motion E) (bone : Nat) (shell : E) :
    Farthest M bone shell (reach M bone shell) := by
  obtain ⟨h1, h2, h3⟩ := foldl_max (fun s => M.distance bone s shell) (List.range M.numSamples) M.zero
  refine ⟨h1, fun s hs => h2 s (List.mem_range.2 hs), ?_⟩
  rcases h3 with h3 | ⟨s, hs, h3⟩
  · exact Or.inl h3
  · exact Or.inr ⟨s, List.mem_range.1 hs, h3⟩

/-- What holds while the bones `done` have been visited -/
structure Upto {E : Type} [LinearOrder E] (M : Motion E) (parents : List Nat) (descs : List (Desc E)) (done : List Nat)
    (st : List (Shell E)) : Prop where
  len : st.length = parents.length
  parent : ∀ i (x : Shell E) (d : Desc E), i ∈ done → st[i]? = some x → descs[i]? = some d →
    x.parentDistance = parentDistance M d i x.localDistance
  own : ∀ (i : Nat) (x : Shell E) (d : Desc E), st[i]? = some x → descs[i]? = some d → d.shellDistance ≤ x.localDistance
  children : ∀ (i c : Nat) (x y : Shell E), ChildOf parents c i → c ∈ done → st[i]? = some x → st[c]? = some y →
    y.parentDistance ≤ x.localDistance
  dominant : ∀ (i : Nat) (x : Shell E) (d : Desc E), st[i]? = some x → descs[i]? = some d →
    (x.localDistance = d.shellDistance ∧ x.precision = d.precision) ∨
      (d.shellDistance < x.localDistance ∧ ∃ c y, ChildOf parents c i ∧ c ∈ done ∧ st[c]? = some y ∧
        x.localDistance = y.parentDistance ∧ x.precision = y.precision)

theorem upto_initial {E : Type} [LinearOrder E] (M : Motion E) (parents : List Nat) (descs : List (Desc E))
    (hd : descs.length = parents.length) : Upto M parents descs [] (initial M descs) := by
  refine ⟨by simp [initial, hd], by simp, ?_, by simp, ?_⟩
  · intro i x d hx hdd
    simp [initial, hdd] at hx
    rw [← hx]
  · intro i x d hx hdd
    simp [initial, hdd] at hx
    rw [← hx]
    exact Or.inl ⟨rfl, rfl⟩

theorem dominate_local {E : Type} [LinearOrder E] (x p : Shell E) :
    p.localDistance ≤ (dominate x p).localDistance ∧ x.parentDistance ≤ (dominate x p).localDistance := by
  unfold dominate
  split
  · rename_i h; exact ⟨h.le, le_rfl⟩
  · rename_i h; exact ⟨le_rfl, not_lt.1 h⟩

theorem upto_next {E : Type} [LinearOrder E] (M : Motion E) (parents : List Nat) (descs : List (Desc E))
    (done : List Nat) (st st' : List (Shell E)) (h : Upto M parents descs done st)
    (i : Nat) (hnew : i ∉ done) (hp : ∀ p, ChildOf parents i p → p ∉ done)
    (x x' : Shell E) (d : Desc E) (hx : st[i]? = some x) (hd : descs[i]? = some d)
    (hxl : x'.localDistance = x.localDistance) (hxp : x'.precision = x.precision)
    (hxd : x'.parentDistance = parentDistance M d i x.localDistance)
    (hlen : st'.length = st.length) (h1 : st'[i]? = some x')
    (h2 : ∀ j, j ≠ i → ¬ ChildOf parents i j → st'[j]? = st[j]?)
    (h3 : ∀ p, ChildOf parents i p → p ≠ i ∧ ∃ xp, st[p]? = some xp ∧ st'[p]? = some (dominate x' xp)) :
    Upto M parents descs (i :: done) st' := by
  have hdone : ∀ c, c ∈ done → st'[c]? = st[c]? := by
    intro c hc
    apply h2
    · rintro rfl; exact hnew hc
    · intro hcp; exact hp c hcp hc
  refine ⟨by rw [hlen, h.len], ?_, ?_, ?_, ?_⟩
  · intro j y dd hj hy hdd
    rcases List.mem_cons.1 hj with rfl | hj
    · rw [h1] at hy; cases hy
      rw [hd] at hdd; cases hdd
      rw [hxl]; exact hxd
    · rw [hdone j hj] at hy
      exact h.parent j y dd hj hy hdd
  · intro j y dd hy hdd
    by_cases hji : j = i
    · subst hji
      rw [h1] at hy; cases hy
      rw [hxl]; exact h.own j x dd hx hdd
    · by_cases hjp : ChildOf parents i j
      · obtain ⟨-, xp, e1, e2⟩ := h3 j hjp
        rw [e2] at hy; cases hy
        exact le_trans (h.own j xp dd e1 hdd) (dominate_local x' xp).1
      · rw [h2 j hji hjp] at hy
        exact h.own j y dd hy hdd
  · intro j c y z hc hcd hy hz
    rcases List.mem_cons.1 hcd with hci | hcd'
    · subst hci
      obtain ⟨-, xp, e1, e2⟩ := h3 j hc
      rw [e2] at hy; cases hy
      rw [h1] at hz; cases hz
      exact (dominate_local x' xp).2
    · rw [hdone c hcd'] at hz
      by_cases hji : j = i
      · subst hji
        rw [h1] at hy; cases hy
        rw [hxl]; exact h.children j c x z hc hcd' hx hz
      · by_cases hjp : ChildOf parents i j
        · obtain ⟨-, xp, e1, e2⟩ := h3 j hjp
          rw [e2] at hy; cases hy
          exact le_trans (h.children j c xp z hc hcd' e1 hz) (dominate_local x' xp).1
        · rw [h2 j hji hjp] at hy
          exact h.children j c y z hc hcd' hy hz
  · intro j y dd hy hdd
    have keep : ∀ w : Shell E, st[j]? = some w → y.localDistance = w.localDistance → y.precision = w.precision →
        (y.localDistance = dd.shellDistance ∧ y.precision = dd.precision) ∨
        (dd.shellDistance < y.localDistance ∧ ∃ c z, ChildOf parents c j ∧ c ∈ i :: done ∧ st'[c]? = some z ∧
          y.localDistance = z.parentDistance ∧ y.precision = z.precision) := by
      intro w hw e1 e2
      rw [e1, e2]
      rcases h.dominant j w dd hw hdd with hh | ⟨hh, c, z, g1, g2, g3, g4, g5⟩
      · exact Or.inl hh
      · exact Or.inr ⟨hh, c, z, g1, List.mem_cons_of_mem _ g2, by rw [hdone c g2]; exact g3, g4, g5⟩
    by_cases hji : j = i
    · subst hji
      rw [h1] at hy; cases hy
      exact keep x hx hxl hxp
    · by_cases hjp : ChildOf parents i j
      · obtain ⟨-, xp, e1, e2⟩ := h3 j hjp
        rw [e2] at hy
        by_cases hlt : xp.localDistance < x'.parentDistance
        · rw [dominate, if_pos hlt] at hy; cases hy
          exact Or.inr ⟨lt_of_le_of_lt (h.own j xp dd e1 hdd) hlt, i, x', hjp, List.mem_cons_self, h1, rfl, rfl⟩
        · rw [dominate, if_neg hlt] at hy; cases hy
          exact keep _ e1 rfl rfl
      · rw [h2 j hji hjp] at hy
        exact keep y hy rfl rfl

/-- One bone, its parent not visited yet. -/
theorem upto_step {E : Type} [LinearOrder E] (M : Motion E) (parents : List Nat) (descs : List (Desc E))
    (done : List Nat) (st : List (Shell E)) (h : Upto M parents descs done st) (hlen : descs.length = parents.length)
    (i : Nat) (hi : i < parents.length) (hnew : i ∉ done)
    (hp : ∀ p, ChildOf parents i p → p ∉ done ∧ p ≠ i ∧ p < parents.length) :
    ∃ st', (∀ rest, bubble M parents descs (i :: rest) st = bubble M parents descs rest st') ∧
      Upto M parents descs (i :: done) st' := by
  have hst : i < st.length := by rw [h.len]; exact hi
  obtain ⟨x, hx⟩ : ∃ x, st[i]? = some x := ⟨_, List.getElem?_eq_getElem hst⟩
  obtain ⟨d, hd⟩ : ∃ d, descs[i]? = some d := ⟨_, List.getElem?_eq_getElem (by rw [hlen]; exact hi)⟩
  obtain ⟨p, hpar⟩ : ∃ p, parents[i]? = some p := ⟨_, List.getElem?_eq_getElem hi⟩
  obtain ⟨x', ex'⟩ : ∃ x' : Shell E, x' = { x with parentDistance := parentDistance M d i x.localDistance } := ⟨_, rfl⟩
  have hxl : x'.localDistance = x.localDistance := by rw [ex']
  have hxp : x'.precision = x.precision := by rw [ex']
  have hxd : x'.parentDistance = parentDistance M d i x.localDistance := by rw [ex']
  by_cases hinv : p = invalidIndex
  · refine ⟨st.set i x', ?_, ?_⟩
    · intro rest
      simp only [bubble, hx, hd, hpar, hinv, Option.bind_eq_bind, Option.bind_some, if_true, ← ex']
    · have hno : ∀ q, ¬ ChildOf parents i q := by
        intro q hq
        have := hq.1
        rw [hpar] at this; cases this
        exact hq.2 hinv
      exact upto_next M parents descs done st _ h i hnew (fun q hq => absurd hq (hno q)) x x' d hx hd hxl hxp hxd (by simp)
        (List.getElem?_set_self hst) (fun j hj _ => List.getElem?_set_ne (Ne.symm hj)) (fun q hq => absurd hq (hno q))
  · obtain ⟨g1, g2, g3⟩ := hp p ⟨hpar, hinv⟩
    obtain ⟨xp, hxp'⟩ : ∃ xp, st[p]? = some xp := ⟨_, List.getElem?_eq_getElem (by rw [h.len]; exact g3)⟩
    have hgp : (st.set i x')[p]? = some xp := by rw [List.getElem?_set_ne (Ne.symm g2)]; exact hxp'
    have honly : ∀ q, ChildOf parents i q → q = p := by
      intro q hq
      have := hq.1
      rw [hpar] at this; exact (Option.some.inj this).symm
    refine ⟨(st.set i x').set p (dominate x' xp), ?_, ?_⟩
    · intro rest
      simp only [bubble, hx, hd, hpar, hinv, Option.bind_eq_bind, Option.bind_some, if_false, ← ex', hgp]
    · refine upto_next M parents descs done st _ h i hnew (fun q hq => (hp q hq).1) x x' d hx hd hxl hxp hxd (by simp) ?_ ?_ ?_
      · rw [List.getElem?_set_ne g2]; exact List.getElem?_set_self hst
      · intro j hj hjp
        have hjpne : j ≠ p := by rintro rfl; exact hjp ⟨hpar, hinv⟩
        rw [List.getElem?_set_ne (Ne.symm hjpne), List.getElem?_set_ne (Ne.symm hj)]
      · intro q hq
        rw [honly q hq]
        exact ⟨g2, xp, hxp', List.getElem?_set_self (by rw [List.length_set, h.len]; exact g3)⟩

theorem upto_all {E : Type} [LinearOrder E] (M : Motion E) (parents : List Nat) (descs : List (Desc E))
    (hlen : descs.length = parents.length) (todo done : List Nat) (hnd : (todo ++ done).Nodup)
    (hin : ∀ i ∈ todo, i < parents.length)
    (hord : ∀ l₁ i l₂, todo = l₁ ++ i :: l₂ → ∀ p, ChildOf parents i p → p ∈ l₂)
    (st : List (Shell E)) (h : Upto M parents descs done st) :
    ∃ st', bubble M parents descs todo st = some st' ∧ Upto M parents descs (todo.reverse ++ done) st' := by
  induction todo generalizing done st with
  | nil => exact ⟨st, rfl, by simpa using h⟩
  | cons i rest ih =>
    rw [List.cons_append, List.nodup_cons] at hnd
    obtain ⟨st₁, e₁, h₁⟩ := upto_step M parents descs done st h hlen i (hin i List.mem_cons_self)
      (fun hh => hnd.1 (List.mem_append_right _ hh)) (by
        intro p hp
        have hmem := hord [] i rest rfl p hp
        refine ⟨?_, ?_, hin p (List.mem_cons_of_mem _ hmem)⟩
        · intro hpd
          exact (List.nodup_append.1 hnd.2).2.2 p hmem p hpd rfl
        · rintro rfl
          exact hnd.1 (List.mem_append_left _ hmem))
    have hnd' : (rest ++ i :: done).Nodup := by
      rw [List.nodup_middle, List.nodup_cons]; exact hnd
    obtain ⟨st', e, h'⟩ := ih (i :: done) hnd' (fun j hj => hin j (List.mem_cons_of_mem _ hj))
      (fun l₁ j l₂ el => hord (i :: l₁) j l₂ (by rw [el, List.cons_append])) st₁ h₁
    refine ⟨st', by rw [e₁, e], ?_⟩
    rw [List.reverse_cons, List.append_assoc]; exact h'

/-- **C61.** The shells of every ordered hierarchy satisfy the specification. -/
theorem C61_shells {E : Type} [LinearOrder E] (M : Motion E) (hs : 0 < M.numSamples) (parents : List Nat)
    (hv : ParentsValid parents) (ho : Ordered parents) (descs : List (Desc E)) (hlen : descs.length = parents.length) :
    ∃ (st : List (Shell E)) (at_ : Nat → Shell E), shells M parents descs = some st ∧ st.length = parents.length ∧
      (∀ i, i < parents.length → st[i]? = some (at_ i)) ∧ IsShells M parents descs at_ := by
  have hperm := sort_perm parents
  have hnd : (sortParentFirst parents).Nodup := hperm.nodup_iff.2 List.nodup_range
  obtain ⟨st, e, h⟩ := upto_all M parents descs hlen (sortParentFirst parents).reverse []
    (by rw [List.append_nil, List.nodup_reverse]; exact hnd)
    (fun i hi => List.mem_range.1 (hperm.mem_iff.1 (List.mem_reverse.1 hi)))
    (by
      intro l₁ i l₂ el p hp
      have el' : sortParentFirst parents = l₂.reverse ++ i :: l₁.reverse := by
        rw [← List.reverse_reverse (sortParentFirst parents), el]; simp
      obtain ⟨q, hq, hqc⟩ := closed_sorted hv ho _ _ _ el'
      have hqp : q = p := by
        have := hp.1
        rw [hq] at this; exact Option.some.inj this
      subst hqp
      rcases hqc with hh | hh | hh
      · exact absurd hh hp.2
      · simp at hh
      · exact List.mem_reverse.1 hh)
    (initial M descs) (upto_initial M parents descs hlen)
  rw [List.reverse_reverse, List.append_nil] at h
  have hall : ∀ i, i < parents.length → i ∈ sortParentFirst parents :=
    fun i hi => hperm.mem_iff.2 (List.mem_range.2 hi)
  have hlt : ∀ i (d : Desc E), descs[i]? = some d → i < parents.length := by
    intro i d hd
    have := (List.getElem?_eq_some_iff.1 hd).1
    omega
  have hchild : ∀ c i, ChildOf parents c i → c < parents.length ∧ i < parents.length := by
    intro c i hc
    have h1 := (List.getElem?_eq_some_iff.1 hc.1).1
    have h2 := (ho c i hc.1).resolve_left hc.2
    exact ⟨h1, by omega⟩
  by_cases hn : 0 < parents.length
  · obtain ⟨x0, hx0⟩ : ∃ x, st[0]? = some x := ⟨_, List.getElem?_eq_getElem (by rw [h.len]; exact hn)⟩
    have hat : ∀ i, i < parents.length → st[i]? = some (st.getD i x0) := by
      intro i hi
      have : i < st.length := by rw [h.len]; exact hi
      simp [List.getElem?_eq_getElem this]
    refine ⟨st, fun i => st.getD i x0, ?_, h.len, hat, ?_, ?_, ?_, ?_⟩
    · unfold shells; rw [if_neg (show ¬ M.numSamples = 0 by omega)]; exact e
    · intro i d hd
      have hi := hlt i d hd
      refine ⟨reach M i (st.getD i x0).localDistance, reach_spec M i _, ?_⟩
      have hp := h.parent i _ d (hall i hi) (hat i hi) hd
      unfold parentDistance at hp
      by_cases hne : (st.getD i x0).localDistance = d.shellDistance
      · rw [if_neg (by simpa using hne)] at hp; exact Or.inl ⟨hne, hp⟩
      · rw [if_pos hne] at hp; exact Or.inr ⟨hne, hp⟩
    · intro i d hd
      exact h.own i _ d (hat i (hlt i d hd)) hd
    · intro i c hc
      obtain ⟨h1, h2⟩ := hchild c i hc
      exact h.children i c _ _ hc (hall c h1) (hat i h2) (hat c h1)
    · intro i d hd
      rcases h.dominant i _ d (hat i (hlt i d hd)) hd with hh | ⟨hh, c, y, g1, g2, g3, g4, g5⟩
      · exact Or.inl hh
      · have := hat c (hchild c i g1).1
        rw [g3] at this
        cases Option.some.inj this
        exact Or.inr ⟨hh, c, g1, g4, g5⟩
  · have hn0 : parents = [] := List.length_eq_zero_iff.1 (by omega)
    subst hn0
    have hd0 : descs = [] := List.length_eq_zero_iff.1 hlen
    subst hd0
    have hst0 : st = [] := List.length_eq_zero_iff.1 h.len
    subst hst0
    refine ⟨[], fun _ => { localDistance := M.zero, parentDistance := M.zero, precision := M.zero }, ?_, rfl, by simp,
      by simp, by simp, ?_, by simp⟩
    · unfold shells; rw [if_neg (show ¬ M.numSamples = 0 by omega)]; exact e
    · intro i c hc
      have := hc.1
      simp at this

/-- Nothing below a bone leaves its shell: take a point within the shell that a bone asks for, or within the one computed for
it, and move it up through the hierarchy, at any sample of each bone; it stays within the shells of the bones on the way. -/
theorem C61_encloses {E : Type} [LinearOrder E] (M : Motion E) (hmono : ∀ b s x y, x ≤ y → M.distance b s x ≤ M.distance b s y)
    (parents : List Nat) (descs : List (Desc E)) (hlen : descs.length = parents.length)
    (hadd : ∀ d ∈ descs, ∀ x, x ≤ M.add x d.precision) (at_ : Nat → Shell E) (h : IsShells M parents descs at_)
    (bone : Nat) (start : E) (hstart : start ≤ (at_ bone).localDistance ∨ ∃ d, descs[bone]? = some d ∧ start = d.shellDistance)
    (above : Nat) (x : E) (hm : Moves M parents bone start above x) : x ≤ (at_ above).localDistance := by
  induction hm with
  | here =>
    rcases hstart with hs | ⟨d, hd, rfl⟩
    · exact hs
    · exact h.own bone d hd
  | @up c i s x _ hc hs ih =>
    have hclt := (List.getElem?_eq_some_iff.1 hc.1).1
    obtain ⟨d, hd⟩ : ∃ d, descs[c]? = some d := ⟨_, List.getElem?_eq_getElem (by rw [hlen]; exact hclt)⟩
    obtain ⟨far, ⟨-, hfar, -⟩, hpd⟩ := h.parent c d hd
    have h1 : M.distance c s x ≤ far := le_trans (hmono c s _ _ ih) (hfar s hs)
    have h2 : far ≤ (at_ c).parentDistance := by
      rcases hpd with ⟨-, e⟩ | ⟨-, e⟩
      · rw [e]
      · rw [e]; exact hadd d (List.mem_of_getElem? hd) far
    exact le_trans h1 (le_trans h2 (h.children i c hc))

/-- The precision of a bone is the one asked for by the bone itself or by a bone below it, whose shell no other dominates. -/
theorem C61_precision {E : Type} [LinearOrder E] (M : Motion E) (parents : List Nat) (ho : Ordered parents)
    (descs : List (Desc E)) (hlen : descs.length = parents.length) (at_ : Nat → Shell E) (h : IsShells M parents descs at_)
    (bone : Nat) (hb : bone < parents.length) :
    ∃ (dominant : Nat) (d : Desc E), Below parents bone dominant ∧ descs[dominant]? = some d ∧
      (at_ bone).precision = d.precision ∧ (at_ dominant).localDistance = d.shellDistance := by
  obtain ⟨k, hk⟩ : ∃ k, k = parents.length - bone := ⟨_, rfl⟩
  induction k using Nat.strong_induction_on generalizing bone with
  | _ k ih =>
    obtain ⟨d, hd⟩ : ∃ d, descs[bone]? = some d := ⟨_, List.getElem?_eq_getElem (by rw [hlen]; exact hb)⟩
    rcases h.dominant bone d hd with ⟨h1, h2⟩ | ⟨-, c, hc, -, hprec⟩
    · exact ⟨bone, d, .self, hd, h2, h1⟩
    · have hclt := (List.getElem?_eq_some_iff.1 hc.1).1
      have hbc := (ho c bone hc.1).resolve_left hc.2
      obtain ⟨dom, d', g1, g2, g3, g4⟩ := ih (parents.length - c) (by omega) c hclt rfl
      exact ⟨dom, d', .child hc g1, g2, by rw [hprec, g3], g4⟩

/-- Finding: the precision a bone asks for is lost when a bone below it has a larger shell. Whatever the two precisions are,
the parent ends up with that of its child. -/
theorem C61_precision_finding (tight loose : ℚ) :
    ∃ (M : Motion ℚ) (parents : List Nat) (descs : List (Desc ℚ)) (st : List (Shell ℚ)), 0 < M.numSamples ∧
      (C59.exArray parents).isValid = true ∧ Ordered parents ∧
      (descs[0]?).map (·.precision) = some tight ∧ shells M parents descs = some st ∧
      (st[0]?).map (·.precision) = some loose := by
  refine ⟨{ zero := 0, add := (· + ·), numSamples := 1, distance := fun _ _ x => x }, [invalidIndex, 0],
    [⟨1, tight⟩, ⟨2, loose⟩], [⟨2, 2 + tight, loose⟩, ⟨2, 2, loose⟩], by decide, by decide +kernel, ?_, rfl, ?_, rfl⟩
  · intro i p h
    have hi := (List.getElem?_eq_some_iff.1 h).1
    have hi2 : i < 2 := hi
    interval_cases i <;> (simp at h; subst h; simp)
  · have hsort : sortParentFirst [invalidIndex, 0] = [0, 1] := by decide +kernel
    unfold shells
    rw [if_neg (by decide), hsort]
    simp [bubble, initial, parentDistance, reach, dominate, invalidIndex]

/-! ### Non-vacuity: a root with two children, the second of which has a child -/

def exMotion : Motion ℚ := { zero := 0, add := (· + ·), numSamples := 2, distance := fun b s x => x + b + s }

def exParents : List Nat := [invalidIndex, 0, 0, 2]

def exDescs : List (Desc ℚ) := [⟨1, 1/10⟩, ⟨1, 1/100⟩, ⟨20, 1/1000⟩, ⟨3, 1/50⟩]

example : 0 < exMotion.numSamples ∧ ParentsValid exParents ∧ Ordered exParents ∧ exDescs.length = exParents.length ∧
    (∀ b s x y, x ≤ y → exMotion.distance b s x ≤ exMotion.distance b s y) ∧
    (∀ d ∈ exDescs, ∀ x, x ≤ exMotion.add x d.precision) ∧
    shells exMotion exParents exDescs =
      some [⟨23, 24 + 1/10, 1/1000⟩, ⟨1, 3, 1/100⟩, ⟨20, 23, 1/1000⟩, ⟨3, 7, 1/50⟩] := by
  refine ⟨by decide, by unfold ParentsValid; decide +kernel, ?_, rfl, ?_, ?_, ?_⟩
  · intro i p h
    have hi2 : i < 4 := (List.getElem?_eq_some_iff.1 h).1
    interval_cases i <;> (simp [exParents] at h; subst h; simp)
  · intro b s x y h; show x + b + s ≤ y + b + s; linarith
  · intro d hd x
    show x ≤ x + d.precision
    simp only [exDescs, List.mem_cons, List.not_mem_nil, or_false] at hd
    rcases hd with rfl | rfl | rfl | rfl <;> norm_num
  · have hsort : sortParentFirst exParents = [0, 1, 2, 3] := by decide +kernel
    unfold shells
    rw [if_neg (by decide), hsort]
    norm_num [bubble, initial, parentDistance, reach, dominate, invalidIndex, exMotion, exParents, exDescs, List.range_succ]

end Acl.C61
