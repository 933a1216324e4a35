import Verif.Transform.Hierarchy
import Verif.Transform.HierarchySpec
import Verif.Core.BitsetLemmas
/- Facts about chains, the parent first order and object space. -/
namespace Acl.Hierarchy
open Acl Acl.Raw

theorem RootPath.unique {parents : List Nat} {i : Nat} {l l' : List Nat} (h : RootPath parents i l)
    (h' : RootPath parents i l') : l = l' := by
  induction h generalizing l' with
  | root hr =>
    cases h' with
    | root _ => rfl
    | child hp hne _ => rw [hr] at hp; exact absurd (Option.some.inj hp).symm hne
  | child hp hne _ ih =>
    cases h' with
    | root hr => rw [hp] at hr; exact absurd (Option.some.inj hr) hne
    | child hp' _ hl => rw [hp] at hp'; cases Option.some.inj hp'; rw [ih hl]

theorem RootPath.lt {parents : List Nat} {i : Nat} {l : List Nat} (h : RootPath parents i l) : i < parents.length := by
  cases h with
  | root h => exact (List.getElem?_eq_some_iff.1 h).1
  | child h _ _ => exact (List.getElem?_eq_some_iff.1 h).1

theorem RootPath.all_lt {parents : List Nat} {i : Nat} {l : List Nat} (h : RootPath parents i l) :
    ∀ j ∈ l, j < parents.length := by
  induction h with
  | root h => intro j hj; rw [List.mem_singleton] at hj; subst hj; exact (List.getElem?_eq_some_iff.1 h).1
  | child h _ _ ih =>
    intro j hj
    rcases List.mem_append.1 hj with hj | hj
    · exact ih j hj
    · rw [List.mem_singleton] at hj; subst hj; exact (List.getElem?_eq_some_iff.1 h).1

theorem RootPath.self_mem {parents : List Nat} {i : Nat} {l : List Nat} (h : RootPath parents i l) : i ∈ l := by
  cases h <;> simp

/-- The path to a transform of a path is a prefix of it. -/
theorem RootPath.prefix {parents : List Nat} {i b : Nat} {l : List Nat} (h : RootPath parents i l) (hb : b ∈ l) :
    ∃ pb t, l = pb ++ t ∧ RootPath parents b pb := by
  induction h with
  | root hr =>
    rw [List.mem_singleton] at hb; subst hb
    exact ⟨[b], [], rfl, .root hr⟩
  | @child j p path hp hne hl ih =>
    rcases List.mem_append.1 hb with hb | hb
    · obtain ⟨pb, t, e, h⟩ := ih hb
      exact ⟨pb, t ++ [j], by rw [e, List.append_assoc], h⟩
    · rw [List.mem_singleton] at hb; subst hb
      exact ⟨path ++ [b], [], by simp, .child hp hne hl⟩

theorem RootPath.exists_of_ordered {parents : List Nat} (ho : Ordered parents) {i : Nat} (hi : i < parents.length) :
    ∃ l, RootPath parents i l := by
  induction i using Nat.strong_induction_on with
  | _ i ih =>
    have hg : parents[i]? = some parents[i] := List.getElem?_eq_getElem hi
    rcases ho i _ hg with h | h
    · rw [h] at hg; exact ⟨[i], .root hg⟩
    · by_cases hinv : parents[i] = invalidIndex
      · rw [hinv] at hg; exact ⟨[i], .root hg⟩
      · obtain ⟨l, hl⟩ := ih _ h (by omega)
        exact ⟨_, .child hg hinv hl⟩

/-- With every parent before its children, a path ascends and ends at its transform. -/
theorem RootPath.ascending {parents : List Nat} (ho : Ordered parents) {i : Nat} {l : List Nat}
    (h : RootPath parents i l) : l.Pairwise (· < ·) ∧ ∀ j ∈ l, j ≤ i := by
  induction h with
  | root _ => exact ⟨List.pairwise_singleton _ _, by simp⟩
  | @child j p path hp hne _ ih =>
    rcases ho _ _ hp with h | h
    · exact absurd h hne
    · refine ⟨List.pairwise_append.2 ⟨ih.1, List.pairwise_singleton _ _, ?_⟩, ?_⟩
      · intro a ha b hb; rw [List.mem_singleton] at hb; subst hb
        have := ih.2 a ha; omega
      · intro a ha
        rcases List.mem_append.1 ha with ha | ha
        · have := ih.2 a ha; omega
        · rw [List.mem_singleton] at ha; omega

/-! ### Bit sets -/

/-- `bits` is a bit set for `n` transforms -/
def Sized (n : Nat) (bits : List (BitVec 32)) : Prop := bits.length = bitsetSize n

theorem sized_lt {n i : Nat} {bits : List (BitVec 32)} (h : Sized n bits) (hi : i < n) : i / 32 < bits.length := by
  unfold Sized bitsetSize at h; omega

theorem sized_empty (n : Nat) : Sized n (emptyBits n) := by unfold Sized emptyBits; simp

theorem empty_bit (n i : Nat) : bsBit (emptyBits n) i = false := by
  unfold bsBit emptyBits
  simp only [List.getD_eq_getElem?_getD, List.getElem?_replicate]
  split <;> simp

theorem markParents_spec (parents : List Nat) (n : Nat) (m : List (BitVec 32)) (hm : Sized n m)
    (hv : ∀ p ∈ parents, p = invalidIndex ∨ p < n) :
    ∃ m', markParents parents m = some m' ∧ Sized n m' ∧
      ∀ i, bsBit m' i = (bsBit m i && decide (¬ (i ∈ parents ∧ i ≠ invalidIndex))) := by
  induction parents generalizing m with
  | nil => exact ⟨m, rfl, hm, by simp⟩
  | cons p rest ih =>
    by_cases hp : p = invalidIndex
    · obtain ⟨m', e, hs, hb⟩ := ih m hm (fun q hq => hv q (List.mem_cons_of_mem _ hq))
      refine ⟨m', by simp [markParents, hp, e], hs, ?_⟩
      intro i; rw [hb i]; congr 1
      apply decide_eq_decide.2; subst hp
      simp only [List.mem_cons]; tauto
    · have hlt := (hv p List.mem_cons_self).resolve_left hp
      obtain ⟨m₁, e₁, l₁, -, b₁⟩ := bitsetSet_spec m p false (sized_lt hm hlt)
      obtain ⟨m', e, hs, hb⟩ := ih m₁ (by unfold Sized at *; omega) (fun q hq => hv q (List.mem_cons_of_mem _ hq))
      refine ⟨m', by simp [markParents, hp, e₁, e], hs, ?_⟩
      intro i; rw [hb i, b₁ i]
      by_cases hip : i = p
      · subst hip; simp [hp]
      · rw [if_neg hip]; congr 1
        apply decide_eq_decide.2
        simp only [List.mem_cons]; tauto

theorem leafBits_spec (parents : List Nat) (hv : ParentsValid parents) :
    ∃ m, leafBits parents = some m ∧ Sized parents.length m ∧
      ∀ i, i < parents.length → bsBit m i = decide (i ∉ parents) := by
  have hv' := hv
  unfold ParentsValid at hv'
  obtain ⟨hn, hp⟩ := hv'
  obtain ⟨m₁, e₁, l₁, -, b₁⟩ := bitsetSetRange_spec parents.length (emptyBits parents.length) 0
    (bitsetSize parents.length) true (by unfold bitsetSize; omega) (by unfold emptyBits; simp)
  have hs₁ : Sized parents.length m₁ := by
    have := sized_empty parents.length
    unfold Sized at *; omega
  obtain ⟨m, e, hs, hb⟩ := markParents_spec parents parents.length m₁ hs₁ hp
  refine ⟨m, by simp [leafBits, e₁, e], hs, ?_⟩
  intro i hi
  rw [hb i, b₁ i, if_pos (by omega), Bool.true_and]
  apply decide_eq_decide.2
  have : i ≠ invalidIndex := by omega
  tauto

/-! ### Walking from a leaf to its root -/

theorem walk_spec {parents : List Nat} (hn : parents.length ≤ invalidIndex) (chain : Nat) {i : Nat} {l : List Nat}
    (h : RootPath parents i l) (fuel : Nat) (hf : l.length < fuel) (bits : List (BitVec 32))
    (assigned : List (Option Nat)) (hb : Sized parents.length bits) (ha : assigned.length = parents.length) :
    ∃ bits' assigned', walk parents chain fuel i bits assigned = some (bits', assigned') ∧
      Sized parents.length bits' ∧ assigned'.length = parents.length ∧
      (∀ j, bsBit bits' j = (bsBit bits j || decide (j ∈ l))) ∧
      ∀ j, j < parents.length → assigned'[j]? =
        if j ∈ l ∧ assigned[j]? = some none then some (some chain) else assigned[j]? := by
  induction h generalizing fuel bits assigned with
  | @root i hr =>
    obtain ⟨hi, -⟩ := List.getElem?_eq_some_iff.1 hr
    obtain ⟨b₁, e₁, l₁, -, hb₁⟩ := bitsetSet_spec bits i true (sized_lt hb hi)
    have hia : assigned[i]? = some assigned[i] := List.getElem?_eq_getElem (by omega)
    obtain ⟨f, rfl⟩ : ∃ f, fuel = f + 2 := ⟨fuel - 2, by simp at hf; omega⟩
    have hne : i ≠ invalidIndex := by omega
    refine ⟨b₁, assign assigned assigned[i] i chain, ?_, ?_, ?_, ?_, ?_⟩
    · simp [walk, hne, e₁, hia, hr]
    · unfold Sized at *; omega
    · unfold assign; split <;> simp [ha]
    · intro j; rw [hb₁ j]
      by_cases hj : j = i <;> simp [hj]
    · intro j hj
      unfold assign
      cases hv : assigned[i] with
      | none =>
        by_cases hji : j = i
        · subst hji; simp [hia, hv, ha, hj]
        · simp [hji, List.getElem?_set_ne (Ne.symm hji)]
      | some c =>
        by_cases hji : j = i
        · subst hji; simp [hia, hv]
        · simp [hji]
  | @child i p path hp hpne hpath ih =>
    obtain ⟨hi, -⟩ := List.getElem?_eq_some_iff.1 hp
    obtain ⟨b₁, e₁, l₁, -, hb₁⟩ := bitsetSet_spec bits i true (sized_lt hb hi)
    have hia : assigned[i]? = some assigned[i] := List.getElem?_eq_getElem (by omega)
    obtain ⟨f, rfl⟩ : ∃ f, fuel = f + 1 := ⟨fuel - 1, by simp at hf; omega⟩
    have hne : i ≠ invalidIndex := by omega
    obtain ⟨a₁, ea⟩ : ∃ a₁, a₁ = assign assigned assigned[i] i chain :=
      ⟨_, rfl⟩
    have hal : a₁.length = parents.length := by rw [ea]; unfold assign; split <;> simp [ha]
    obtain ⟨bits', assigned', e, hs', hl', hbits, hass⟩ := ih f (by simp at hf; omega) b₁ a₁ (by unfold Sized at *; omega) hal
    refine ⟨bits', assigned', ?_, hs', hl', ?_, ?_⟩
    · simp only [walk, hne, if_false, e₁, hia, hp, Option.bind_eq_bind, Option.bind_some]
      rw [← ea]; exact e
    · intro j; rw [hbits j, hb₁ j]
      by_cases hj : j = i
      · subst hj; simp
      · simp [hj]
    · intro j hj
      rw [hass j hj]
      have hj1 : a₁[j]? = if j = i ∧ assigned[j]? = some none then some (some chain) else assigned[j]? := by
        rw [ea]; unfold assign
        cases hv : assigned[i] with
        | none =>
          by_cases hji : j = i
          · subst hji; simp [hia, hv, ha, hj]
          · simp [hji, List.getElem?_set_ne (Ne.symm hji)]
        | some c =>
          by_cases hji : j = i
          · subst hji; simp [hia, hv]
          · simp [hji]
      rw [hj1]
      by_cases hji : j = i
      · subst hji
        by_cases hnone : assigned[j]? = some none
        · simp [hnone]
        · simp [hnone]
      · simp [hji]

/-! ### The chains -/

/-- `bits` is the set of the transforms on the path to `leaf` -/
def IsChain (parents : List Nat) (leaf : Nat) (bits : List (BitVec 32)) : Prop :=
  ∃ l, RootPath parents leaf l ∧ Sized parents.length bits ∧ ∀ j, bsBit bits j = decide (j ∈ l)

/-- What holds while the chains are built: `done` are the leaves that have been visited. -/
structure Inv (parents : List Nat) (done : List Nat) (c : Chains) : Prop where
  len : c.assigned.length = parents.length
  chains : List.Forall₂ (IsChain parents) done c.chains
  covered : ∀ leaf l b, leaf ∈ done → RootPath parents leaf l → b ∈ l → c.assigned[b]? ≠ some none
  inside : ∀ b k, c.assigned[b]? = some (some k) → ∃ leaf l, done[k]? = some leaf ∧ RootPath parents leaf l ∧ b ∈ l

theorem buildFrom_spec {parents : List Nat} (hv : ParentsValid parents)
    (hpath : ∀ i, i < parents.length → ∃ l, RootPath parents i l ∧ l.length ≤ parents.length)
    (leaf : List (BitVec 32)) (hs : Sized parents.length leaf)
    (hleaf : ∀ i, i < parents.length → bsBit leaf i = decide (i ∉ parents)) (fuel : Nat) (hf : parents.length < fuel)
    (todo : List Nat) (ht : ∀ i ∈ todo, i < parents.length) (done : List Nat) (c : Chains) (hc : Inv parents done c) :
    ∃ c', buildFrom parents leaf fuel todo c = some c' ∧
      Inv parents (done ++ todo.filter (fun i => decide (i ∉ parents))) c' := by
  induction todo generalizing done c with
  | nil => exact ⟨c, rfl, by simpa using hc⟩
  | cons i rest ih =>
    have hi := ht i List.mem_cons_self
    have hrest : ∀ j ∈ rest, j < parents.length := fun j hj => ht j (List.mem_cons_of_mem _ hj)
    have htest := bitsetTest_eq leaf i (sized_lt hs hi)
    rw [hleaf i hi] at htest
    by_cases hmem : i ∈ parents
    · obtain ⟨c', e, h'⟩ := ih hrest done c hc
      refine ⟨c', ?_, ?_⟩
      · simp [buildFrom, htest, hmem, e]
      · rw [List.filter_cons_of_neg (by simpa using hmem)]; exact h'
    · obtain ⟨l, hl, hlen⟩ := hpath i hi
      have hn : parents.length ≤ invalidIndex := by unfold ParentsValid at hv; exact hv.1
      obtain ⟨bits, assigned, ew, hbs, hal, hbits, hass⟩ := walk_spec hn c.chains.length hl fuel (by omega)
        (emptyBits parents.length) c.assigned (sized_empty _) hc.len
      have hlen' := hc.chains.length_eq
      have hinv : Inv parents (done ++ [i]) { chains := c.chains ++ [bits], assigned := assigned } := by
        refine ⟨hal, ?_, ?_, ?_⟩
        · apply List.rel_append hc.chains
          refine List.Forall₂.cons ⟨l, hl, hbs, ?_⟩ .nil
          intro j; rw [hbits j, empty_bit, Bool.false_or]
        · intro lf path b hlf hpb hb
          have hblt := hpb.all_lt b hb
          rw [show ({ chains := c.chains ++ [bits], assigned := assigned } : Chains).assigned = assigned from rfl,
            hass b hblt]
          split
          · simp
          · rename_i hno
            rcases List.mem_append.1 hlf with h | h
            · exact hc.covered lf path b h hpb hb
            · rw [List.mem_singleton] at h; subst h
              rw [hpb.unique hl] at hb
              exact fun hh => hno ⟨hb, hh⟩
        · intro b k hbk
          change assigned[b]? = some (some k) at hbk
          have hblt : b < parents.length := by
            have := (List.getElem?_eq_some_iff.1 hbk).1; omega
          rw [hass b hblt] at hbk
          split at hbk
          · rename_i hyes
            cases hbk
            exact ⟨i, l, by rw [← hlen']; simp, hl, hyes.1⟩
          · obtain ⟨lf, path, h1, h2, h3⟩ := hc.inside b k hbk
            exact ⟨lf, path, by rw [List.getElem?_append_left (List.getElem?_eq_some_iff.1 h1).1]; exact h1, h2, h3⟩
      obtain ⟨c', e, h'⟩ := ih hrest _ _ hinv
      refine ⟨c', ?_, ?_⟩
      · simp [buildFrom, htest, hmem, ew, e]
      · rw [List.filter_cons_of_pos (by simpa using hmem)]
        rw [List.append_assoc] at h'; exact h'

/-- Every transform is on the path of some leaf. -/
theorem exists_leaf {parents : List Nat} (ho : Ordered parents) (hn : parents.length ≤ invalidIndex) {b : Nat}
    (hb : b < parents.length) :
    ∃ leaf l, leaf < parents.length ∧ leaf ∉ parents ∧ RootPath parents leaf l ∧ b ∈ l := by
  obtain ⟨d, hd⟩ : ∃ d, d = parents.length - b := ⟨_, rfl⟩
  induction d using Nat.strong_induction_on generalizing b with
  | _ d ih =>
    by_cases hm : b ∈ parents
    · obtain ⟨c, hc⟩ := List.mem_iff_getElem?.1 hm
      have hclt := (List.getElem?_eq_some_iff.1 hc).1
      have hbc : b < c := (ho c b hc).resolve_left (by omega)
      obtain ⟨leaf, l, h1, h2, h3, h4⟩ := ih (parents.length - c) (by omega) hclt rfl
      obtain ⟨pc, t, e, hpc⟩ := h3.prefix h4
      obtain ⟨lb, hlb⟩ := RootPath.exists_of_ordered ho hb
      have := hpc.unique (.child hc (by omega) hlb)
      refine ⟨leaf, l, h1, h2, h3, ?_⟩
      rw [e, this]
      simp [hlb.self_mem]
    · obtain ⟨l, hl⟩ := RootPath.exists_of_ordered ho hb
      exact ⟨b, l, hb, hm, hl, hl.self_mem⟩

theorem ascending_length {l : List Nat} {n : Nat} (h : l.Pairwise (· < ·)) (hl : ∀ j ∈ l, j < n) : l.length ≤ n := by
  have hnd : l.Nodup := h.imp (fun h => Nat.ne_of_lt h)
  have hsub : l ⊆ List.range n := fun j hj => List.mem_range.2 (hl j hj)
  have := (List.subperm_of_subset hnd hsub).length_le
  simpa using this

theorem build_spec {parents : List Nat} (hv : ParentsValid parents) (ho : Ordered parents) (fuel : Nat)
    (hf : parents.length < fuel) :
    ∃ c, build parents fuel = some c ∧
      Inv parents ((List.range parents.length).filter (fun i => decide (i ∉ parents))) c := by
  obtain ⟨leaf, el, hs, hleaf⟩ := leafBits_spec parents hv
  obtain ⟨c, e, h⟩ := buildFrom_spec hv
    (fun i hi => by
      obtain ⟨l, hl⟩ := RootPath.exists_of_ordered ho hi
      exact ⟨l, hl, ascending_length (hl.ascending ho).1 hl.all_lt⟩)
    leaf hs hleaf fuel hf (List.range parents.length) (fun i hi => List.mem_range.1 hi) []
    { chains := [], assigned := List.replicate parents.length none }
    ⟨by simp, .nil, by simp, by
      intro b k hbk
      have := List.getElem?_eq_some_iff.1 hbk
      obtain ⟨h1, h2⟩ := this
      simp at h2⟩
  exact ⟨c, by simp [build, el, e], by simpa using h⟩

/-! ### Iterating over a chain -/

theorem findRoot_spec (bits : List (BitVec 32)) (b : Nat) (hb : b / 32 < bits.length) (hbit : bsBit bits b = true)
    (fuel s : Nat) (hs : s ≤ b) (hf : b - s < fuel) :
    ∃ r, findRoot bits fuel s = some r ∧ s ≤ r ∧ r ≤ b ∧ bsBit bits r = true ∧ ∀ j, s ≤ j → j < r → bsBit bits j = false := by
  induction fuel generalizing s with
  | zero => omega
  | succ f ih =>
    have ht := bitsetTest_eq bits s (by omega)
    cases hv : bsBit bits s with
    | true =>
      exact ⟨s, by simp [findRoot, ht, hv], le_rfl, hs, hv, fun j h1 h2 => by omega⟩
    | false =>
      have hne : s ≠ b := by rintro rfl; rw [hbit] at hv; cases hv
      obtain ⟨r, e, h1, h2, h3, h4⟩ := ih (s + 1) (by omega) (by omega)
      refine ⟨r, by simp [findRoot, ht, hv, e], by omega, h2, h3, ?_⟩
      intro j hj1 hj2
      by_cases hjs : j = s
      · rw [hjs, hv]
      · exact h4 j (by omega) hj2

theorem skipTo_spec (bits : List (BitVec 32)) (b : Nat) (hb : b / 32 < bits.length) (fuel s : Nat) (hs : s ≤ b)
    (hf : b - s < fuel) (hbit : bsBit bits b = true) :
    ∃ r, skipTo bits b fuel s = some r ∧ s ≤ r ∧ r ≤ b ∧ bsBit bits r = true ∧ ∀ j, s ≤ j → j < r → bsBit bits j = false := by
  induction fuel generalizing s with
  | zero => omega
  | succ f ih =>
    by_cases hsb : s = b
    · subst hsb
      exact ⟨s, by simp [skipTo], le_rfl, le_rfl, hbit, fun j h1 h2 => by omega⟩
    · have hlt : s < b := by omega
      have ht := bitsetTest_eq bits s (by omega)
      cases hv : bsBit bits s with
      | true => exact ⟨s, by simp [skipTo, hlt, ht, hv], le_rfl, hs, hv, fun j h1 h2 => by omega⟩
      | false =>
        obtain ⟨r, e, h1, h2, h3, h4⟩ := ih (s + 1) (by omega) (by omega)
        refine ⟨r, by simp [skipTo, hlt, ht, hv, e], by omega, h2, h3, ?_⟩
        intro j hj1 hj2
        by_cases hjs : j = s
        · rw [hjs, hv]
        · exact h4 j (by omega) hj2

/-- The loop visits the set bits from `s` to `b`, ascending. -/
theorem iterate_spec (bits : List (BitVec 32)) (b : Nat) (hb : b / 32 < bits.length) (hbit : bsBit bits b = true)
    (fuel s : Nat) (hs : s ≤ b) (hf : b + 1 - s < fuel) (hsb : bsBit bits s = true) :
    ∃ l, iterate bits b fuel s = some l ∧ l.Pairwise (· < ·) ∧
      ∀ j, j ∈ l ↔ (s ≤ j ∧ j ≤ b ∧ bsBit bits j = true) := by
  induction fuel generalizing s with
  | zero => omega
  | succ f ih =>
    have hne : s ≠ b + 1 := by omega
    by_cases hlast : s = b
    · subst hlast
      obtain ⟨f', rfl⟩ : ∃ f', f = f' + 1 := ⟨f - 1, by omega⟩
      refine ⟨[s], ?_, List.pairwise_singleton _ _, ?_⟩
      · simp [iterate, skipTo]
      · intro j; rw [List.mem_singleton]
        constructor
        · rintro rfl; exact ⟨le_rfl, le_rfl, hbit⟩
        · rintro ⟨h1, h2, -⟩; omega
    · obtain ⟨r, e, h1, h2, h3, h4⟩ := skipTo_spec bits b hb (b + 2) (s + 1) (by omega) (by omega) hbit
      obtain ⟨l, el, hp, hm⟩ := ih r h2 (by omega) h3
      refine ⟨s :: l, by simp [iterate, hne, e, el], ?_, ?_⟩
      · refine List.pairwise_cons.2 ⟨?_, hp⟩
        intro j hj; have := (hm j).1 hj; omega
      · intro j; rw [List.mem_cons, hm j]
        constructor
        · rintro (rfl | ⟨a1, a2, a3⟩)
          · exact ⟨le_rfl, hs, hsb⟩
          · exact ⟨by omega, a2, a3⟩
        · rintro ⟨a1, a2, a3⟩
          by_cases hjs : j = s
          · exact Or.inl hjs
          · right
            refine ⟨?_, a2, a3⟩
            by_contra hlt
            have := h4 j (by omega) (by omega)
            rw [a3] at this; cases this

/-- Two ascending lists with the same members are equal. -/
theorem ascending_ext {l l' : List Nat} (h : l.Pairwise (· < ·)) (h' : l'.Pairwise (· < ·)) (hm : ∀ j, j ∈ l ↔ j ∈ l') :
    l = l' := by
  have p : l.Perm l' := (List.perm_ext_iff_of_nodup (h.imp (fun h => Nat.ne_of_lt h)) (h'.imp (fun h => Nat.ne_of_lt h))).2 hm
  exact p.eq_of_pairwise (fun a b _ _ h1 h2 => by omega) h h'

end Acl.Hierarchy

namespace Acl.Hierarchy
open Acl Acl.Raw

theorem boneChain_spec {parents : List Nat} (hv : ParentsValid parents) (ho : Ordered parents) (fuel : Nat)
    (hf : parents.length < fuel) :
    ∃ c, build parents fuel = some c ∧
      ∀ b, b < parents.length → ∃ path, RootPath parents b path ∧ boneChain c b = some path := by
  obtain ⟨c, ec, hc⟩ := build_spec hv ho fuel hf
  refine ⟨c, ec, ?_⟩
  intro b hb
  have hn : parents.length ≤ invalidIndex := by unfold ParentsValid at hv; exact hv.1
  obtain ⟨leaf, l, hlt, hleaf, hl, hbl⟩ := exists_leaf ho hn hb
  have hcov := hc.covered leaf l b (List.mem_filter.2 ⟨List.mem_range.2 hlt, by simpa using hleaf⟩) hl hbl
  have hblen : b < c.assigned.length := by rw [hc.len]; exact hb
  obtain ⟨k, hba⟩ : ∃ k, c.assigned[b]? = some (some k) := by
    have hba : c.assigned[b]? = some c.assigned[b] := List.getElem?_eq_getElem hblen
    cases hh : c.assigned[b] with
    | none => rw [hh] at hba; exact absurd hba hcov
    | some k => exact ⟨k, by rw [hba, hh]⟩
  obtain ⟨leaf', l', hdone, hl', hbl'⟩ := hc.inside b k hba
  have hlen := hc.chains.length_eq
  have hklt := (List.getElem?_eq_some_iff.1 hdone).1
  have hkc : k < c.chains.length := by omega
  have hck : c.chains[k]? = some c.chains[k] := List.getElem?_eq_getElem hkc
  have hch := hc.chains.get hklt hkc
  simp only [List.get_eq_getElem] at hch
  rw [(List.getElem?_eq_some_iff.1 hdone).2] at hch
  obtain ⟨l'', hl'', hsz, hbits⟩ := hch
  rw [hl''.unique hl'] at hbits
  obtain ⟨bits, ebits⟩ : ∃ bits, bits = c.chains[k] := ⟨_, rfl⟩
  rw [← ebits] at hbits hsz hck
  have hb32 := sized_lt hsz hb
  have hbit : bsBit bits b = true := by rw [hbits b]; simpa using hbl'
  obtain ⟨r, er, hr1, hr2, hr3, hr4⟩ := findRoot_spec bits b hb32 hbit (32 * bits.length + 1) 0 (by omega) (by omega)
  obtain ⟨m, em, hpm, hmm⟩ := iterate_spec bits b hb32 hbit (b + 2) r hr2 (by omega) hr3
  obtain ⟨pb, t, epb, hpb⟩ := hl'.prefix hbl'
  refine ⟨pb, hpb, ?_⟩
  have hasc := hl'.ascending ho
  have hmeq : m = pb := by
    apply ascending_ext hpm (hpb.ascending ho).1
    intro j
    rw [hmm j, hbits j]
    constructor
    · rintro ⟨h1, h2, h3⟩
      have h3 : j ∈ l' := by simpa using h3
      rw [epb] at h3
      rcases List.mem_append.1 h3 with h | h
      · exact h
      · have hp := hasc.1
        rw [epb] at hp
        have := (List.pairwise_append.1 hp).2.2 b hpb.self_mem j h
        omega
    · intro hj
      have hjl : j ∈ l' := by rw [epb]; exact List.mem_append_left _ hj
      refine ⟨?_, (hpb.ascending ho).2 j hj, by simpa using hjl⟩
      by_contra hlt
      have := hr4 j (by omega) (by omega)
      rw [hbits j] at this
      simp [hjl] at this
  simp only [boneChain, hba, hck, er, Option.bind_eq_bind, Option.bind_some]
  rw [em, hmeq]

theorem skipTo_ge (bits : List (BitVec 32)) (b fuel s r : Nat) (h : skipTo bits b fuel s = some r) : s ≤ r := by
  induction fuel generalizing s with
  | zero => simp [skipTo] at h
  | succ f ih =>
    unfold skipTo at h
    split at h
    · cases ht : bitsetTest bits s with
      | none => rw [ht] at h; simp at h
      | some v =>
        rw [ht] at h
        cases v with
        | true => simp at h; omega
        | false => simp at h; have := ih _ h; omega
    · simp at h; omega

theorem iterate_past (bits : List (BitVec 32)) (b fuel s : Nat) (hs : b + 2 ≤ s) : iterate bits b fuel s = none := by
  induction fuel generalizing s with
  | zero => rfl
  | succ f ih =>
    have hne : s ≠ b + 1 := by omega
    simp only [iterate, hne, if_false, Option.bind_eq_bind, Option.pure_def]
    cases h : skipTo bits b (b + 2) (s + 1) with
    | none => rfl
    | some r =>
      have := skipTo_ge _ _ _ _ _ h
      simp [ih r (by omega)]

theorem iterate_le (bits : List (BitVec 32)) (b fuel s : Nat) (l : List Nat) (h : iterate bits b fuel s = some l) :
    ∀ j ∈ l, j ≤ b := by
  induction fuel generalizing s l with
  | zero => simp [iterate] at h
  | succ f ih =>
    by_cases hne : s = b + 1
    · simp [iterate, hne] at h; subst h; simp
    · have hs : s ≤ b := by
        by_contra hh
        rw [iterate_past bits b _ s (by omega)] at h; cases h
      simp only [iterate, hne, if_false, Option.bind_eq_bind, Option.pure_def] at h
      cases hk : skipTo bits b (b + 2) (s + 1) with
      | none => rw [hk] at h; simp at h
      | some r =>
        rw [hk] at h
        simp only [Option.bind_some] at h
        cases hi : iterate bits b f r with
        | none => rw [hi] at h; simp at h
        | some l' =>
          rw [hi] at h
          simp at h
          subst h
          intro j hj
          rcases List.mem_cons.1 hj with rfl | hj
          · exact hs
          · exact ih _ _ hi j hj

/-! ### The parent first order -/

theorem sortLe_key (parents : List Nat) (hp : ∀ p ∈ parents, p < 2 ^ 32) (a b : Nat) :
    sortLe parents a b = true ↔
      ((parents.getD a 0 + 1) % 2 ^ 32 < (parents.getD b 0 + 1) % 2 ^ 32 ∨
        ((parents.getD a 0 + 1) % 2 ^ 32 = (parents.getD b 0 + 1) % 2 ^ 32 ∧ a ≤ b)) := by
  have hlt : ∀ a, parents.getD a 0 < 2 ^ 32 := by
    intro a
    simp only [List.getD_eq_getElem?_getD]
    cases h : parents[a]? with
    | none => simp
    | some p => exact hp p (List.mem_of_getElem? h)
  have h1 := hlt a
  have h2 := hlt b
  unfold sortLe
  dsimp only
  generalize parents.getD a 0 = x at *
  generalize parents.getD b 0 = y at *
  by_cases h : x = y
  · subst h; simp
  · rw [if_pos h]
    have : (x + 1) % 2 ^ 32 ≠ (y + 1) % 2 ^ 32 := by omega
    simp only [decide_eq_true_eq]
    constructor
    · exact Or.inl
    · rintro (h | ⟨h, -⟩)
      · exact h
      · exact absurd h this

theorem sort_perm (parents : List Nat) : (sortParentFirst parents).Perm (List.range parents.length) :=
  List.perm_insertionSort _ _

theorem sort_pairwise (parents : List Nat) (hp : ∀ p ∈ parents, p < 2 ^ 32) :
    (sortParentFirst parents).Pairwise (fun a b => sortLe parents a b = true) := by
  haveI : Std.Total (fun a b => sortLe parents a b = true) := ⟨by
    intro a b
    rw [sortLe_key parents hp, sortLe_key parents hp]
    omega⟩
  haveI : IsTrans Nat (fun a b => sortLe parents a b = true) := ⟨by
    intro a b c h1 h2
    rw [sortLe_key parents hp] at *
    omega⟩
  exact List.pairwise_insertionSort _ _

theorem before_of_sorted {parents : List Nat} (hv : ParentsValid parents) (ho : Ordered parents) {i p : Nat}
    (hi : parents[i]? = some p) (hne : p ≠ invalidIndex) : Before (sortParentFirst parents) p i := by
  have hv' := hv
  unfold ParentsValid at hv'
  obtain ⟨hn, hpv⟩ := hv'
  have hilt := (List.getElem?_eq_some_iff.1 hi).1
  have hpi : p < i := (ho i p hi).resolve_left hne
  have hinv : invalidIndex = 2 ^ 32 - 1 := rfl
  have hp32 : ∀ q ∈ parents, q < 2 ^ 32 := by
    intro q hq; have := hpv q hq; omega
  have hperm := sort_perm parents
  have hpw := sort_pairwise parents hp32
  have hmem : i ∈ sortParentFirst parents := hperm.mem_iff.2 (List.mem_range.2 hilt)
  have hpm : p ∈ sortParentFirst parents := hperm.mem_iff.2 (List.mem_range.2 (by omega))
  obtain ⟨l₁, l₂, e⟩ := List.append_of_mem hmem
  rw [e] at hpm hpw
  rcases List.mem_append.1 hpm with h | h
  · obtain ⟨k₁, k₂, ek⟩ := List.append_of_mem h
    exact ⟨k₁, k₂, l₂, by rw [e, ek, List.append_assoc, List.cons_append]⟩
  · rcases List.mem_cons.1 h with h | h
    · omega
    · exfalso
      have hle := (List.pairwise_cons.1 (List.pairwise_append.1 hpw).2.1).1 p h
      rw [sortLe_key parents hp32] at hle
      have hplt : p < parents.length := by omega
      have hgp : parents[p]? = some parents[p] := List.getElem?_eq_getElem hplt
      have hq := ho p _ hgp
      have hgi : parents.getD i 0 = p := by simp [hi]
      have hgp' : parents.getD p 0 = parents[p] := by simp [hgp]
      rw [hgi, hgp'] at hle
      omega

/-! ### Object space -/

theorem ObjectOf.unique {T : Type} {mul : T → T → T} {parents : List Nat} {locals : List T} {i : Nat} {x y : T}
    (h : ObjectOf mul parents locals i x) (h' : ObjectOf mul parents locals i y) : x = y := by
  induction h generalizing y with
  | root hr hx =>
    cases h' with
    | root _ hy => rw [hx] at hy; exact Option.some.inj hy
    | child hp hne _ _ => rw [hr] at hp; exact absurd (Option.some.inj hp).symm hne
  | child hp hne hx _ ih =>
    cases h' with
    | root hr _ => rw [hp] at hr; exact absurd (Option.some.inj hr) hne
    | child hp' _ hx' hy =>
      rw [hp] at hp'; cases Option.some.inj hp'
      rw [hx] at hx'; cases Option.some.inj hx'
      rw [ih hy]

/-- Every transform of `dirty` is a root or comes after its parent, which is in `done` or earlier in the list. -/
def Closed (parents done dirty : List Nat) : Prop :=
  ∀ l₁ i l₂, dirty = l₁ ++ i :: l₂ → ∃ p, parents[i]? = some p ∧ (p = invalidIndex ∨ p ∈ done ∨ p ∈ l₁)

theorem localToObject_spec {T : Type} (mul : T → T → T) (parents : List Nat) (locals : List T)
    (hl : locals.length = parents.length) (dirty done : List Nat) (hc : Closed parents done dirty) (out : List T)
    (ho : out.length = parents.length)
    (hd : ∀ j ∈ done, ∃ x, out[j]? = some x ∧ ObjectOf mul parents locals j x) :
    ∃ out', localToObject mul parents locals dirty out = some out' ∧ out'.length = parents.length ∧
      (∀ j, j ∈ done ∨ j ∈ dirty → ∃ x, out'[j]? = some x ∧ ObjectOf mul parents locals j x) ∧
      ∀ j, j ∉ dirty → out'[j]? = out[j]? := by
  induction dirty generalizing done out with
  | nil => exact ⟨out, rfl, ho, fun j hj => hd j (by simpa using hj), fun _ _ => rfl⟩
  | cons i rest ih =>
    obtain ⟨p, hp, hpc⟩ := hc [] i rest rfl
    have hi := (List.getElem?_eq_some_iff.1 hp).1
    have hx : locals[i]? = some locals[i] := List.getElem?_eq_getElem (by omega)
    obtain ⟨v, hv, hov⟩ : ∃ v, objectTransform mul p locals[i] out = some v ∧
        ObjectOf mul parents locals i v := by
      by_cases hinv : p = invalidIndex
      · exact ⟨_, by rw [objectTransform, if_pos hinv], .root (by rw [hp, hinv]) hx⟩
      · have hpd : p ∈ done := by
          rcases hpc with h | h | h
          · exact absurd h hinv
          · exact h
          · simp at h
        obtain ⟨y, ey, hy⟩ := hd p hpd
        exact ⟨mul locals[i] y, by rw [objectTransform, if_neg hinv, ey]; rfl, .child hp hinv hx hy⟩
    have hc' : Closed parents (i :: done) rest := by
      intro l₁ j l₂ e
      obtain ⟨q, hq, hqc⟩ := hc (i :: l₁) j l₂ (by rw [e, List.cons_append])
      refine ⟨q, hq, ?_⟩
      rcases hqc with h | h | h
      · exact Or.inl h
      · exact Or.inr (Or.inl (List.mem_cons_of_mem _ h))
      · rcases List.mem_cons.1 h with h | h
        · exact Or.inr (Or.inl (by rw [h]; exact List.mem_cons_self))
        · exact Or.inr (Or.inr h)
    obtain ⟨out', e, hlen, hall, hrest⟩ := ih (i :: done) hc' (out.set i v) (by simp [ho]) (by
      intro j hj
      by_cases hji : j = i
      · subst hji; exact ⟨v, by simp [ho, hi], hov⟩
      · rcases List.mem_cons.1 hj with h | h
        · exact absurd h hji
        · obtain ⟨x, ex, hxo⟩ := hd j h
          exact ⟨x, by rw [List.getElem?_set_ne (Ne.symm hji)]; exact ex, hxo⟩)
    refine ⟨out', ?_, hlen, ?_, ?_⟩
    · simp only [localToObject, hp, hx, Option.bind_eq_bind, Option.bind_some]
      rw [hv]; exact e
    · intro j hj
      apply hall j
      rcases hj with h | h
      · exact Or.inl (List.mem_cons_of_mem _ h)
      · rcases List.mem_cons.1 h with h | h
        · exact Or.inl (by rw [h]; exact List.mem_cons_self)
        · exact Or.inr h
    · intro j hj
      rw [List.mem_cons, not_or] at hj
      rw [hrest j hj.2, List.getElem?_set_ne (Ne.symm hj.1)]

theorem closed_path {parents : List Nat} {i : Nat} {path : List Nat} (h : RootPath parents i path) :
    Closed parents [] path := by
  induction h with
  | @root i hr =>
    intro l₁ j l₂ e
    have : l₁ = [] := by
      cases l₁ with
      | nil => rfl
      | cons a t => simp at e
    subst this
    simp at e
    rw [← e.1]
    exact ⟨_, hr, Or.inl rfl⟩
  | @child i p path hp hne hpath ih =>
    intro l₁ j l₂ e
    rcases List.append_eq_append_iff.1 e with ⟨t, e1, e2⟩ | ⟨t, e1, e2⟩
    · cases t with
      | nil =>
        simp at e2 e1
        rw [← e2.1]
        exact ⟨p, hp, Or.inr (Or.inr (by rw [e1]; exact hpath.self_mem))⟩
      | cons a t =>
        simp at e2
    · cases t with
      | nil =>
        simp at e2 e1
        rw [e2.1]
        exact ⟨p, hp, Or.inr (Or.inr (by rw [← e1]; exact hpath.self_mem))⟩
      | cons a t =>
        simp at e2
        obtain ⟨rfl, e2⟩ := e2
        exact ih l₁ j t e1

theorem closed_range {parents : List Nat} (ho : Ordered parents) : Closed parents [] (List.range parents.length) := by
  intro l₁ j l₂ e
  have hmem : j ∈ List.range parents.length := by rw [e]; simp
  have hj := List.mem_range.1 hmem
  have hg : parents[j]? = some parents[j] := List.getElem?_eq_getElem hj
  refine ⟨_, hg, ?_⟩
  rcases ho j _ hg with h | h
  · exact Or.inl h
  · refine Or.inr (Or.inr ?_)
    have hpm : parents[j] ∈ List.range parents.length := List.mem_range.2 (by omega)
    rw [e] at hpm
    have hpw := List.pairwise_lt_range (n := parents.length)
    rw [e] at hpw
    rcases List.mem_append.1 hpm with h' | h'
    · exact h'
    · rcases List.mem_cons.1 h' with h' | h'
      · omega
      · have := (List.pairwise_cons.1 (List.pairwise_append.1 hpw).2.1).1 _ h'
        omega

theorem closed_sorted {parents : List Nat} (hv : ParentsValid parents) (ho : Ordered parents) :
    Closed parents [] (sortParentFirst parents) := by
  intro l₁ j l₂ e
  have hperm := sort_perm parents
  have hnd : (sortParentFirst parents).Nodup := hperm.nodup_iff.2 List.nodup_range
  have hj : j < parents.length := List.mem_range.1 (hperm.mem_iff.1 (by rw [e]; simp))
  have hg : parents[j]? = some parents[j] := List.getElem?_eq_getElem hj
  refine ⟨_, hg, ?_⟩
  by_cases hinv : parents[j] = invalidIndex
  · exact Or.inl hinv
  · refine Or.inr (Or.inr ?_)
    obtain ⟨k₁, k₂, k₃, ek⟩ := before_of_sorted hv ho hg hinv
    have hek := ek
    rw [e] at hek hnd
    have hk : k₁ ++ parents[j] :: (k₂ ++ j :: k₃) = (k₁ ++ parents[j] :: k₂) ++ j :: k₃ := by simp
    rw [hk] at hek
    have hj1 : j ∉ l₁ := by
      have := (List.nodup_append.1 hnd).2.2
      intro hh; exact this j hh j List.mem_cons_self rfl
    have hj2 : j ∉ l₂ := (List.nodup_cons.1 (List.nodup_append.1 hnd).2.1).1
    rcases List.append_eq_append_iff.1 hek with ⟨t, e1, e2⟩ | ⟨t, e1, e2⟩
    · cases t with
      | nil => rw [List.append_nil] at e1; rw [← e1]; simp
      | cons a t =>
        simp at e2
        exfalso; apply hj2; rw [e2.2]; simp
    · rw [e1]; simp

end Acl.Hierarchy
