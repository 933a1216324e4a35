import Verif.Raw.TrackArray
import Mathlib.Data.List.Nodup
import Mathlib.Data.List.Perm.Subperm
import Mathlib.Data.List.Range
import Mathlib.Tactic.Common
/-!
C31: the output tracks of a valid track array are in bijection with its tracks that are not stripped.
-/
namespace Acl.C31
open Acl.Raw

/-- Specification: the output indices of the tracks that are not stripped. -/
def outputs (a : TrackArray) : List Nat := (a.tracks.map (·.outputIndex)).filter fun o => o != invalidIndex

theorem countOutputs_spec (numTracks : Nat) (l : List Nat) (n k : Nat) :
    countOutputs numTracks l n = some k ↔
      (∀ o ∈ l, o = invalidIndex ∨ o < numTracks) ∧ (l.filter fun o => o != invalidIndex).Nodup ∧
      k = n + (l.filter fun o => o != invalidIndex).length := by
  induction l generalizing n with
  | nil => simp [countOutputs, eq_comm]
  | cons o rest ih =>
    rw [countOutputs]
    by_cases ho : o = invalidIndex
    · rw [if_neg (by simp [ho]), if_neg (by simp [ho]), ih]
      simp [ho]
    · by_cases hlt : numTracks ≤ o
      · rw [if_pos ⟨ho, hlt⟩]
        simp only [reduceCtorEq, false_iff]
        rintro ⟨h, -⟩
        rcases h o List.mem_cons_self with h | h
        · exact ho h
        · omega
      · rw [if_neg (by simp [hlt]), if_pos ho]
        have hmem : (rest.any fun o2 => o == o2) = true ↔ o ∈ rest := by
          rw [List.any_eq_true]
          exact ⟨fun ⟨x, hx, e⟩ => by rw [beq_iff_eq.mp e]; exact hx, fun h => ⟨o, h, beq_self_eq_true o⟩⟩
        have hf : ((o :: rest).filter fun o => o != invalidIndex) = o :: rest.filter fun o => o != invalidIndex := by
          rw [List.filter_cons_of_pos (by simp [ho])]
        rw [hf, List.nodup_cons, List.length_cons]
        have hmem2 : o ∈ (rest.filter fun o => o != invalidIndex) ↔ o ∈ rest := by
          rw [List.mem_filter]; simp [ho]
        split
        · next h =>
          simp only [reduceCtorEq, false_iff]
          rintro ⟨-, ⟨h2, -⟩, -⟩
          exact h2 (hmem2.mpr (hmem.mp h))
        · next h =>
          rw [ih, hmem2]
          have h' : o ∉ rest := fun hc => h (hmem.mpr hc)
          simp only [List.forall_mem_cons]
          constructor
          · rintro ⟨a, b, c⟩
            exact ⟨⟨Or.inr (by omega), a⟩, ⟨h', b⟩, by omega⟩
          · rintro ⟨⟨-, a⟩, ⟨-, b⟩, c⟩
            exact ⟨a, b, by omega⟩

/-- The part of validation about output indices is exact: it accepts the arrays whose output indices, stripped tracks
aside, are 0 to k - 1, each once. -/
theorem C31_valid_outputs (a : TrackArray) (hlen : a.tracks.length < 2 ^ 32) :
    (∃ n, countOutputs a.tracks.length (a.tracks.map (·.outputIndex)) 0 = some n ∧
      contiguous (a.tracks.map (·.outputIndex)) n = true) ↔
    ∃ k, (outputs a).Perm (List.range k) := by
  have hle : (outputs a).length ≤ a.tracks.length := by
    unfold outputs
    exact (List.length_filter_le _ _).trans (by simp)
  constructor
  · rintro ⟨n, h1, h2⟩
    obtain ⟨a1, a2, a3⟩ := (countOutputs_spec _ _ _ _).mp h1
    refine ⟨n, ?_⟩
    have hsub : List.range n ⊆ outputs a := by
      intro k hk
      unfold contiguous at h2
      rw [List.all_eq_true] at h2
      have := h2 k hk
      rw [List.any_eq_true] at this
      obtain ⟨x, hx, e⟩ := this
      have e' := beq_iff_eq.mp e
      subst e'
      unfold outputs
      refine List.mem_filter.mpr ⟨hx, ?_⟩
      have := List.mem_range.mp hk
      have : n = (outputs a).length := by rw [a3]; unfold outputs; omega
      have : (2 : Nat) ^ 32 - 1 = invalidIndex := rfl
      simp only [bne_iff_ne, ne_eq]
      omega
    have hp := (List.subperm_of_subset List.nodup_range hsub)
    refine (hp.perm_of_length_le ?_).symm
    rw [List.length_range, a3]; unfold outputs; omega
  · rintro ⟨k, hk⟩
    have hlen' : (outputs a).length = k := by rw [hk.length_eq, List.length_range]
    refine ⟨k, (countOutputs_spec _ _ _ _).mpr ⟨?_, ?_, ?_⟩, ?_⟩
    · intro o ho
      by_cases h : o = invalidIndex
      · exact Or.inl h
      · right
        have : o ∈ outputs a := List.mem_filter.mpr ⟨ho, by simp [h]⟩
        have := List.mem_range.mp (hk.mem_iff.mp this)
        omega
    · exact hk.nodup_iff.mpr List.nodup_range
    · rw [Nat.zero_add]; exact hlen'.symm
    · unfold contiguous
      rw [List.all_eq_true]
      intro x hx
      have : x ∈ outputs a := hk.mem_iff.mpr hx
      rw [List.any_eq_true]
      exact ⟨x, (List.mem_filter.mp this).1, beq_self_eq_true x⟩

theorem numOutputTracks_eq (a : TrackArray) : numOutputTracks a = (outputs a).length := by
  have key : ∀ (l : List Track) (n : Nat), l.length ≤ n →
      l.foldl (fun n t => if t.outputIndex = invalidIndex then n - 1 else n) n + l.length =
        n + ((l.map (·.outputIndex)).filter fun o => o != invalidIndex).length := by
    intro l
    induction l with
    | nil => intro n _; simp
    | cons t rest ih =>
      intro n hn
      rw [List.length_cons] at hn
      rw [List.foldl_cons, List.map_cons, List.length_cons]
      by_cases h : t.outputIndex = invalidIndex
      · rw [if_pos h, List.filter_cons_of_neg (by simp [h])]
        have := ih (n - 1) (by omega)
        omega
      · rw [if_neg h, List.filter_cons_of_pos (by simp [h]), List.length_cons]
        have := ih n (by omega)
        omega
  have := key a.tracks a.tracks.length le_rfl
  unfold numOutputTracks outputs
  omega

theorem fillMapping_spec (l : List Track) (i : Nat) (out : List Nat)
    (hb : ∀ t ∈ l, t.outputIndex = invalidIndex ∨ t.outputIndex < out.length)
    (hnd : ((l.map (·.outputIndex)).filter fun o => o != invalidIndex).Nodup) :
    ∃ m, fillMapping l i out = some m ∧ m.length = out.length ∧
      (∀ j (hj : j < l.length), l[j].outputIndex ≠ invalidIndex → m[l[j].outputIndex]? = some (i + j)) ∧
      (∀ k, (∀ t ∈ l, t.outputIndex ≠ k) → m[k]? = out[k]?) := by
  induction l generalizing i out with
  | nil => exact ⟨out, rfl, rfl, fun j hj => absurd hj (by simp), fun _ _ => rfl⟩
  | cons t rest ih =>
    rw [fillMapping]
    by_cases h : t.outputIndex = invalidIndex
    · rw [if_neg (by simp [h])]
      rw [List.map_cons, List.filter_cons_of_neg (by simp [h])] at hnd
      obtain ⟨m, h1, h2, h3, h4⟩ := ih (i + 1) out (fun t ht => hb t (List.mem_cons_of_mem _ ht)) hnd
      refine ⟨m, h1, h2, ?_, fun k hk => h4 k (fun t ht => hk t (List.mem_cons_of_mem _ ht))⟩
      intro j hj hne
      cases j with
      | zero => exact absurd h hne
      | succ j =>
        have := h3 j (by simpa using hj) hne
        rw [show i + (j + 1) = i + 1 + j by omega]
        exact this
    · rw [if_pos h]
      have hlt : t.outputIndex < out.length := (hb t List.mem_cons_self).resolve_left h
      rw [if_pos hlt]
      rw [List.map_cons, List.filter_cons_of_pos (by simp [h]), List.nodup_cons] at hnd
      obtain ⟨m, h1, h2, h3, h4⟩ := ih (i + 1) (out.set t.outputIndex i)
        (fun t ht => by rw [List.length_set]; exact hb t (List.mem_cons_of_mem _ ht)) hnd.2
      have hnot : ∀ t' ∈ rest, t'.outputIndex ≠ t.outputIndex := by
        intro t' ht' e
        exact hnd.1 (List.mem_filter.mpr ⟨List.mem_map.mpr ⟨t', ht', e⟩, by simp [h]⟩)
      refine ⟨m, h1, by rw [h2, List.length_set], ?_, ?_⟩
      · intro j hj hne
        cases j with
        | zero =>
          rw [List.getElem_cons_zero, h4 _ hnot, List.getElem?_set_self hlt]
          rfl
        | succ j =>
          have := h3 j (by simpa using hj) hne
          rw [show i + (j + 1) = i + 1 + j by omega]
          exact this
      · intro k hk
        rw [h4 k (fun t ht => hk t (List.mem_cons_of_mem _ ht)), List.getElem?_set_ne (hk t List.mem_cons_self)]

theorem valid_perm {a : TrackArray} (hv : a.isValid = true) (hlen : a.tracks.length < 2 ^ 32) :
    ∃ k, (outputs a).Perm (List.range k) := by
  apply (C31_valid_outputs a hlen).mp
  unfold TrackArray.isValid at hv
  rw [Bool.and_eq_true] at hv
  cases h : countOutputs a.tracks.length (a.tracks.map (·.outputIndex)) 0 with
  | none => rw [h] at hv; exact absurd hv.2 (by simp)
  | some n => rw [h] at hv; exact ⟨n, rfl, hv.2⟩

/-- Specification: `m` maps output tracks to input tracks, one to one and onto the tracks that are not stripped. -/
structure Bijection (a : TrackArray) (m : List Nat) : Prop where
  size : m.length = (outputs a).length
  track : ∀ o (ho : o < m.length), ∃ t, a.tracks[m[o]]? = some t ∧ t.outputIndex = o
  output : ∀ (i : Nat) (t : Track), a.tracks[i]? = some t → t.outputIndex ≠ invalidIndex → m[t.outputIndex]? = some i
  nodup : m.Nodup

/-- **C31.** The mapping from output tracks to input tracks of a valid array is a bijection; whatever the memory
contained, nothing of it is left and no write is out of bounds. -/
theorem C31_bijection (a : TrackArray) (hv : a.isValid = true) (hlen : a.tracks.length < 2 ^ 32) (garbage : Nat) :
    ∃ m, outputMapping garbage a = some m ∧ Bijection a m := by
  obtain ⟨k, hk⟩ := valid_perm hv hlen
  have hlen' : (outputs a).length = k := by rw [hk.length_eq, List.length_range]
  have hkl : k ≤ a.tracks.length := by
    rw [← hlen']; unfold outputs
    exact (List.length_filter_le _ _).trans (by simp)
  have hmem : ∀ t ∈ a.tracks, t.outputIndex = invalidIndex ∨ t.outputIndex < k := by
    intro t ht
    by_cases h : t.outputIndex = invalidIndex
    · exact Or.inl h
    · right
      have : t.outputIndex ∈ outputs a := List.mem_filter.mpr ⟨List.mem_map.mpr ⟨t, ht, rfl⟩, by simp [h]⟩
      exact List.mem_range.mp (hk.mem_iff.mp this)
  obtain ⟨m, h1, h2, h3, -⟩ := fillMapping_spec a.tracks 0 (List.replicate (numOutputTracks a) garbage)
    (by rw [List.length_replicate, numOutputTracks_eq, hlen']; exact hmem) (hk.nodup_iff.mpr List.nodup_range)
  rw [List.length_replicate, numOutputTracks_eq] at h2
  have hout : ∀ (i : Nat) (t : Track), a.tracks[i]? = some t → t.outputIndex ≠ invalidIndex → m[t.outputIndex]? = some i := by
    intro i t ht hne
    obtain ⟨hi, e⟩ := List.getElem?_eq_some_iff.mp ht
    subst e
    have := h3 i hi hne
    rwa [Nat.zero_add] at this
  have htrack : ∀ o (ho : o < m.length), ∃ t, a.tracks[m[o]]? = some t ∧ t.outputIndex = o := by
    intro o ho
    have : o ∈ outputs a := hk.mem_iff.mpr (List.mem_range.mpr (by omega))
    obtain ⟨h4, h5⟩ := List.mem_filter.mp this
    obtain ⟨t, ht, e⟩ := List.mem_map.mp h4
    obtain ⟨i, hi, e2⟩ := List.getElem_of_mem ht
    have e3 : a.tracks[i]? = some t := by rw [List.getElem?_eq_getElem hi, e2]
    have e4 := hout i t e3 (by rw [e]; simpa using h5)
    rw [e, List.getElem?_eq_getElem ho] at e4
    rw [Option.some.inj e4]
    exact ⟨t, e3, e⟩
  refine ⟨m, h1, h2, htrack, hout, ?_⟩
  rw [List.nodup_iff_injective_get]
  intro x y hxy
  obtain ⟨t, e1, e2⟩ := htrack x.1 x.2
  obtain ⟨t', e3, e4⟩ := htrack y.1 y.2
  have hxy' : m[x.1] = m[y.1] := hxy
  rw [hxy', e3] at e1
  have := Option.some.inj e1
  subst this
  exact Fin.ext (e2.symm.trans e4)

/-- `findOutputIndex` inverts the mapping. -/
theorem findOutputIndex_eq {a : TrackArray} {m : List Nat} (hm : Bijection a m) {i : Nat} {t : Track}
    (hi : a.tracks[i]? = some t) (hlen : a.tracks.length < 2 ^ 32) : findOutputIndex m i = t.outputIndex := by
  have hlt : i < a.tracks.length := (List.getElem?_eq_some_iff.mp hi).1
  have hne : i ≠ invalidIndex := by unfold invalidIndex; omega
  unfold findOutputIndex
  rw [if_neg hne]
  simp only []
  by_cases ho : t.outputIndex = invalidIndex
  · rw [if_neg, ho]
    intro hk
    have h1 := List.findIdx_getElem (p := fun t => t == i) (xs := m) (w := hk)
    obtain ⟨t', e1, e2⟩ := hm.track _ hk
    have e : m[m.findIdx fun t => t == i] = i := beq_iff_eq.mp h1
    rw [e, hi] at e1
    have := Option.some.inj e1
    subst this
    have : (outputs a).length ≤ a.tracks.length := by
      unfold outputs
      exact (List.length_filter_le _ _).trans (by simp)
    have := hm.size
    rw [ho] at e2
    unfold invalidIndex at e2
    omega
  · have h1 := hm.output i t hi ho
    obtain ⟨hl, e⟩ := List.getElem?_eq_some_iff.mp h1
    have hk : m.findIdx (fun t => t == i) < m.length := List.findIdx_lt_length_of_exists ⟨m[t.outputIndex], List.getElem_mem hl, by simp [e]⟩
    rw [if_pos hk]
    have h2 := List.findIdx_getElem (p := fun t => t == i) (xs := m) (w := hk)
    have e' : m[m.findIdx fun t => t == i] = i := beq_iff_eq.mp h2
    exact (List.Nodup.getElem_inj_iff hm.nodup).mp (e'.trans e.symm)

/-- **C31.** The parent stored for an output track is the output index of the parent of its input track; it is the invalid
index for a root and when the parent is stripped. -/
theorem C31_parents (a : TrackArray) (hv : a.isValid = true) (hq : a.type = .qvvf) (hlen : a.tracks.length < 2 ^ 32) (garbage : Nat) :
    ∃ m p, outputMapping garbage a = some m ∧ parentOutputIndices a m = some p ∧ p.length = (outputs a).length ∧
      ∀ (i : Nat) (t : Track), a.tracks[i]? = some t → t.outputIndex ≠ invalidIndex →
        (t.parentIndex = invalidIndex → p[t.outputIndex]? = some invalidIndex) ∧
        (t.parentIndex ≠ invalidIndex → ∃ parent, a.tracks[t.parentIndex]? = some parent ∧
          p[t.outputIndex]? = some parent.outputIndex) := by
  obtain ⟨m, h1, hm⟩ := C31_bijection a hv hlen garbage
  have hparent : ∀ t ∈ a.tracks, t.parentIndex = invalidIndex ∨ t.parentIndex < a.tracks.length := by
    intro t ht
    unfold TrackArray.isValid at hv
    rw [Bool.and_eq_true, List.all_eq_true] at hv
    have h2 := hv.1 t ht
    unfold trackOk at h2
    rw [Bool.and_eq_true] at h2
    have h3 := h2.2
    have h4 : t.type = a.type := by
      have := h2.1
      simp only [Bool.and_eq_true, beq_iff_eq] at this
      exact this.1.1.1
    rw [h4, hq] at h3
    by_cases h : t.parentIndex = invalidIndex
    · exact Or.inl h
    · right
      simp [h] at h3
      exact h3
  have hmap : ∃ p, parentOutputIndices a m = some p ∧ p.length = m.length ∧
      ∀ o (ho : o < m.length), p[o]? = (a.tracks[m[o]]?).map fun t => findOutputIndex m t.parentIndex := by
    unfold parentOutputIndices
    have hall : ∀ x ∈ m, ∃ t, a.tracks[x]? = some t := by
      intro x hx
      obtain ⟨o, ho, e⟩ := List.getElem_of_mem hx
      obtain ⟨t, e1, -⟩ := hm.track o ho
      rw [e] at e1
      exact ⟨t, e1⟩
    generalize (fun t : Track => findOutputIndex m t.parentIndex) = f
    clear h1 hm
    induction m with
    | nil => exact ⟨[], rfl, rfl, fun o ho => absurd ho (by simp)⟩
    | cons x rest ih =>
      obtain ⟨p, e1, e2, e3⟩ := ih (fun y hy => hall y (List.mem_cons_of_mem _ hy))
      obtain ⟨t, ht⟩ := hall x List.mem_cons_self
      refine ⟨f t :: p, ?_, by simp [e2], ?_⟩
      · rw [List.mapM_cons, ht, Option.map_some, e1]; rfl
      · intro o ho
        cases o with
        | zero => simp [ht]
        | succ o =>
          have := e3 o (by simpa using ho)
          simpa using this
  obtain ⟨p, hp1, hp2, hp3⟩ := hmap
  refine ⟨m, p, h1, hp1, hp2.trans hm.size, ?_⟩
  intro i t hi ho
  have h2 := hm.output i t hi ho
  obtain ⟨hl, e⟩ := List.getElem?_eq_some_iff.mp h2
  have h3 := hp3 _ hl
  rw [e, hi, Option.map_some] at h3
  rw [h3]
  refine ⟨fun hr => by rw [hr]; rfl, fun hr => ?_⟩
  have hlt := (hparent t (List.mem_of_getElem? hi)).resolve_left hr
  refine ⟨a.tracks[t.parentIndex], List.getElem?_eq_getElem hlt, ?_⟩
  rw [findOutputIndex_eq hm (List.getElem?_eq_getElem hlt) hlen]

/-- Four transforms: a root stripped, a reordering. -/
def example_array : TrackArray where
  tracks := [⟨.qvvf, [], 30, invalidIndex, invalidIndex, true, true⟩, ⟨.qvvf, [], 30, 2, 0, true, true⟩,
    ⟨.qvvf, [], 30, 0, 1, true, true⟩, ⟨.qvvf, [], 30, 1, 2, true, true⟩]
  looping := .clamp

example : example_array.isValid = true ∧ outputMapping 77 example_array = some [2, 3, 1] ∧
    parentOutputIndices example_array [2, 3, 1] = some [2, 0, invalidIndex] := by decide +kernel

end Acl.C31
