import Verif.Transform.HierarchyLemmas
import Mathlib.Tactic.Common
import Mathlib.Tactic.IntervalCases
/-!
C59: the hierarchy as the compressor sees it. When every transform comes after its parent, the chain of every transform is
the path from its root, the parent first order has every parent before its children, and local to object space yields the
product along that path whatever the output held. `track_array::is_valid` does not ask for that order, and without it all
three fail; nor does it reject cycles, on which the compressor never ends.
-/
namespace Acl.C59
open Acl Acl.Raw Acl.Hierarchy

/-- What `is_valid` guarantees about the parents of a list of transform tracks. -/
theorem valid_parents (a : TrackArray) (h : a.isValid = true) (ht : a.type = .qvvf) (hn : a.tracks.length < 2 ^ 32) :
    ParentsValid (a.tracks.map (·.parentIndex)) := by
  refine ⟨by rw [List.length_map]; unfold invalidIndex; omega, ?_⟩
  intro p hp
  obtain ⟨t, htm, rfl⟩ := List.mem_map.1 hp
  unfold TrackArray.isValid at h
  rw [Bool.and_eq_true, List.all_eq_true] at h
  have h2 := h.1 t htm
  unfold trackOk at h2
  simp only [Bool.and_eq_true, beq_iff_eq, Bool.not_eq_true', Bool.and_eq_false_iff, bne_eq_false_iff_eq,
    decide_eq_false_iff_not, beq_eq_false_iff_ne] at h2
  rw [List.length_map]
  rcases h2.2 with (h3 | h3) | h3
  · exact absurd (h2.1.1.1.1.trans ht) h3
  · exact Or.inl h3
  · exact Or.inr (by omega)

/-- The chain of a transform is the path from its root to it: its ancestors, root first, then itself. -/
theorem C59_chain (a : TrackArray) (h : a.isValid = true) (ht : a.type = .qvvf) (hn : a.tracks.length < 2 ^ 32)
    (ho : Ordered (a.tracks.map (·.parentIndex))) (steps : Nat) (hs : a.tracks.length < steps) :
    ∃ c, build (a.tracks.map (·.parentIndex)) steps = some c ∧
      ∀ bone, bone < a.tracks.length → ∃ path, RootPath (a.tracks.map (·.parentIndex)) bone path ∧
        boneChain c bone = some path := by
  have := boneChain_spec (valid_parents a h ht hn) ho steps (by rw [List.length_map]; exact hs)
  rw [List.length_map] at this
  exact this

/-- The parent first order lists every transform once, and every parent before its children. -/
theorem C59_parent_first (a : TrackArray) (h : a.isValid = true) (ht : a.type = .qvvf) (hn : a.tracks.length < 2 ^ 32)
    (ho : Ordered (a.tracks.map (·.parentIndex))) :
    (sortParentFirst (a.tracks.map (·.parentIndex))).Perm (List.range a.tracks.length) ∧
      ∀ (bone parent : Nat), (a.tracks.map (·.parentIndex))[bone]? = some parent → parent ≠ invalidIndex →
        Before (sortParentFirst (a.tracks.map (·.parentIndex))) parent bone := by
  refine ⟨?_, fun i p hi hp => before_of_sorted (valid_parents a h ht hn) ho hi hp⟩
  have := sort_perm (a.tracks.map (·.parentIndex))
  rw [List.length_map] at this
  exact this

/-- Converting the chain of a transform gives the object space transform of everything on its path, whatever the output
buffer held before, and leaves the others alone. -/
theorem C59_object_space_chain {T : Type} (mul : T → T → T) (parents : List Nat) (hv : ParentsValid parents)
    (ho : Ordered parents) (steps : Nat) (hs : parents.length < steps) (locals : List T)
    (hl : locals.length = parents.length) (bone : Nat) (hb : bone < parents.length) :
    ∃ (c : Chains) (path : List Nat), build parents steps = some c ∧ boneChain c bone = some path ∧ bone ∈ path ∧
      ∀ out : List T, out.length = parents.length →
        ∃ out', localToObject mul parents locals path out = some out' ∧
          (∀ j ∈ path, ∃ x, out'[j]? = some x ∧ ObjectOf mul parents locals j x) ∧
          ∀ j, j ∉ path → out'[j]? = out[j]? := by
  obtain ⟨c, ec, hc⟩ := boneChain_spec hv ho steps hs
  obtain ⟨path, hp, hbc⟩ := hc bone hb
  refine ⟨c, path, ec, hbc, hp.self_mem, ?_⟩
  intro out hout
  obtain ⟨out', e, -, h1, h2⟩ := localToObject_spec mul parents locals hl path [] (closed_path hp) out hout (by simp)
  exact ⟨out', e, fun j hj => h1 j (Or.inr hj), h2⟩

/-- Converting a whole pose, in the order of the indices (as the error measurement does) or parent first, gives every object
space transform. -/
theorem C59_object_space_pose {T : Type} (mul : T → T → T) (parents : List Nat) (hv : ParentsValid parents)
    (ho : Ordered parents) (locals : List T) (hl : locals.length = parents.length) (order : List Nat)
    (hord : order = List.range parents.length ∨ order = sortParentFirst parents) (out : List T)
    (hout : out.length = parents.length) :
    ∃ out', localToObject mul parents locals order out = some out' ∧ out'.length = parents.length ∧
      ∀ j, j < parents.length → ∃ x, out'[j]? = some x ∧ ObjectOf mul parents locals j x ∧
        ∀ y, ObjectOf mul parents locals j y → y = x := by
  have hcl : Closed parents [] order := by
    rcases hord with rfl | rfl
    · exact closed_range ho
    · exact closed_sorted hv ho
  obtain ⟨out', e, hlen, h1, -⟩ := localToObject_spec mul parents locals hl order [] hcl out hout (by simp)
  refine ⟨out', e, hlen, ?_⟩
  intro j hj
  have hmem : j ∈ order := by
    rcases hord with rfl | rfl
    · exact List.mem_range.2 hj
    · exact (sort_perm parents).mem_iff.2 (List.mem_range.2 hj)
  obtain ⟨x, ex, hx⟩ := h1 j (Or.inr hmem)
  exact ⟨x, ex, hx, fun y hy => hy.unique hx⟩

theorem count_bits {l : List Nat} {n : Nat} (hnd : l.Nodup) (hl : ∀ j ∈ l, j < n) (f : Nat → Bool)
    (hf : ∀ j, f j = decide (j ∈ l)) : countBelow n f = l.length := by
  unfold countBelow
  rw [List.countP_eq_length_filter]
  apply List.Perm.length_eq
  apply (List.perm_ext_iff_of_nodup (List.nodup_range.filter _) hnd).2
  intro j
  rw [List.mem_filter, List.mem_range, hf j, decide_eq_true_eq]
  exact ⟨fun h => h.2, fun h => ⟨hl j h, h⟩⟩

theorem longest_spec {parents : List Nat} (ho : Ordered parents) (hn : parents.length < 2 ^ 32 - 32)
    (done : List Nat) (chains : List (List (BitVec 32))) (h : List.Forall₂ (IsChain parents) done chains) (start : Nat) :
    ∃ d, longestChain chains start = some d ∧ start ≤ d ∧
      (∀ leaf l, leaf ∈ done → RootPath parents leaf l → l.length ≤ d) ∧
      (d = start ∨ ∃ leaf l, leaf ∈ done ∧ RootPath parents leaf l ∧ l.length = d) := by
  induction h generalizing start with
  | nil => exact ⟨start, rfl, le_rfl, by simp, Or.inl rfl⟩
  | @cons leaf bits done chains hc _ ih =>
    obtain ⟨l, hl, hsz, hbits⟩ := hc
    unfold Sized bitsetSize at hsz
    obtain ⟨c, ec, hcn⟩ := bitsetCountFrom_spec bits.length bits 0 0 (by omega) (by simp; omega)
    have hlen : c.toNat = l.length := by
      rw [hcn]
      rw [show (0 : BitVec 32).toNat = 0 from rfl]
      simp only [Nat.mul_zero, Nat.zero_add]
      apply count_bits ((hl.ascending ho).1.imp (fun h => Nat.ne_of_lt h))
      · intro j hj; have := hl.all_lt j hj; omega
      · exact hbits
    obtain ⟨d, ed, hs, h1, h2⟩ := ih (max start c.toNat)
    refine ⟨d, ?_, by omega, ?_, ?_⟩
    · simp only [longestChain, bitsetCount, ec, Option.bind_eq_bind, Option.bind_some]; exact ed
    · intro lf l' hlf hl'
      rcases List.mem_cons.1 hlf with rfl | hlf
      · rw [hl'.unique hl]; omega
      · exact h1 lf l' hlf hl'
    · rcases h2 with h2 | ⟨lf, l', h3, h4, h5⟩
      · rcases Nat.le_total start c.toNat with hle | hle
        · exact Or.inr ⟨leaf, l, List.mem_cons_self, hl, by omega⟩
        · exact Or.inl (by omega)
      · exact Or.inr ⟨lf, l', List.mem_cons_of_mem _ h3, h4, h5⟩

/-- The automatic compression level depends on the number of transforms on the longest path from a root, and on the number
of samples. -/
theorem C59_level (parents : List Nat) (hv : ParentsValid parents) (ho : Ordered parents)
    (hn : parents.length < 2 ^ 32 - 32) (h0 : 0 < parents.length) (steps : Nat) (hs : parents.length < steps)
    (numSamples : Nat) :
    ∃ (c : Chains) (depth : Nat), build parents steps = some c ∧
      (∃ bone path, RootPath parents bone path ∧ path.length = depth) ∧
      (∀ bone path, RootPath parents bone path → path.length ≤ depth) ∧
      bestLevel numSamples c = some (if 500 < numSamples then .medium else if depth < 18 then .highest
        else if depth < 25 then .high else .medium) := by
  obtain ⟨c, ec, hc⟩ := build_spec hv ho steps hs
  obtain ⟨d, ed, -, h1, h2⟩ := longest_spec ho hn _ _ hc.chains 0
  have hall : ∀ bone path, RootPath parents bone path → path.length ≤ d := by
    intro bone path hp
    obtain ⟨leaf, l, hlt, hleaf, hl, hmem⟩ := exists_leaf ho (by unfold ParentsValid at hv; exact hv.1) hp.lt
    obtain ⟨pb, t, e, hpb⟩ := hl.prefix hmem
    have := h1 leaf l (List.mem_filter.2 ⟨List.mem_range.2 hlt, by simpa using hleaf⟩) hl
    rw [e, List.length_append] at this
    rw [hp.unique hpb]; omega
  refine ⟨c, d, ec, ?_, hall, ?_⟩
  · rcases h2 with h2 | ⟨leaf, l, -, h3, h4⟩
    · obtain ⟨l, hl⟩ := RootPath.exists_of_ordered ho h0
      have := hall 0 l hl
      have hpos : 0 < l.length := List.length_pos_of_mem hl.self_mem
      omega
    · exact ⟨leaf, l, h3, h4⟩
  · unfold bestLevel
    by_cases h500 : 500 < numSamples
    · rw [if_pos h500, if_pos h500]
    · rw [if_neg h500, if_neg h500, ed]; rfl

/-! ### Without the order -/

/-- A transform track of two samples -/
def exTrack (index parent : Nat) : Track :=
  { type := .qvvf, samples := List.replicate 2 ⟨[], [0, 0, 0, 1], [0, 0, 0], [1, 1, 1]⟩, sampleRate := 30,
    outputIndex := index, parentIndex := parent, hasData := true, descValid := true }

/-- A list of tracks with these parents -/
def exArray (parents : List Nat) : TrackArray :=
  { tracks := parents.zipIdx.map (fun p => exTrack p.2 p.1), looping := .clamp }

/-- Finding: the chain of a transform never contains a transform with a larger index, in particular not its parent when the
parent comes after it. This holds for every hierarchy on which the chains can be built. -/
theorem C59_late_parent_finding (parents : List Nat) (steps : Nat) (c : Chains) (_ : build parents steps = some c)
    (bone parent : Nat) (chain : List Nat) (hb : boneChain c bone = some chain)
    (_ : parents[bone]? = some parent) (hlate : bone < parent) : parent ∉ chain := by
  intro hmem
  unfold boneChain at hb
  cases h1 : c.assigned[bone]? with
  | none => rw [h1] at hb; simp at hb
  | some k =>
    rw [h1] at hb
    cases k with
    | none => simp at hb
    | some k =>
      simp only [Option.bind_eq_bind, Option.bind_some] at hb
      cases h2 : c.chains[k]? with
      | none => rw [h2] at hb; simp at hb
      | some bits =>
        rw [h2] at hb
        simp only [Option.bind_some] at hb
        cases h3 : findRoot bits (32 * bits.length + 1) 0 with
        | none => rw [h3] at hb; simp at hb
        | some r =>
          rw [h3] at hb
          have := iterate_le _ _ _ _ _ hb parent hmem
          omega

/-- Finding: a list of three tracks, the first below the second and the second below the third, is valid; the order called
parent first has the first track before its parent, the chain of the first track is itself alone, the chain of the last one
contains its descendants, and the object space transforms of the pose read what the output held before. -/
theorem C59_unordered_finding :
    (exArray [1, 2, invalidIndex]).isValid = true ∧
      ((exArray [1, 2, invalidIndex]).tracks.map (·.parentIndex)) = [1, 2, invalidIndex] ∧
      sortParentFirst [1, 2, invalidIndex] = [2, 0, 1] ∧
      (∃ c, build [1, 2, invalidIndex] 4 = some c ∧ boneChain c 0 = some [0] ∧ boneChain c 2 = some [0, 1, 2]) ∧
      ∀ stale : Int × Int, localToObject (fun x y : Int => x + y) [1, 2, invalidIndex] [1, 10, 100] [0, 1, 2]
        [0, stale.1, stale.2] = some [1 + stale.1, 10 + stale.2, 100] := by
  refine ⟨by decide +kernel, by decide +kernel, by decide +kernel, ?_, fun stale => rfl⟩
  exact ⟨{ chains := [[0xe0000000#32]], assigned := [some 0, some 0, some 0] }, by decide +kernel, by decide +kernel,
    by decide +kernel⟩

theorem walk_cycle (chain : Nat) (fuel : Nat) (bone : Nat) (hb : bone = 1 ∨ bone = 2) (bits : List (BitVec 32))
    (assigned : List (Option Nat)) : walk [invalidIndex, 2, 1, 1] chain fuel bone bits assigned = none := by
  induction fuel generalizing bone bits assigned with
  | zero => rfl
  | succ f ih =>
    have hne : bone ≠ invalidIndex := by unfold invalidIndex; omega
    have hp : ∃ q, ([invalidIndex, 2, 1, 1] : List Nat)[bone]? = some q ∧ (q = 1 ∨ q = 2) := by
      rcases hb with rfl | rfl
      · exact ⟨2, rfl, Or.inr rfl⟩
      · exact ⟨1, rfl, Or.inl rfl⟩
    obtain ⟨q, hq, hq2⟩ := hp
    simp only [walk, hne, if_false, hq]
    cases bitsetSet bits bone true with
    | none => rfl
    | some b =>
      cases assigned[bone]? with
      | none => rfl
      | some a => simp only [Option.bind_eq_bind, Option.bind_some]; exact ih q hq2 b _

/-- Finding: parents that form a cycle are valid too, and then building the chains never ends: no number of steps is
enough. -/
theorem C59_cycle_finding : (exArray [invalidIndex, 2, 1, 1]).isValid = true ∧
    ∀ steps, build [invalidIndex, 2, 1, 1] steps = none := by
  refine ⟨by decide +kernel, ?_⟩
  intro steps
  have hleaf : leafBits [invalidIndex, 2, 1, 1] = some [0x90000000#32] := by decide +kernel
  have h0 : bitsetTest [0x90000000#32] 0 = some true := by decide +kernel
  have h1 : bitsetTest [0x90000000#32] 1 = some false := by decide +kernel
  have h2 : bitsetTest [0x90000000#32] 2 = some false := by decide +kernel
  have h3 : bitsetTest [0x90000000#32] 3 = some true := by decide +kernel
  have hr : List.range ([invalidIndex, 2, 1, 1] : List Nat).length = [0, 1, 2, 3] := by decide +kernel
  have hne : (3 : Nat) ≠ invalidIndex := by unfold invalidIndex; omega
  have hw : ∀ chain bits assigned, walk [invalidIndex, 2, 1, 1] chain steps 3 bits assigned = none := by
    intro chain bits assigned
    cases steps with
    | zero => rfl
    | succ f =>
      have hq : ([invalidIndex, 2, 1, 1] : List Nat)[3]? = some 1 := rfl
      simp only [walk, hne, if_false, hq]
      cases bitsetSet bits 3 true with
      | none => rfl
      | some b =>
        cases assigned[3]? with
        | none => rfl
        | some a => simp only [Option.bind_eq_bind, Option.bind_some]; exact walk_cycle chain f 1 (Or.inl rfl) b _
  simp only [build, hleaf, hr, Option.bind_eq_bind, Option.bind_some]
  simp only [buildFrom, h0, h1, h2, h3, Option.bind_eq_bind, Option.bind_some, if_true, Bool.false_eq_true, if_false]
  rw [Option.bind_eq_none_iff]
  intro r _
  rw [hw]; rfl

/-! ### A hierarchy that meets the hypotheses -/

/-- Two branches under a root, and a second root -/
def exParents : List Nat := [invalidIndex, 0, 1, 0, 3, 4, invalidIndex, 6]

theorem exParents_ordered : Ordered exParents := by
  intro i p h
  have hi := (List.getElem?_eq_some_iff.1 h).1
  have : i < 8 := hi
  interval_cases i <;> (simp [exParents] at h; subst h; simp)

theorem example_array : (exArray exParents).isValid = true ∧ (exArray exParents).type = .qvvf ∧
    (exArray exParents).tracks.map (·.parentIndex) = exParents ∧
    sortParentFirst exParents = [0, 6, 1, 3, 2, 4, 5, 7] ∧
    (∃ c, build exParents 9 = some c ∧ boneChain c 5 = some [0, 3, 4, 5] ∧ boneChain c 2 = some [0, 1, 2]) ∧
    localToObject (fun x y : Int => x + y) exParents [1, 2, 4, 8, 16, 32, 64, 128] (List.range 8) (List.replicate 8 7) =
      some [1, 3, 7, 9, 25, 57, 64, 192] := by
  refine ⟨by decide +kernel, by decide +kernel, by decide +kernel, by decide +kernel, ?_, by decide +kernel⟩
  exact ⟨(build exParents 9).get (by decide +kernel), by decide +kernel, by decide +kernel, by decide +kernel⟩

end Acl.C59
