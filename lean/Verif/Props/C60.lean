import Verif.Raw.TrackError
import Verif.Props.C59
import Verif.Props.C31
import Mathlib.Tactic.Linarith
/-!
C60: calculate_compression_error reports the worst error over every sample and every track, and the first sample and track
where it occurs. For transforms the error is between object space transforms: products along the whole path from the root,
with the additive base applied first, the value of a stripped track taken from the raw tracks.
-/
namespace Acl.C60
open Acl Acl.F32 Acl.Interp Acl.Raw Acl.Hierarchy Acl.TrackError Acl.C31

/-! ### Specification -/

/-- `r` is the first of the largest errors of the list. -/
def FirstWorst (errors : List Result) (r : Result) : Prop :=
  ∃ before after, errors = before ++ r :: after ∧ (∀ e ∈ before, e.error < r.error) ∧ ∀ e ∈ after, e.error ≤ r.error

/-- The time of a sample: its index over the rate, at most the duration. -/
def timeAt (rate duration : ℚ) (s : Nat) : ℚ := min (fdiv (ofNat s) rate) duration

/-- The pose that is compared with the raw one: what was decompressed for the output of a track, or the raw value of a track
that is stripped. -/
def LossyPose {T : Type} (a : TrackArray) (raw lossy pose : List T) : Prop :=
  pose.length = a.tracks.length ∧ ∀ (i : Nat) (t : Track), a.tracks[i]? = some t →
    pose[i]? = if t.outputIndex = invalidIndex then raw[i]? else lossy[t.outputIndex]?

/-- The local transforms of a pose at a time: converted for the metric, on top of the additive base if there is one. -/
def Locals {T C : Type} (M : Metric T C) (clipDuration time : ℚ) (pose : List T) (locals : List C) : Option (Base T) → Prop
  | none => locals.length = pose.length ∧ ∀ (i : Nat) (x : T), pose[i]? = some x → locals[i]? = some (M.convert x)
  | some b => locals.length = pose.length ∧ ∀ (i : Nat) (x : T), pose[i]? = some x →
      ∃ y, (b.sample (if 1 < b.numSamples then fmul (fdiv time clipDuration) b.duration else 0))[i]? = some y ∧
        locals[i]? = some (M.additive (M.convert y) (M.convert x))

/-! ### Lemmas -/

/-- The state of the search after the errors `done`. -/
def Search (done : List Result) (r : Result) : Prop :=
  (done = [] ∧ r = Result.start) ∨ FirstWorst done r

theorem search_step {done : List Result} {r : Result} (h : Search done r) (e : Result) (he : 0 ≤ e.error) :
    Search (done ++ [e]) (keepWorst r e.index e.error e.time) := by
  right
  unfold keepWorst
  rcases h with ⟨rfl, rfl⟩ | ⟨l₁, l₂, rfl, h1, h2⟩
  · rw [if_pos (show Result.start.error < e.error by unfold Result.start; dsimp only; linarith)]
    exact ⟨[], [], rfl, by simp, by simp⟩
  · by_cases hlt : r.error < e.error
    · rw [if_pos hlt]
      refine ⟨l₁ ++ r :: l₂, [], by simp, ?_, by simp⟩
      intro x hx
      rcases List.mem_append.1 hx with hx | hx
      · exact lt_trans (h1 x hx) hlt
      · rcases List.mem_cons.1 hx with rfl | hx
        · exact hlt
        · exact lt_of_le_of_lt (h2 x hx) hlt
    · rw [if_neg hlt]
      refine ⟨l₁, l₂ ++ [e], by simp, h1, ?_⟩
      intro x hx
      rcases List.mem_append.1 hx with hx | hx
      · exact h2 x hx
      · rw [List.mem_singleton] at hx; subst hx; exact not_lt.1 hlt

theorem search_done {done : List Result} {r : Result} (h : Search done r) (hne : done ≠ []) : FirstWorst done r := by
  rcases h with ⟨h, -⟩ | h
  · exact absurd h hne
  · exact h

theorem scalarTrackError_nonneg (a b : List ℚ) : 0 ≤ scalarTrackError a b := by
  unfold scalarTrackError
  generalize List.zipWith (fun a b => abs (fsub a b)) a b = l
  have : ∀ (l : List ℚ) (x : ℚ), x ≤ l.foldl max x := by
    intro l
    induction l with
    | nil => intro x; exact le_rfl
    | cons y l ih => intro x; exact le_trans (le_max_left x y) (ih _)
  exact this l 0

/-- The largest component of the difference, 0 included. -/
theorem scalarTrackError_le (a b : List ℚ) (bound : ℚ) (h0 : 0 ≤ bound) :
    scalarTrackError a b ≤ bound ↔ ∀ (i : Nat) (x y : ℚ), a[i]? = some x → b[i]? = some y → |fsub x y| ≤ bound := by
  unfold scalarTrackError
  have : ∀ (l : List ℚ) (x : ℚ), l.foldl max x ≤ bound ↔ (x ≤ bound ∧ ∀ y ∈ l, y ≤ bound) := by
    intro l
    induction l with
    | nil => intro x; simp
    | cons y l ih =>
      intro x
      rw [List.foldl_cons, ih]
      simp only [max_le_iff, List.mem_cons, forall_eq_or_imp]
      tauto
  rw [this]
  constructor
  · rintro ⟨-, h⟩ i x y hx hy
    apply h
    rw [List.mem_iff_getElem?]
    exact ⟨i, by rw [List.getElem?_zipWith, hx, hy]⟩
  · intro h
    refine ⟨h0, ?_⟩
    intro z hz
    obtain ⟨i, hi⟩ := List.mem_iff_getElem?.1 hz
    rw [List.getElem?_zipWith] at hi
    cases hx : a[i]? with
    | none => rw [hx] at hi; simp at hi
    | some x =>
      cases hy : b[i]? with
      | none => rw [hx, hy] at hi; simp at hi
      | some y =>
        rw [hx, hy] at hi
        simp at hi
        rw [← hi]
        exact h i x y hx hy

/-- The errors of the scalar tracks of a sample, in the order of the tracks, the stripped ones left out. -/
def scalarErrors (outputs : List Nat) (raw lossy : List (List ℚ)) (time : ℚ) (l : List Nat) : List Result :=
  (l.filter (fun i => decide (outputs.getD i 0 ≠ invalidIndex))).map
    (fun i => { index := i, error := scalarTrackError (raw.getD i []) (lossy.getD (outputs.getD i 0) []), time := time })

theorem scalarTracks_spec (outputs : List Nat) (raw lossy : List (List ℚ)) (time : ℚ) (l : List Nat)
    (hl : ∀ i ∈ l, i < outputs.length) (hr : raw.length = outputs.length)
    (ho : ∀ o ∈ outputs, o = invalidIndex ∨ o < lossy.length) (done : List Result) (r : Result) (h : Search done r) :
    ∃ r', scalarTracks outputs raw lossy time l r = some r' ∧ Search (done ++ scalarErrors outputs raw lossy time l) r' := by
  induction l generalizing done r with
  | nil => exact ⟨r, rfl, by simpa [scalarErrors] using h⟩
  | cons i rest ih =>
    have hi := hl i List.mem_cons_self
    have hrest : ∀ j ∈ rest, j < outputs.length := fun j hj => hl j (List.mem_cons_of_mem _ hj)
    have hg : outputs[i]? = some outputs[i] := List.getElem?_eq_getElem hi
    have hgd : outputs.getD i 0 = outputs[i] := by simp [hg]
    by_cases hinv : outputs[i] = invalidIndex
    · obtain ⟨r', e, hs⟩ := ih hrest done r h
      refine ⟨r', ?_, ?_⟩
      · simp [scalarTracks, hg, hinv, e]
      · have : scalarErrors outputs raw lossy time (i :: rest) = scalarErrors outputs raw lossy time rest := by
          unfold scalarErrors
          rw [List.filter_cons_of_neg (by rw [hgd]; simpa using hinv)]
        rw [this]; exact hs
    · have hlt := (ho _ (List.getElem_mem hi)).resolve_left hinv
      have ha : raw[i]? = some (raw.getD i []) := by
        have hir : i < raw.length := by omega
        simp [List.getElem?_eq_getElem hir]
      have hb : lossy[outputs[i]]? = some (lossy.getD outputs[i] []) := by
        simp [List.getElem?_eq_getElem hlt]
      have hstep := search_step h { index := i, error := scalarTrackError (raw.getD i []) (lossy.getD outputs[i] []), time := time }
        (scalarTrackError_nonneg _ _)
      obtain ⟨r', e, hs⟩ := ih hrest _ _ hstep
      refine ⟨r', ?_, ?_⟩
      · simp only [scalarTracks, hg, hinv, if_false, ha, hb, Option.bind_eq_bind, Option.bind_some]; exact e
      · have : scalarErrors outputs raw lossy time (i :: rest) =
            { index := i, error := scalarTrackError (raw.getD i []) (lossy.getD outputs[i] []), time := time } ::
              scalarErrors outputs raw lossy time rest := by
          unfold scalarErrors
          rw [List.filter_cons_of_pos (by rw [hgd]; simpa using hinv), List.map_cons, hgd]
        rw [this]
        rw [List.append_assoc] at hs
        exact hs

theorem scalarSamples_spec (outputs : List Nat) (raw lossy : ℚ → List (List ℚ)) (timeOf : Nat → ℚ) (l : List Nat)
    (hr : ∀ t, (raw t).length = outputs.length)
    (ho : ∀ t, ∀ o ∈ outputs, o = invalidIndex ∨ o < (lossy t).length) (done : List Result) (r : Result)
    (h : Search done r) :
    ∃ r', scalarSamples outputs raw lossy timeOf l r = some r' ∧
      Search (done ++ l.flatMap (fun s => scalarErrors outputs (raw (timeOf s)) (lossy (timeOf s)) (timeOf s)
        (List.range outputs.length))) r' := by
  induction l generalizing done r with
  | nil => exact ⟨r, rfl, by simpa using h⟩
  | cons s rest ih =>
    obtain ⟨r₁, e₁, h₁⟩ := scalarTracks_spec outputs (raw (timeOf s)) (lossy (timeOf s)) (timeOf s)
      (List.range outputs.length) (fun i hi => List.mem_range.1 hi) (hr _) (ho _) done r h
    obtain ⟨r', e, hs⟩ := ih _ _ h₁
    refine ⟨r', by simp [scalarSamples, e₁, e], ?_⟩
    rw [List.flatMap_cons, ← List.append_assoc]; exact hs

/-- **C60, scalar tracks.** The result is the first of the worst errors, over the samples and, for each, over the tracks that
are not stripped; the error of a track is the largest absolute difference of its components. -/
theorem C60_scalar (numSamples : Nat) (outputs : List Nat) (rate duration : ℚ) (raw lossy : ℚ → List (List ℚ))
    (hs : 0 < numSamples) (hr : ∀ t, (raw t).length = outputs.length)
    (ho : ∀ t, ∀ o ∈ outputs, o = invalidIndex ∨ o < (lossy t).length)
    (hkept : ∃ o ∈ outputs, o ≠ invalidIndex) :
    ∃ r, scalarError numSamples outputs rate (.fin duration) raw lossy = some r ∧
      FirstWorst ((List.range numSamples).flatMap fun s =>
        ((List.range outputs.length).filter (fun i => decide (outputs.getD i 0 ≠ invalidIndex))).map fun i =>
          { index := i, time := timeAt rate duration s,
            error := scalarTrackError ((raw (timeAt rate duration s)).getD i [])
              ((lossy (timeAt rate duration s)).getD (outputs.getD i 0) []) }) r := by
  obtain ⟨o, hom, hone⟩ := hkept
  have hpos : outputs.length ≠ 0 := fun h => by rw [List.length_eq_zero_iff] at h; rw [h] at hom; simp at hom
  obtain ⟨r, e, h⟩ := scalarSamples_spec outputs raw lossy (timeAt rate duration) (List.range numSamples) hr ho []
    Result.start (Or.inl ⟨rfl, rfl⟩)
  refine ⟨r, ?_, ?_⟩
  · unfold scalarError
    rw [if_neg (show ¬ numSamples = 0 by omega), if_neg hpos]
    exact e
  · rw [List.nil_append] at h
    apply search_done h
    intro hnil
    rw [List.flatMap_eq_nil_iff] at hnil
    have h0 := hnil 0 (List.mem_range.2 hs)
    unfold scalarErrors at h0
    rw [List.map_eq_nil_iff, List.filter_eq_nil_iff] at h0
    obtain ⟨i, hi⟩ := List.mem_iff_getElem?.1 hom
    have hilt := (List.getElem?_eq_some_iff.1 hi).1
    apply h0 i (List.mem_range.2 hilt)
    simp [hi, hone]

/-- Finding: when every track is stripped the reported error is -1. -/
theorem C60_all_stripped_finding (numSamples : Nat) (outputs : List Nat) (rate duration : ℚ) (raw lossy : ℚ → List (List ℚ))
    (hs : 0 < numSamples) (hn : outputs ≠ []) (hall : ∀ o ∈ outputs, o = invalidIndex) :
    ∃ r, scalarError numSamples outputs rate (.fin duration) raw lossy = some r ∧ r.error = -1 := by
  refine ⟨Result.start, ?_, rfl⟩
  unfold scalarError
  rw [if_neg (show ¬ numSamples = 0 by omega), if_neg (by rw [List.length_eq_zero_iff]; exact hn)]
  have htr : ∀ (rawp lossyp : List (List ℚ)) (time : ℚ) (l : List Nat), (∀ i ∈ l, i < outputs.length) →
      scalarTracks outputs rawp lossyp time l Result.start = some Result.start := by
    intro rawp lossyp time l hl
    induction l with
    | nil => rfl
    | cons i rest ih =>
      have hi := hl i List.mem_cons_self
      have hg : outputs[i]? = some outputs[i] := List.getElem?_eq_getElem hi
      have hinv := hall _ (List.getElem_mem hi)
      simp only [scalarTracks, hg, hinv, Option.bind_eq_bind, Option.bind_some, if_true]
      exact ih (fun j hj => hl j (List.mem_cons_of_mem _ hj))
  generalize List.range numSamples = l
  induction l with
  | nil => rfl
  | cons s rest ih =>
    simp only [scalarSamples, htr _ _ _ _ (fun i hi => List.mem_range.1 hi), Option.bind_eq_bind, Option.bind_some]
    exact ih

/-! ### Transforms -/

theorem remap_spec {T : Type} (lossy : List T) (mapping : List Nat) (raw : List T) (k : Nat) (hnd : mapping.Nodup)
    (hm : ∀ b ∈ mapping, b < raw.length) (hl : k + mapping.length ≤ lossy.length) :
    ∃ pose, remap raw lossy mapping k = some pose ∧ pose.length = raw.length ∧
      (∀ j b, mapping[j]? = some b → pose[b]? = lossy[k + j]?) ∧ ∀ i, i ∉ mapping → pose[i]? = raw[i]? := by
  induction mapping generalizing raw k with
  | nil => exact ⟨raw, rfl, rfl, by simp, fun _ _ => rfl⟩
  | cons b rest ih =>
    rw [List.length_cons] at hl
    have hb := hm b List.mem_cons_self
    have hx : lossy[k]? = some lossy[k] := List.getElem?_eq_getElem (by omega)
    rw [List.nodup_cons] at hnd
    obtain ⟨pose, e, hlen, h1, h2⟩ := ih (raw.set b lossy[k]) (k + 1) hnd.2
      (fun c hc => by rw [List.length_set]; exact hm c (List.mem_cons_of_mem _ hc)) (by omega)
    refine ⟨pose, ?_, by rw [hlen, List.length_set], ?_, ?_⟩
    · simp only [remap, hx, Option.bind_eq_bind, Option.bind_some, if_pos hb]; exact e
    · intro j c hj
      cases j with
      | zero =>
        simp at hj; subst hj
        rw [h2 b hnd.1, List.getElem?_set_self hb, Nat.add_zero, hx]
      | succ j =>
        simp at hj
        rw [h1 j c hj]; congr 1; omega
    · intro i hi
      rw [List.mem_cons, not_or] at hi
      rw [h2 i hi.2, List.getElem?_set_ne (Ne.symm hi.1)]

theorem remap_lossy {T : Type} {a : TrackArray} {m : List Nat} (hb : Bijection a m) (hlen : a.tracks.length < 2 ^ 32)
    (raw lossy : List T)
    (hr : raw.length = a.tracks.length) (hl : (outputs a).length ≤ lossy.length) :
    ∃ pose, remap raw lossy m 0 = some pose ∧ LossyPose a raw lossy pose := by
  obtain ⟨pose, e, hplen, h1, h2⟩ := remap_spec lossy m raw 0 hb.nodup
    (by
      intro b hbm
      obtain ⟨o, ho, rfl⟩ := List.mem_iff_getElem.1 hbm
      obtain ⟨t, ht, -⟩ := hb.track o ho
      rw [hr]; exact (List.getElem?_eq_some_iff.1 ht).1)
    (by rw [hb.size]; omega)
  refine ⟨pose, e, by rw [hplen, hr], ?_⟩
  intro i t ht
  by_cases hinv : t.outputIndex = invalidIndex
  · rw [if_pos hinv]
    apply h2
    intro him
    obtain ⟨o, ho, hoi⟩ := List.mem_iff_getElem.1 him
    obtain ⟨t', ht', hto⟩ := hb.track o ho
    rw [hoi, ht] at ht'
    cases ht'
    have hsz := hb.size
    have hout : (outputs a).length ≤ a.tracks.length := by
      unfold outputs
      exact le_trans (List.length_filter_le _ _) (by rw [List.length_map])
    rw [hinv] at hto
    unfold invalidIndex at hto
    omega
  · rw [if_neg hinv, h1 t.outputIndex i (hb.output i t ht hinv), Nat.zero_add]

theorem localPose_spec {T C : Type} (M : Metric T C) (base : Option (Base T)) (clipDuration time : ℚ) (pose : List T)
    (hb : ∀ b, base = some b → ∀ t, (b.sample t).length = pose.length) :
    Locals M clipDuration time pose (localPose M base clipDuration time pose) base := by
  cases base with
  | none =>
    refine ⟨by simp [localPose], ?_⟩
    intro i x hx
    simp [localPose, hx]
  | some b =>
    have hlen := hb b rfl
    refine ⟨by simp [localPose, hlen], ?_⟩
    intro i x hx
    have hi := (List.getElem?_eq_some_iff.1 hx).1
    obtain ⟨y, hy⟩ : ∃ y, (b.sample (b.timeOf time clipDuration))[i]? = some y :=
      ⟨_, List.getElem?_eq_getElem (by rw [hlen]; exact hi)⟩
    refine ⟨y, hy, ?_⟩
    simp [localPose, List.getElem?_zipWith, hx, hy]

/-- The errors of a sample, bone after bone -/
def boneErrors {T C : Type} (M : Metric T C) (shells : List ℚ) (raw lossy : Nat → C) (time : ℚ) (l : List Nat) : List Result :=
  l.map fun b => { index := b, error := M.error (raw b) (lossy b) (shells.getD b 0), time := time }

theorem bones_spec {T C : Type} (M : Metric T C) (hM : ∀ x y s, 0 ≤ M.error x y s) (shells : List ℚ) (raw lossy : List C)
    (rawAt lossyAt : Nat → C) (time : ℚ) (l : List Nat) (hr : ∀ b ∈ l, raw[b]? = some (rawAt b))
    (hy : ∀ b ∈ l, lossy[b]? = some (lossyAt b)) (hsh : ∀ b ∈ l, b < shells.length) (done : List Result) (r : Result)
    (h : Search done r) :
    ∃ r', bones M shells raw lossy time l r = some r' ∧ Search (done ++ boneErrors M shells rawAt lossyAt time l) r' := by
  induction l generalizing done r with
  | nil => exact ⟨r, rfl, by simpa [boneErrors] using h⟩
  | cons b rest ih =>
    have hs : shells[b]? = some (shells.getD b 0) := by
      simp [List.getElem?_eq_getElem (hsh b List.mem_cons_self)]
    have hstep := search_step h { index := b, error := M.error (rawAt b) (lossyAt b) (shells.getD b 0), time := time } (hM _ _ _)
    obtain ⟨r', e, h'⟩ := ih (fun c hc => hr c (List.mem_cons_of_mem _ hc)) (fun c hc => hy c (List.mem_cons_of_mem _ hc))
      (fun c hc => hsh c (List.mem_cons_of_mem _ hc)) _ _ hstep
    refine ⟨r', ?_, ?_⟩
    · simp only [bones, hr b List.mem_cons_self, hy b List.mem_cons_self, hs, Option.bind_eq_bind, Option.bind_some]
      exact e
    · rw [List.append_assoc] at h'; exact h'

/-- What a sample is compared with: the object space transforms of the raw pose and of the lossy one. -/
def Measured {T C : Type} (M : Metric T C) (base : Option (Base T)) (a : TrackArray) (clipDuration time : ℚ)
    (raw lossy : List T) (rawAt lossyAt : Nat → C) : Prop :=
  (∃ locals, Locals M clipDuration time raw locals base ∧
    ∀ b, b < a.tracks.length → ObjectOf M.mul (a.tracks.map (·.parentIndex)) locals b (rawAt b)) ∧
  ∃ pose locals, LossyPose a raw lossy pose ∧ Locals M clipDuration time pose locals base ∧
    ∀ b, b < a.tracks.length → ObjectOf M.mul (a.tracks.map (·.parentIndex)) locals b (lossyAt b)

theorem objects_exist {C : Type} [Nonempty C] (mul : C → C → C) (parents : List Nat) (hv : ParentsValid parents)
    (ho : Ordered parents) (locals : List C) (hl : locals.length = parents.length) :
    ∃ at_ : Nat → C, ∀ b, b < parents.length → ObjectOf mul parents locals b (at_ b) := by
  have key : ∀ b, ∃ x, b < parents.length → ObjectOf mul parents locals b x := by
    intro b
    by_cases hb : b < parents.length
    · obtain ⟨out', -, -, h⟩ := C59.C59_object_space_pose mul parents hv ho locals hl _ (Or.inl rfl)
        (List.replicate parents.length (Classical.arbitrary C)) (by simp)
      obtain ⟨x, -, hx, -⟩ := h b hb
      exact ⟨x, fun _ => hx⟩
    · exact ⟨Classical.arbitrary C, fun h => absurd h hb⟩
  choose f hf using key
  exact ⟨f, hf⟩

theorem pose_objects {C : Type} (mul : C → C → C) (parents : List Nat) (hv : ParentsValid parents)
    (ho : Ordered parents) (locals : List C) (hl : locals.length = parents.length) (at_ : Nat → C)
    (hat : ∀ b, b < parents.length → ObjectOf mul parents locals b (at_ b)) (out : List C) (hout : out.length = parents.length) :
    ∃ out', localToObject mul parents locals (List.range parents.length) out = some out' ∧ out'.length = parents.length ∧
      ∀ b, b < parents.length → out'[b]? = some (at_ b) := by
  obtain ⟨out', e, hlen, h⟩ := C59.C59_object_space_pose mul parents hv ho locals hl _ (Or.inl rfl) out hout
  refine ⟨out', e, hlen, ?_⟩
  intro b hb
  obtain ⟨x, ex, -, hx⟩ := h b hb
  rw [ex, hx _ (hat b hb)]

theorem samples_spec {T C : Type} (M : Metric T C) (hM : ∀ x y s, 0 ≤ M.error x y s) (base : Option (Base T))
    (parents : List Nat) (hv : ParentsValid parents) (ho : Ordered parents)
    (hb : ∀ b, base = some b → ∀ t, (b.sample t).length = parents.length)
    (shells : List ℚ) (hsh : shells.length = parents.length) (m : List Nat) (clipDuration : ℚ)
    (raw lossy pose : ℚ → List T) (hr : ∀ t, (raw t).length = parents.length)
    (hp : ∀ t, remap (raw t) (lossy t) m 0 = some (pose t)) (hpl : ∀ t, (pose t).length = parents.length)
    (timeOf : Nat → ℚ) (rawAt lossyAt : ℚ → Nat → C)
    (hra : ∀ t b, b < parents.length → ObjectOf M.mul parents (localPose M base clipDuration t (raw t)) b (rawAt t b))
    (hla : ∀ t b, b < parents.length → ObjectOf M.mul parents (localPose M base clipDuration t (pose t)) b (lossyAt t b))
    (l : List Nat) (rawObject lossyObject : List C)
    (h0 : rawObject.length = parents.length) (h1 : lossyObject.length = parents.length) (done : List Result) (r : Result)
    (h : Search done r) :
    ∃ r' : Result,
      samples M base clipDuration parents shells m raw lossy timeOf l rawObject lossyObject r = some r' ∧
      Search (done ++ l.flatMap (fun s => boneErrors M shells (rawAt (timeOf s)) (lossyAt (timeOf s)) (timeOf s)
        (List.range parents.length))) r' := by
  induction l generalizing rawObject lossyObject done r with
  | nil => exact ⟨r, rfl, by simpa using h⟩
  | cons s rest ih =>
    have hll : ∀ p : List T, p.length = parents.length →
        (localPose M base clipDuration (timeOf s) p).length = parents.length := by
      intro p hpp
      have := localPose_spec M base clipDuration (timeOf s) p (fun b hbb t => by rw [hpp]; exact hb b hbb t)
      cases base <;> exact this.1.trans hpp
    obtain ⟨o0, e0, l0, g0⟩ := pose_objects M.mul parents hv ho _ (hll _ (hr (timeOf s))) _ (hra (timeOf s)) rawObject h0
    obtain ⟨o1, e1, l1, g1⟩ := pose_objects M.mul parents hv ho _ (hll _ (hpl (timeOf s))) _ (hla (timeOf s)) lossyObject h1
    obtain ⟨r₁, er, hs⟩ := bones_spec M hM shells o0 o1 (rawAt (timeOf s)) (lossyAt (timeOf s)) (timeOf s)
      (List.range parents.length) (fun b hb => g0 b (List.mem_range.1 hb)) (fun b hb => g1 b (List.mem_range.1 hb))
      (fun b hb => by rw [hsh]; exact List.mem_range.1 hb) done r h
    obtain ⟨r', e, h'⟩ := ih o0 o1 l0 l1 _ _ hs
    refine ⟨r', ?_, ?_⟩
    · simp only [samples, hp, e0, e1, er, Option.bind_eq_bind, Option.bind_some]; exact e
    · rw [List.flatMap_cons, ← List.append_assoc]; exact h'

/-- **C60, transforms.** The result is the first of the worst errors over the samples and, for each, over the bones. The error
of a bone is that of its object space transforms, whatever the buffers held before. -/
theorem C60_transform {T C : Type} (M : Metric T C) (hM : ∀ x y s, 0 ≤ M.error x y s) (base : Option (Base T))
    (a : TrackArray) (hv : a.isValid = true) (hq : a.type = .qvvf) (hlen : a.tracks.length < 2 ^ 32)
    (ho : Ordered (a.tracks.map (·.parentIndex))) (hn : 0 < a.tracks.length) (numSamples : Nat) (hs : 0 < numSamples)
    (hb : ∀ b, base = some b → ∀ t, (b.sample t).length = a.tracks.length)
    (shells : List ℚ) (hsh : shells.length = a.tracks.length) (rate clipDuration : ℚ)
    (raw lossy : ℚ → List T) (hr : ∀ t, (raw t).length = a.tracks.length)
    (hl : ∀ t, (outputs a).length ≤ (lossy t).length) (garbage : Nat) (garbage0 garbage1 : List C)
    (h0 : garbage0.length = a.tracks.length) (h1 : garbage1.length = a.tracks.length) :
    ∃ (m : List Nat) (r : Result) (rawAt lossyAt : ℚ → Nat → C),
      outputMapping garbage a = some m ∧
      transformError M base numSamples (a.tracks.map (·.parentIndex)) shells m rate clipDuration raw lossy garbage0 garbage1 =
        some r ∧
      (∀ t, Measured M base a clipDuration t (raw t) (lossy t) (rawAt t) (lossyAt t)) ∧
      FirstWorst ((List.range numSamples).flatMap fun s => (List.range a.tracks.length).map fun b =>
        { index := b, time := timeAt rate clipDuration s,
          error := M.error (rawAt (timeAt rate clipDuration s) b) (lossyAt (timeAt rate clipDuration s) b)
            (shells.getD b 0) }) r := by
  obtain ⟨m, em, hm⟩ := C31_bijection a hv hlen garbage
  have hpv := C59.valid_parents a hv hq hlen
  have hpl : (a.tracks.map (·.parentIndex)).length = a.tracks.length := List.length_map _
  generalize hpar : a.tracks.map (·.parentIndex) = parents at *
  haveI : Nonempty C := by
    cases hg : garbage0 with
    | nil => rw [hg] at h0; simp at h0; omega
    | cons c _ => exact ⟨c⟩
  have hpose : ∀ t, ∃ pose, remap (raw t) (lossy t) m 0 = some pose ∧ LossyPose a (raw t) (lossy t) pose :=
    fun t => remap_lossy hm hlen (raw t) (lossy t) (hr t) (hl t)
  choose pose hp hlp using hpose
  have hll : ∀ t (p : List T), p.length = a.tracks.length →
      Locals M clipDuration t p (localPose M base clipDuration t p) base := by
    intro t p hpp
    exact localPose_spec M base clipDuration t p (fun b hbb u => by rw [hpp]; exact hb b hbb u)
  have hlen' : ∀ t (p : List T), p.length = a.tracks.length → (localPose M base clipDuration t p).length = parents.length := by
    intro t p hpp
    have := hll t p hpp
    cases base <;> exact (this.1.trans hpp).trans hpl.symm
  have hr1 : ∀ t, ∃ f : Nat → C, ∀ b, b < parents.length →
      ObjectOf M.mul parents (localPose M base clipDuration t (raw t)) b (f b) :=
    fun t => objects_exist M.mul parents hpv ho _ (hlen' t _ (hr t))
  have hr2 : ∀ t, ∃ f : Nat → C, ∀ b, b < parents.length →
      ObjectOf M.mul parents (localPose M base clipDuration t (pose t)) b (f b) :=
    fun t => objects_exist M.mul parents hpv ho _ (hlen' t _ (hlp t).1)
  choose rawAt hra using hr1
  choose lossyAt hla using hr2
  obtain ⟨r, e, h⟩ := samples_spec M hM base parents hpv ho (fun b hbb t => by rw [hpl]; exact hb b hbb t) shells
    (by rw [hsh, hpl]) m clipDuration raw lossy pose (fun t => by rw [hr, hpl]) hp (fun t => by rw [(hlp t).1, hpl])
    (timeAt rate clipDuration) rawAt lossyAt hra hla (List.range numSamples) garbage0 garbage1 (by rw [h0, hpl])
    (by rw [h1, hpl]) [] Result.start (Or.inl ⟨rfl, rfl⟩)
  refine ⟨m, r, rawAt, lossyAt, em, ?_, ?_, ?_⟩
  · unfold transformError
    rw [if_neg (show ¬ numSamples = 0 by omega), if_neg (show ¬ parents.length = 0 by omega)]
    exact e
  · intro t
    refine ⟨⟨_, hll t _ (hr t), ?_⟩, ⟨pose t, _, hlp t, hll t _ (hlp t).1, ?_⟩⟩
    · intro b hbl; rw [hpar]; exact hra t b (by omega)
    · intro b hbl; rw [hpar]; exact hla t b (by omega)
  · rw [List.nil_append, hpl] at h
    apply search_done h
    intro hnil
    rw [List.flatMap_eq_nil_iff] at hnil
    have hz := hnil 0 (List.mem_range.2 hs)
    unfold boneErrors at hz
    rw [List.map_eq_nil_iff, List.range_eq_nil] at hz
    omega

/-- The rounding of the measurement: the key frames themselves, unless some may be missing. -/
theorem C60_rounding (hasDatabase hasStripped : Bool) :
    (roundingPolicy hasDatabase hasStripped = .nearest ↔ hasDatabase = false ∧ hasStripped = false) ∧
      (roundingPolicy hasDatabase hasStripped = .none ↔ hasDatabase = true ∨ hasStripped = true) := by
  cases hasDatabase <;> cases hasStripped <;> decide

/-! ### Without the order, and an example -/

/-- Translations along an axis; the error grows with the distance -/
def exMetric : Metric ℚ ℚ := { convert := id, mul := (· + ·), additive := (· + ·), error := fun x y shell => |x - y| * |shell| }

theorem exMetric_nonneg (x y s : ℚ) : 0 ≤ exMetric.error x y s := mul_nonneg (abs_nonneg _) (abs_nonneg _)

/-- Finding: the child comes before its parent, the list is valid, and the error that is reported misses that of the child:
its true error is 50, in the first bone, what is reported is 5, in the second. -/
theorem C60_unordered_finding : (C59.exArray [1, invalidIndex]).isValid = true ∧
    (∃ m, outputMapping 0 (C59.exArray [1, invalidIndex]) = some m ∧
      transformError exMetric none 1 [1, invalidIndex] [10, 1] m 30 0 (fun _ => [2, 100]) (fun _ => [2, 105]) [0, 0] [0, 0] =
        some { index := 1, error := 5, time := 0 }) ∧
    ObjectOf exMetric.mul [1, invalidIndex] [2, 100] 0 102 ∧ ObjectOf exMetric.mul [1, invalidIndex] [2, 105] 0 107 ∧
    exMetric.error 102 107 10 = 50 := by
  refine ⟨by decide +kernel, ⟨[0, 1], by decide +kernel, by decide +kernel⟩, ?_, ?_, by decide +kernel⟩
  · have : (102 : ℚ) = exMetric.mul 2 100 := by decide +kernel
    rw [this]
    exact .child (p := 1) rfl (by unfold invalidIndex; omega) rfl (.root rfl rfl)
  · have : (107 : ℚ) = exMetric.mul 2 105 := by decide +kernel
    rw [this]
    exact .child (p := 1) rfl (by unfold invalidIndex; omega) rfl (.root rfl rfl)

/-- A root and two bones below it, the second of them stripped; the base moves the root -/
def exTracks : TrackArray :=
  { tracks := [C59.exTrack 1 invalidIndex, C59.exTrack invalidIndex 0, C59.exTrack 0 1], looping := .clamp }

theorem example_measure : exTracks.isValid = true ∧ exTracks.type = .qvvf ∧
    Ordered (exTracks.tracks.map (·.parentIndex)) ∧ outputs exTracks = [1, 0] ∧
    outputMapping 9 exTracks = some [2, 0] ∧
    transformError exMetric (some { numSamples := 2, duration := 1, sample := fun t => [t, 0, 0] }) 2
      (exTracks.tracks.map (·.parentIndex)) [1, 2, 3] [2, 0] 1 1 (fun t => [t, 5, 7]) (fun t => [7 + t, 2 * t]) [0, 0, 0]
      [0, 0, 0] = some { index := 2, error := 6, time := 1 } := by
  refine ⟨by decide +kernel, by decide +kernel, ?_, by decide +kernel, by decide +kernel, by decide +kernel⟩
  intro i p h
  have hi := (List.getElem?_eq_some_iff.1 h).1
  have hi3 : i < 3 := hi
  have hp : (exTracks.tracks.map (·.parentIndex)) = [invalidIndex, 0, 1] := by decide +kernel
  rw [hp] at h
  interval_cases i <;> (simp at h; subst h; simp)

end Acl.C60
