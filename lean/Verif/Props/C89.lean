import Verif.Memory.MeasureConvert
/-!
# C89: measuring an error and converting back to raw tracks give back the memory they use

Model: Verif/Memory/MeasureConvert.lean. `live` are the blocks that were asked for and not given back, with their size; `wrong` the calls that give
back something that is not a live block of that size.
-/
namespace Acl.C89
open Acl.Mem

/-- Nothing is left and nothing was freed wrongly. -/
def Clean (m : M Unit) : Prop := Own 0 m (fun _ F => F = 0)

theorem own_allocIf (b : Bool) (size : Nat) : Own 0 (allocIf b size) (fun p F => F = optBlock p size) := by
  unfold allocIf
  cases b with
  | false => exact own_pure rfl
  | true => exact own_step 0 (own_alloc size) (by simp) (by rintro p G rfl; exact own_pure (by simp [optBlock]))

theorem clean_scalar (qvv : Nat) (a : MeasureArgs) : Clean (measureScalar qvv a) := by
  unfold Clean measureScalar
  split
  · exact own_pure rfl
  split
  · exact own_pure rfl
  unfold newWriter freeWriter
  refine own_step 0 (own_alloc _) (by simp) ?_
  rintro p0 G rfl
  refine own_step _ (own_alloc _) (zero_add _).symm ?_
  rintro p1 G rfl
  refine own_step _ (own_free p1 _) rfl ?_
  rintro _ G rfl
  exact own_cast (own_free p0 _) (by simp)

theorem clean_transform (qvv : Nat) (a : MeasureArgs) : Clean (measureTransform qvv a) := by
  unfold Clean measureTransform
  split
  · exact own_pure rfl
  split
  · exact own_pure rfl
  unfold newWriter freeWriter
  refine own_step 0 (own_alloc _) (by simp) ?_
  rintro p0 G rfl
  refine own_step _ (own_alloc _) (zero_add _).symm ?_
  rintro p1 G rfl
  refine own_step _ (own_alloc _) (zero_add _).symm ?_
  rintro p2 G rfl
  refine own_step _ (own_alloc _) (zero_add _).symm ?_
  rintro p3 G rfl
  refine own_step _ (own_allocIf _ _) (zero_add _).symm ?_
  rintro q0 G rfl
  refine own_step _ (own_allocIf _ _) (zero_add _).symm ?_
  rintro q1 G rfl
  refine own_step _ (own_allocIf _ _) (zero_add _).symm ?_
  rintro q2 G rfl
  refine own_step _ (own_alloc _) (zero_add _).symm ?_
  rintro p4 G rfl
  refine own_step _ (own_alloc _) (zero_add _).symm ?_
  rintro p5 G rfl
  refine own_step _ (own_alloc _) (zero_add _).symm ?_
  rintro p6 G rfl
  refine own_step _ (own_alloc _) (zero_add _).symm ?_
  rintro p7 G rfl
  generalize hN : a.numTracks * a.transformSize = N
  generalize hI : 4 * a.numTracks = I
  generalize hQ : qvv * a.numTracks = Q
  have e : ({(p7, I)} + ({(p6, I)} + ({(p5, N)} + ({(p4, N)} + (optBlock q2 N + (optBlock q1 N + (optBlock q0 N +
      ({(p3, Q)} + ({(p2, Q)} + ({(p1, Q)} + ({(p0, Q)} + 0)))))))))) : Blocks) =
      optBlock q0 N + (optBlock q1 N + (optBlock q2 N + ({(p4, N)} + ({(p5, N)} + ({(p6, I)} + ({(p7, I)} +
      ({(p3, Q)} + ({(p2, Q)} + ({(p1, Q)} + {(p0, Q)}))))))))) := by abel
  rw [e]
  refine own_step _ (own_freeArray q0 _) rfl ?_
  rintro _ G rfl
  refine own_step _ (own_freeArray q1 _) (zero_add _) ?_
  rintro _ G rfl
  refine own_step _ (own_freeArray q2 _) (zero_add _) ?_
  rintro _ G rfl
  refine own_step _ (own_free p4 _) (zero_add _) ?_
  rintro _ G rfl
  refine own_step _ (own_free p5 _) (zero_add _) ?_
  rintro _ G rfl
  refine own_step _ (own_free p6 _) (zero_add _) ?_
  rintro _ G rfl
  refine own_step _ (own_free p7 _) (zero_add _) ?_
  rintro _ G rfl
  refine own_step _ (own_free p3 _) (zero_add _) ?_
  rintro _ G rfl
  refine own_step _ (own_free p2 _) (zero_add _) ?_
  rintro _ G rfl
  refine own_step _ (own_free p1 _) (zero_add _) ?_
  rintro _ G rfl
  exact own_cast (own_free p0 _) (zero_add _)

theorem clean_measure (qvv : Nat) (a : MeasureArgs) : Clean (measureError qvv a) := by
  unfold measureError
  split
  · have hb : Clean (if a.transforms then measureTransform qvv a else measureScalar qvv a) := by
      split
      · exact clean_transform qvv a
      · exact clean_scalar qvv a
    unfold withMapping
    cases a.mapping with
    | none => exact hb
    | some o =>
      refine own_step 0 (own_alloc _) (by simp) ?_
      rintro p G rfl
      refine own_step _ hb (zero_add _).symm ?_
      rintro _ G rfl
      exact own_cast (own_freeArray (some p) _) (by simp [optBlock])
  · split
    · exact own_pure rfl
    · exact clean_scalar qvv a

/-- Measuring an error gives back every block it asks for, with the size it was asked for, and leaves the blocks of others, whichever the tracks,
the overload and the metric. -/
theorem C89_measure (qvv : Nat) (a : MeasureArgs) (h : Heap) (ok : h.Ok) :
    (measureError qvv a h).2.live = h.live ∧ (measureError qvv a h).2.wrong = h.wrong := by
  obtain ⟨F, rfl, l, w, -⟩ := clean_measure qvv a h h.live ok (zero_add _).symm
  exact ⟨by rw [l, zero_add], w⟩

/-- Transforms without a metric, and an empty list without a mapping, are answered without memory. -/
theorem C89_measure_none (qvv : Nat) (a : MeasureArgs) (ha : (a.metric = false ∧ a.transforms = true) ∨
    (a.mapping = none ∧ (a.numSamples = 0 ∨ a.numTracks = 0))) (h : Heap) : measureError qvv a h = ((), h) := by
  unfold measureError
  rcases ha with ⟨h1, h2⟩ | ⟨h1, h2⟩
  · rw [h1, h2]; rfl
  · have hs : measureScalar qvv a = pure () := by unfold measureScalar; rcases h2 with h2 | h2 <;> simp [h2]
    have ht : measureTransform qvv a = pure () := by unfold measureTransform; rcases h2 with h2 | h2 <;> simp [h2]
    rw [h1, hs, ht]
    unfold withMapping
    cases a.metric <;> cases a.transforms <;> rfl

/-- Specification: the block of a name. A name without characters has none. -/
def nameBlocks (s : OwnedString) : Blocks := optBlock s.ptr (s.length + 1)

/-- Specification: the blocks of a track. -/
def trackBlocks (t : NamedTrack) : Blocks := optBlock t.data t.dataSize + nameBlocks t.name

/-- Specification: the blocks of a list of raw tracks. -/
def listBlocks (trackSize : Nat) (l : NamedList) : Blocks :=
  (match l.ptr with
    | none => 0
    | some p => {(p, trackSize * l.tracks.length)} + (l.tracks.map trackBlocks).sum) + nameBlocks l.name

theorem own_newString (n : Nat) : Own 0 (newString n) (fun s F => F = nameBlocks s ∧ s.length = n ∧ (s.ptr.isSome = decide (0 < n))) := by
  unfold newString
  split
  · rename_i hn
    refine own_step 0 (own_alloc _) (by simp) ?_
    rintro p G rfl
    exact own_pure ⟨by simp [nameBlocks, optBlock], rfl, by simpa using hn⟩
  · exact own_pure ⟨rfl, by simp [OwnedString.empty]; omega, by simp [OwnedString.empty]; omega⟩

theorem own_setName (n : Nat) :
    Own 0 (setName .empty n) (fun s F => F = nameBlocks s ∧ s.length = n ∧ (s.ptr.isSome = decide (0 < n))) := by
  unfold setName
  refine own_step 0 (own_newString n) (by simp) ?_
  rintro g G ⟨rfl, hl, hp⟩
  have hc : Own 0 g.copy (fun s F => F = nameBlocks s ∧ s.length = n ∧ (s.ptr.isSome = decide (0 < n))) := by
    unfold OwnedString.copy
    split
    · rename_i hn
      rw [hn] at hp
      exact own_pure ⟨rfl, by simp [OwnedString.empty] at *; omega, by simpa [OwnedString.empty] using hp⟩
    · rw [hl]; exact own_newString n
  refine own_step _ hc (zero_add _).symm ?_
  rintro c G ⟨rfl, hcl, hcp⟩
  refine own_step _ (own_freeArray none _) (by simp only [optBlock]; exact (zero_add _).symm) ?_
  rintro _ G rfl
  refine own_step (nameBlocks c) (own_freeArray g.ptr _) (by unfold nameBlocks; simp only [zero_add, add_zero]; exact add_comm _ _) ?_
  rintro _ G rfl
  exact own_pure ⟨zero_add _, hcl, hcp⟩

/-- Specification: the track that comes of compressed tracks with a name of this length. -/
def Reserved (x : ConvertInput) (t : Bool × Nat) (r : NamedTrack) : Prop :=
  r.data.isSome = true ∧ r.dataSize = x.numSamples * x.sampleSize ∧ r.name.length = t.2

theorem own_reserve (x : ConvertInput) (t : Bool × Nat) :
    Own 0 (reserveTrack x t.2) (fun r F => F = trackBlocks r ∧ Reserved x t r) := by
  unfold reserveTrack
  refine own_step 0 (own_alloc _) (by simp) ?_
  rintro p G rfl
  have hd : NamedTrack.empty.destroy = pure () := rfl
  rw [hd, pure_bind]
  refine own_step _ (own_setName t.2) (zero_add _).symm ?_
  rintro s G ⟨rfl, hl, -⟩
  refine own_pure ⟨?_, rfl, rfl, hl⟩
  simp only [trackBlocks, optBlock, add_zero]
  exact add_comm _ _

theorem own_destroyTrack (t : NamedTrack) : Own (trackBlocks t) t.destroy (fun _ F => F = 0) := by
  unfold NamedTrack.destroy trackBlocks
  refine own_step _ (own_freeArray t.data _) rfl ?_
  rintro _ G rfl
  exact own_cast (own_freeArray t.name.ptr _) (zero_add _)

theorem own_destroyList (trackSize : Nat) (l : NamedList) : Own (listBlocks trackSize l) (l.destroy trackSize) (fun _ F => F = 0) := by
  obtain ⟨p, tracks, name⟩ := l
  unfold NamedList.destroy listBlocks
  cases p with
  | none => exact own_cast (own_freeArray name.ptr _) (zero_add _)
  | some p =>
    dsimp only
    refine own_step ({(p, trackSize * tracks.length)} + nameBlocks name)
      (own_mapM (pre := trackBlocks) (post := fun _ => 0) (Q := fun _ _ => True) tracks
        (fun t _ => own_weaken (own_destroyTrack t) (by rintro _ F rfl; exact ⟨rfl, trivial⟩))) (by abel) ?_
    rintro us G ⟨rfl, -⟩
    have : ∀ us : List Unit, (us.map fun _ => (0 : Blocks)).sum = 0 := by
      intro us
      induction us with
      | nil => rfl
      | cons u us ih => rw [List.map_cons, List.sum_cons, ih]; rfl
    rw [this]
    refine own_step _ (own_free p _) (zero_add _) ?_
    rintro _ G rfl
    exact own_cast (own_freeArray name.ptr _) (zero_add _)

/-- Specification: the conversion succeeds when the tracks are valid and all have a description. -/
def Convertible (x : ConvertInput) : Prop := x.valid = true ∧ ∀ t ∈ x.tracks, t.1 = true

/-- Specification: the list that comes out. -/
def Converted (x : ConvertInput) (l : NamedList) : Prop :=
  l.ptr.isSome = true ∧ List.Forall₂ (Reserved x) x.tracks l.tracks ∧ l.name.length = x.name

theorem own_convert (qvv trackSize : Nat) (x : ConvertInput) (out : NamedList) :
    Own (listBlocks trackSize out) (convert qvv trackSize x out) (fun r F => F = listBlocks trackSize r.2 ∧
      ((Convertible x ∧ r.1 = true ∧ Converted x r.2) ∨ (¬ Convertible x ∧ r = (false, out)))) := by
  unfold convert
  cases hv : x.valid with
  | false => exact own_pure ⟨rfl, Or.inr ⟨fun hc => by simp [Convertible, hv] at hc, rfl⟩⟩
  | true =>
    simp only [Bool.not_true, Bool.false_eq_true, if_false]
    refine own_step _ (own_alloc _) (zero_add _).symm ?_
    rintro p G rfl
    refine own_step _ (own_setName x.name) (zero_add _).symm ?_
    rintro s G ⟨rfl, hs, -⟩
    have hz : (x.tracks.map fun _ => (0 : Blocks)).sum = 0 := by
      induction x.tracks with
      | nil => rfl
      | cons u us ih => rw [List.map_cons, List.sum_cons, ih]; rfl
    refine own_step _ (own_mapM (pre := fun _ => 0) (post := trackBlocks) (Q := Reserved x) x.tracks (fun t _ => own_reserve x t))
      (by rw [hz]; exact (zero_add _).symm) ?_
    rintro ts G ⟨rfl, hq⟩
    generalize hr : (⟨some p, ts, s⟩ : NamedList) = result
    have hf : ((ts.map trackBlocks).sum + (nameBlocks s + ({(p, trackSize * x.tracks.length)} + listBlocks trackSize out)) : Blocks) =
        listBlocks trackSize result + listBlocks trackSize out := by
      subst hr
      rw [hq.length_eq]
      simp only [listBlocks]
      abel
    rw [hf]
    split
    · rename_i hn
      refine own_step _ (own_destroyList trackSize result) rfl ?_
      rintro _ G rfl
      refine own_pure ⟨zero_add _, Or.inr ⟨fun hc => ?_, rfl⟩⟩
      have : x.tracks.all (·.1) = true := List.all_eq_true.mpr hc.2
      rw [this] at hn
      simp at hn
    · rename_i hn
      unfold newWriter freeWriter
      refine own_step _ (own_alloc _) (zero_add _).symm ?_
      rintro w G rfl
      refine own_step _ (own_free w _) rfl ?_
      rintro _ G rfl
      refine own_step (listBlocks trackSize result) (own_destroyList trackSize out) (by rw [zero_add]; exact add_comm _ _) ?_
      rintro _ G rfl
      refine own_pure ⟨zero_add _, Or.inl ⟨⟨hv, ?_⟩, rfl, ?_⟩⟩
      · have : x.tracks.all (·.1) = true := by simpa using hn
        exact List.all_eq_true.mp this
      · subst hr
        exact ⟨rfl, hq, hs⟩

/-- When the conversion succeeds, the blocks of the old list are replaced by those of the new one, which has a track per track, each with room for
its samples, and names of the same length. -/
theorem C89_converted (qvv trackSize : Nat) (x : ConvertInput) (out : NamedList) (hx : Convertible x) (h : Heap) (ok : h.Ok) (R : Blocks)
    (hl : h.live = listBlocks trackSize out + R) : ∃ l, (convert qvv trackSize x out h).1 = (true, l) ∧ Converted x l ∧
      (convert qvv trackSize x out h).2.live = listBlocks trackSize l + R ∧ (convert qvv trackSize x out h).2.wrong = h.wrong := by
  obtain ⟨F, ⟨rfl, hr⟩, l, w, -⟩ := own_convert qvv trackSize x out h R ok hl
  rcases hr with ⟨-, h1, h2⟩ | ⟨hn, -⟩
  · exact ⟨_, Prod.ext h1 rfl, h2, l, w⟩
  · exact absurd hx hn

/-- Otherwise the old list is as it was and nothing is left of what was asked for. -/
theorem C89_refused (qvv trackSize : Nat) (x : ConvertInput) (out : NamedList) (hx : ¬ Convertible x) (h : Heap) (ok : h.Ok) (R : Blocks)
    (hl : h.live = listBlocks trackSize out + R) : (convert qvv trackSize x out h).1 = (false, out) ∧
      (convert qvv trackSize x out h).2.live = h.live ∧ (convert qvv trackSize x out h).2.wrong = h.wrong := by
  obtain ⟨F, ⟨rfl, hr⟩, l, w, -⟩ := own_convert qvv trackSize x out h R ok hl
  rcases hr with ⟨hc, -⟩ | ⟨-, he⟩
  · exact absurd hc hx
  · rw [he] at l
    exact ⟨he, by rw [l, hl], w⟩

/-- Destroying what came out gives back everything. -/
theorem C89_destroyed (qvv trackSize : Nat) (x : ConvertInput) (out : NamedList) (h : Heap) (ok : h.Ok) (R : Blocks)
    (hl : h.live = listBlocks trackSize out + R) :
    ((convert qvv trackSize x out >>= fun r => r.2.destroy trackSize) h).2.live = R ∧
      ((convert qvv trackSize x out >>= fun r => r.2.destroy trackSize) h).2.wrong = h.wrong := by
  have := own_bind (own_convert qvv trackSize x out) (k := fun r => r.2.destroy trackSize) (T := fun _ F => F = 0)
    (by rintro r F ⟨rfl, -⟩; exact own_destroyList trackSize r.2)
  obtain ⟨F, rfl, l, w, -⟩ := this h R ok hl
  exact ⟨by rw [l, zero_add], w⟩

/-- Concrete cases: five samples of two tracks, one without a name, over an old list of one track. -/
example : Convertible ⟨true, 4, 5, 12, [(true, 3), (true, 0)]⟩ := by unfold Convertible; decide
example : (convert 48 100 ⟨true, 4, 5, 12, [(true, 3), (true, 0)]⟩ ⟨some 0, [⟨some 1, 36, .empty⟩], .empty⟩
    ⟨2, {(0, 100), (1, 36)}, 0⟩).1 = (true, ⟨some 2, [⟨some 5, 60, ⟨some 7, 3⟩⟩, ⟨some 8, 60, ⟨none, 0⟩⟩], ⟨some 4, 4⟩⟩) := by decide +kernel
example : Heap.Ok ⟨2, {(0, 100), (1, 36)}, 0⟩ ∧
    ({(0, 100), (1, 36)} : Blocks) = listBlocks 100 ⟨some 0, [⟨some 1, 36, .empty⟩], .empty⟩ + 0 := by
  refine ⟨⟨by decide, by decide⟩, by decide +kernel⟩
example : ¬ Convertible ⟨true, 4, 5, 12, [(true, 3), (false, 0)]⟩ := by unfold Convertible; decide
example : (measureError 48 ⟨true, true, some [some 0, none], 3, 2, true, 64⟩ ⟨5, {(2, 8)}, 0⟩).2.next = 17 := by decide +kernel

end Acl.C89
