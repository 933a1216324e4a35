import Verif.Memory.Compress
/-!
What each phase of the compression owns before and after: lemmas about /repo/includes/acl/compression/impl/compress.transform.impl.h:138-607
(see Compress.lean).
-/
namespace Acl.Mem
open Acl (bitsetSize)

def Stream.foot (s : Stream) : Blocks := optBlock s.ptr (s.sampleSize * s.allocated + 15)

def Bone.foot (b : Bone) : Blocks := b.rotations.foot + b.translations.foot + b.scales.foot

/-- All a segment has, with the size it was allocated with. -/
def Segment.foot (sz : Sizes) (g : Segment) : Blocks :=
  {(g.streams, sz.bone * g.numBones)} + (g.bones.map Bone.foot).sum + optBlock g.ranges (sz.range * g.numBones) +
    optBlock g.contributing (sz.keyframe * 32)

/-- All a clip has but the segments. -/
def Clip.rest (sz : Sizes) (c : Clip) : Blocks :=
  {(c.segmentsPtr, sz.segment * c.numSegments)} + optBlock c.ranges (sz.range * c.numBones) + {(c.metadata, sz.metadata * c.numBones)} +
    optBlock c.chains (4 * (c.numLeaves * bitsetSize c.numBones)) + {(c.sorted, 4 * c.numBones)} +
    optBlock c.contributing (sz.keyframe * c.samples)

def Clip.foot (sz : Sizes) (c : Clip) : Blocks := c.rest sz + (c.segments.map (Segment.foot sz)).sum

theorem own_newStream (n z : Nat) : Own 0 (newStream n z) (fun s F => F = s.foot ∧ F.card = 1) := by
  unfold newStream
  refine own_bind (own_alloc _) ?_
  rintro p F rfl
  exact own_pure ⟨rfl, rfl⟩

theorem own_destroy (s : Stream) : Own s.foot s.destroy (fun _ F => F = 0) := own_freeArray _ _

theorem own_assign (old new : Stream) : Own (old.foot + new.foot) (assign old new) (fun s F => F = s.foot ∧ s = new) := by
  unfold assign
  refine own_step new.foot (own_destroy old) rfl ?_
  rintro _ G rfl
  exact own_pure ⟨zero_add _, rfl⟩

theorem empty_foot : Stream.empty.foot = 0 := rfl

theorem own_replace (s : Stream) (c : Option (Nat × Nat)) : Own s.foot (replace s c) (fun s' F => F = s'.foot) := by
  cases c with
  | none => exact own_pure rfl
  | some c =>
    obtain ⟨n, z⟩ := c
    refine own_step s.foot (own_newStream n z) (zero_add _).symm ?_
    rintro new G ⟨rfl, -⟩
    exact own_weaken (own_cast (own_assign s new) (add_comm _ _)) fun _ _ h => h.1

theorem own_boneReplace (b : Bone) (choice : Kind → Option (Nat × Nat)) : Own b.foot (b.replace choice) (fun b' F => F = b'.foot) := by
  unfold Bone.replace Bone.foot
  refine own_step (b.translations.foot + b.scales.foot) (own_replace b.rotations _) (by abel) ?_
  rintro r G rfl
  refine own_step (r.foot + b.scales.foot) (own_replace b.translations _) (by abel) ?_
  rintro t G rfl
  refine own_step (r.foot + t.foot) (own_replace b.scales _) (by abel) ?_
  rintro s G rfl
  exact own_pure (by dsimp only; abel)

theorem own_initBone (n : Nat) : Own 0 (initBone n) (fun b F => F = b.foot ∧ b.foot.card = 3) := by
  unfold initBone
  refine own_bind (own_newStream n 16) ?_
  rintro r F ⟨rfl, c1⟩
  refine own_bind (own_cast (own_assign .empty r) (by rw [empty_foot, zero_add])) ?_
  rintro r' F ⟨rfl, rfl⟩
  refine own_step r'.foot (own_newStream n 16) (zero_add _).symm ?_
  rintro t F ⟨rfl, c2⟩
  refine own_step r'.foot (own_assign .empty t) (by rw [empty_foot, zero_add]) ?_
  rintro t' F ⟨rfl, rfl⟩
  refine own_step (r'.foot + t'.foot) (own_newStream n 16) (by abel) ?_
  rintro s F ⟨rfl, c3⟩
  refine own_step (r'.foot + t'.foot) (own_assign .empty s) (by rw [empty_foot, zero_add]) ?_
  rintro s' F ⟨rfl, rfl⟩
  refine own_pure ⟨by unfold Bone.foot; dsimp only; abel, ?_⟩
  unfold Bone.foot
  rw [Multiset.card_add, Multiset.card_add, c1, c2, c3]

theorem own_duplicate (s : Stream) : Own 0 s.duplicate (fun s' F => F = s'.foot) := by
  unfold Stream.duplicate
  cases s.ptr with
  | none => exact own_pure rfl
  | some p =>
    refine own_bind (own_alloc _) ?_
    rintro p F rfl
    exact own_pure rfl

theorem own_cutStream (n : Nat) (k : Bool) (s : Stream) : Own 0 (cutStream n k s) (fun s' F => F = s'.foot) := by
  have fin : ∀ (m : M Stream), Own 0 m (fun s' F => F = s'.foot) → Own 0 (m >>= assign .empty) (fun s' F => F = s'.foot) := by
    intro m hm
    refine own_bind hm ?_
    rintro s' F rfl
    exact own_weaken (own_cast (own_assign .empty s') (by rw [empty_foot, zero_add])) fun _ _ h => h.1
  unfold cutStream
  cases k
  · exact fin _ (own_weaken (own_newStream _ _) fun _ _ h => h.1)
  · exact fin _ (own_duplicate s)

theorem own_cutBone (ch : Choices) (n : Nat) (b : Bone × Nat) : Own 0 (cutBone ch n b) (fun b' F => F = b'.foot ∧ True) := by
  unfold cutBone
  refine own_bind (own_cutStream n _ _) ?_
  rintro r F rfl
  refine own_step r.foot (own_cutStream n _ _) (zero_add _).symm ?_
  rintro t F rfl
  refine own_step (t.foot + r.foot) (own_cutStream n _ _) (zero_add _).symm ?_
  rintro s F rfl
  exact own_pure ⟨by unfold Bone.foot; dsimp only; abel, trivial⟩

theorem sum_zero {α : Type} (l : List α) : (l.map fun _ => (0 : Blocks)).sum = 0 := by simp

theorem sum_zipIdx {α : Type} (f : α → Blocks) (l : List α) : (l.zipIdx.map fun p => f p.1).sum = (l.map f).sum := by
  have : (l.zipIdx.map fun p => f p.1) = (l.zipIdx.map Prod.fst).map f := by rw [List.map_map]; rfl
  rw [this, List.zipIdx_map_fst]

theorem card_bones {l : List Bone} (h : ∀ b ∈ l, b.foot.card = 3) : (l.map Bone.foot).sum.card = 3 * l.length := by
  induction l with
  | nil => rfl
  | cons b l ih =>
    rw [List.map_cons, List.sum_cons, Multiset.card_add, h b (by simp), ih fun x hx => h x (by simp [hx]), List.length_cons]
    omega

/-- What is known of the counts of a clip. -/
structure Shape (c : Clip) (n m : Nat) (allocs : List Nat) (e : Bool) : Prop where
  len : c.segments.length = c.numSegments
  bones : ∀ g ∈ c.segments, g.bones.length = g.numBones ∧ g.numBones = n
  numBones : c.numBones = n
  samples : c.samples = m
  allocs : c.segments.map (·.allocated) = allocs
  err : ∀ g ∈ c.segments, g.contributing.isSome = e
  clipErr : c.contributing.isSome = e

theorem own_initChains (x : Source) : Own 0 (initChains x) (fun p F =>
    F = optBlock p (4 * ((if x.numBones = 0 then 0 else x.numLeaves) * bitsetSize x.numBones)) ∧ F.card = if x.numBones = 0 then 0 else 1) := by
  unfold initChains
  split
  · exact own_pure ⟨rfl, rfl⟩
  · refine own_bind (own_alloc _) ?_
    rintro a F rfl
    refine own_step {(a, 4 * bitsetSize x.numBones)} (own_alloc _) (zero_add _).symm ?_
    rintro b F rfl
    refine own_step {(b, 4 * (x.numLeaves * bitsetSize x.numBones))} (own_free a _) (add_comm _ _) ?_
    rintro _ F rfl
    exact own_pure ⟨zero_add _, rfl⟩

theorem own_initClip (sz : Sizes) (x : Source) : Own 0 (initClip sz x) (fun c F => F = c.foot sz ∧
    Shape c x.numBones x.numSamples [x.numSamples] false ∧ c.ranges = none ∧ F.card = 4 + 3 * x.numBones + if x.numBones = 0 then 0 else 1) := by
  unfold initClip
  refine own_bind (own_alloc _) ?_
  rintro a F rfl
  refine own_step {(a, sz.segment * 1)} (own_alloc _) (zero_add _).symm ?_
  rintro b F rfl
  refine own_step ({(b, sz.metadata * x.numBones)} + {(a, sz.segment * 1)}) (own_alloc _) (zero_add _).symm ?_
  rintro d F rfl
  refine own_step ({(d, 4 * x.numBones)} + ({(b, sz.metadata * x.numBones)} + {(a, sz.segment * 1)})) (own_alloc _) (zero_add _).symm ?_
  rintro e F rfl
  refine own_step ({(e, sz.bone * x.numBones)} + ({(d, 4 * x.numBones)} + ({(b, sz.metadata * x.numBones)} + {(a, sz.segment * 1)})))
    (own_mapM (pre := fun _ => 0) (post := Bone.foot) (Q := fun _ b => b.foot.card = 3) (List.range x.numBones)
      fun _ _ => own_initBone x.numSamples) (by rw [sum_zero, zero_add]) ?_
  rintro bones F ⟨rfl, hb⟩
  have hlen : bones.length = x.numBones := by rw [← hb.length_eq, List.length_range]
  have hcard : (bones.map Bone.foot).sum.card = 3 * x.numBones := by
    rw [← hlen]
    refine card_bones fun z hz => ?_
    obtain ⟨i, hi, e⟩ := List.mem_iff_getElem.mp hz
    rw [List.forall₂_iff_get] at hb
    have := hb.2 i (by rw [hb.1]; exact hi) hi
    simpa [← e] using this
  refine own_step _ (own_initChains x) (zero_add _).symm ?_
  rintro f F ⟨rfl, hc⟩
  refine own_pure ⟨?_, ⟨rfl, ?_, rfl, rfl, rfl, ?_, rfl⟩, rfl, ?_⟩
  · simp only [Clip.foot, Clip.rest, Segment.foot, optBlock, List.map_cons, List.map_nil, List.sum_cons, List.sum_nil]
    abel
  · simp [hlen]
  · simp
  · simp only [Multiset.card_add, hc, hcard, Multiset.card_singleton]
    omega

/-- A segment is changed without changing its counts. -/
structure Like (e : Bool) (g g' : Segment) : Prop where
  bones : g'.bones.length = g.bones.length
  numBones : g'.numBones = g.numBones
  allocated : g'.allocated = g.allocated
  samples : g'.samples = g.samples
  err : g'.contributing.isSome = (g.contributing.isSome || e)

theorem like_mem {e : Bool} {l l' : List Segment} (h : List.Forall₂ (Like e) l l') : ∀ g' ∈ l', ∃ g ∈ l, Like e g g' := by
  induction h with
  | nil => simp
  | cons h _ ih =>
    intro g' hg
    rcases List.mem_cons.mp hg with rfl | hg
    · exact ⟨_, by simp, h⟩
    · obtain ⟨g, hm, hl⟩ := ih g' hg
      exact ⟨g, by simp [hm], hl⟩

theorem like_map {e : Bool} {l l' : List Segment} (h : List.Forall₂ (Like e) l l') :
    l'.map (·.allocated) = l.map (·.allocated) ∧ l'.map (·.samples) = l.map (·.samples) := by
  induction h with
  | nil => exact ⟨rfl, rfl⟩
  | cons h _ ih => exact ⟨by rw [List.map_cons, List.map_cons, ih.1, h.allocated], by rw [List.map_cons, List.map_cons, ih.2, h.samples]⟩

theorem shape_like {c : Clip} {n m : Nat} {allocs : List Nat} {e : Bool} (hs : Shape c n m allocs false) {l : List Segment}
    (h : List.Forall₂ (Like e) c.segments l) : l.length = c.numSegments ∧ (∀ g ∈ l, g.bones.length = g.numBones ∧ g.numBones = n) ∧
      l.map (·.allocated) = allocs ∧ (∀ g ∈ l, g.contributing.isSome = e) := by
  refine ⟨by rw [← h.length_eq, hs.len], ?_, by rw [(like_map h).1, hs.allocs], ?_⟩
  · intro g' hg
    obtain ⟨g, hm, hl⟩ := like_mem h g' hg
    have := hs.bones g hm
    exact ⟨by rw [hl.bones, hl.numBones, this.1], by rw [hl.numBones, this.2]⟩
  · intro g' hg
    obtain ⟨g, hm, hl⟩ := like_mem h g' hg
    rw [hl.err, hs.err g hm, Bool.false_or]

/-- All segments are changed. -/
theorem own_segments (sz : Sizes) (c : Clip) {n m : Nat} {allocs : List Nat} (hs : Shape c n m allocs false) (f : Segment → M Segment)
    (hf : ∀ g ∈ c.segments, Own (g.foot sz) (f g) (fun g' F => F = g'.foot sz ∧ Like false g g')) :
    Own (c.foot sz) (c.segments.mapM f >>= fun l => pure { c with segments := l })
      (fun c' F => F = c'.foot sz ∧ Shape c' n m allocs false ∧ c'.ranges = c.ranges) := by
  refine own_step (c.rest sz) (own_mapM (pre := Segment.foot sz) (post := Segment.foot sz) (Q := Like false) c.segments hf)
    (by unfold Clip.foot; abel) ?_
  rintro l F ⟨rfl, hl⟩
  have := shape_like hs hl
  refine own_pure ⟨?_, ⟨this.1, this.2.1, hs.numBones, hs.samples, this.2.2.1, this.2.2.2, hs.clipErr⟩, rfl⟩
  unfold Clip.foot Clip.rest
  dsimp only
  abel

/-- The bones of a segment are changed. -/
theorem own_bones (sz : Sizes) (g : Segment) (f : Bone × Nat → M Bone) (hf : ∀ b, Own b.1.foot (f b) (fun b' F => F = b'.foot)) :
    Own (g.foot sz) (g.bones.zipIdx.mapM f >>= fun l => pure { g with bones := l }) (fun g' F => F = g'.foot sz ∧ Like false g g') := by
  refine own_step ({(g.streams, sz.bone * g.numBones)} + optBlock g.ranges (sz.range * g.numBones) + optBlock g.contributing (sz.keyframe * 32))
    (own_mapM (pre := fun b => b.1.foot) (post := Bone.foot) (Q := fun _ _ => True) g.bones.zipIdx
      fun b _ => own_weaken (hf b) fun _ _ h => ⟨h, trivial⟩) (by rw [sum_zipIdx]; unfold Segment.foot; abel) ?_
  rintro l F ⟨rfl, hl⟩
  refine own_pure ⟨by unfold Segment.foot; dsimp only; abel, ?_, rfl, rfl, rfl, by simp⟩
  rw [← hl.length_eq, List.length_zipIdx]

theorem own_bones' (sz : Sizes) (g : Segment) (f : Bone → M Bone) (hf : ∀ b, Own b.foot (f b) (fun b' F => F = b'.foot)) :
    Own (g.foot sz) (g.bones.mapM f >>= fun l => pure { g with bones := l }) (fun g' F => F = g'.foot sz ∧ Like false g g') := by
  refine own_step ({(g.streams, sz.bone * g.numBones)} + optBlock g.ranges (sz.range * g.numBones) + optBlock g.contributing (sz.keyframe * 32))
    (own_mapM (pre := Bone.foot) (post := Bone.foot) (Q := fun _ _ => True) g.bones
      fun b _ => own_weaken (hf b) fun _ _ h => ⟨h, trivial⟩) (by unfold Segment.foot; abel) ?_
  rintro l F ⟨rfl, hl⟩
  exact own_pure ⟨by unfold Segment.foot; dsimp only; abel, hl.length_eq.symm, rfl, rfl, rfl, by simp⟩

theorem own_convertClip (sz : Sizes) (c : Clip) {n m : Nat} {allocs : List Nat} (hs : Shape c n m allocs false) :
    Own (c.foot sz) (convertClip c) (fun c' F => F = c'.foot sz ∧ Shape c' n m allocs false ∧ c'.ranges = c.ranges) := by
  refine own_segments sz c hs convertSegment fun g _ => own_bones' sz g _ fun b => ?_
  unfold Bone.foot
  refine own_step (b.rotations.foot + b.translations.foot + b.scales.foot) (own_newStream _ _) (zero_add _).symm ?_
  rintro r F ⟨rfl, -⟩
  refine own_step (b.translations.foot + b.scales.foot) (own_assign b.rotations r) (by abel) ?_
  rintro r' F ⟨rfl, rfl⟩
  exact own_pure (by dsimp only; abel)

theorem own_compactClip (sz : Sizes) (ch : Choices) (c : Clip) {n m : Nat} {allocs : List Nat} (hs : Shape c n m allocs false) :
    Own (c.foot sz) (compactClip ch c) (fun c' F => F = c'.foot sz ∧ Shape c' n m allocs false ∧ c'.ranges = c.ranges) :=
  own_segments sz c hs (compactSegment ch) fun g _ => own_bones sz g _ fun b => own_boneReplace b.1 _

theorem own_clipRanges (sz : Sizes) (c : Clip) {n m : Nat} {allocs : List Nat} (hs : Shape c n m allocs false) (hr : c.ranges = none) :
    Own (c.foot sz) (clipRanges sz c) (fun c' F => F = c'.foot sz ∧ Shape c' n m allocs false) := by
  unfold clipRanges
  refine own_step (c.foot sz) (own_alloc _) (zero_add _).symm ?_
  rintro p F rfl
  refine own_pure ⟨?_, hs.len, hs.bones, hs.numBones, hs.samples, hs.allocs, hs.err, hs.clipErr⟩
  unfold Clip.foot Clip.rest
  rw [hr]
  simp only [optBlock]
  abel

theorem own_of_ownW {α : Type} {P X : Blocks} {m : M α} (h : OwnW P m X 0) : Own P m (fun _ F => F = X) := by
  intro h' R ok hl
  obtain ⟨l, w, ok'⟩ := h h' R ok hl
  exact ⟨X, rfl, l, by rw [w, zero_add], ok'⟩

/-- What a segment does not free, because it asks with another size. -/
def Segment.left (sz : Sizes) (g : Segment) : Blocks :=
  if sz.keyframe * 32 = sz.keyframe * g.allocated then 0 else optBlock g.contributing (sz.keyframe * 32)

/-- What a segment frees wrongly. -/
def Segment.bad (sz : Sizes) (g : Segment) : Blocks :=
  if sz.keyframe * 32 = sz.keyframe * g.allocated then 0 else optBlock g.contributing (sz.keyframe * g.allocated)

theorem own_boneDestroy (b : Bone) : Own b.foot b.destroy (fun _ F => F = 0) := by
  unfold Bone.destroy Bone.foot
  refine own_step (b.rotations.foot + b.translations.foot) (own_destroy b.scales) (by abel) ?_
  rintro _ F rfl
  refine own_step b.rotations.foot (own_destroy b.translations) (by abel) ?_
  rintro _ F rfl
  exact own_cast (own_destroy b.rotations) (by abel)

theorem own_destroyBones : ∀ l : List Bone, Own (l.map Bone.foot).sum (destroyBones l) (fun _ F => F = 0)
  | [] => own_pure rfl
  | b :: l => by
    unfold destroyBones
    refine own_step (l.map Bone.foot).sum (own_boneDestroy b) (by rw [List.map_cons, List.sum_cons]) ?_
    rintro _ F rfl
    exact own_cast (own_destroyBones l) (zero_add _)

theorem ownW_contributing (sz : Sizes) (g : Segment) :
    OwnW (optBlock g.contributing (sz.keyframe * 32)) (freeArray g.contributing (sz.keyframe * g.allocated)) (g.left sz) (g.bad sz) := by
  unfold Segment.left Segment.bad
  split
  · rename_i h
    rw [h]
    exact ownW_of_own (own_freeArray _ _)
  · rename_i h
    cases hc : g.contributing with
    | none => exact ownW_of_own (own_pure rfl)
    | some p => exact ownW_free_wrong p _ _ h

theorem ownW_destroySegment (sz : Sizes) (g : Segment) (hg : g.bones.length = g.numBones) :
    OwnW (g.foot sz) (destroySegment sz g) (g.left sz) (g.bad sz) := by
  unfold destroySegment Segment.foot
  rw [List.take_of_length_le (by omega)]
  refine ownW_cast (ownW_step ({(g.streams, sz.bone * g.numBones)} + optBlock g.ranges (sz.range * g.numBones) +
    optBlock g.contributing (sz.keyframe * 32)) (ownW_of_own (own_destroyBones g.bones)) rfl fun _ =>
    ownW_step (optBlock g.ranges (sz.range * g.numBones) + optBlock g.contributing (sz.keyframe * 32))
      (ownW_of_own (own_free _ _)) ?_ fun _ => ownW_step (optBlock g.contributing (sz.keyframe * 32)) (ownW_of_own (own_freeArray _ _)) ?_
      fun _ => ownW_cast (ownW_contributing sz g) ?_ rfl rfl) (by abel) rfl (by rw [zero_add, zero_add, zero_add])
  · abel
  · abel
  · abel

theorem ownW_destroySegments (sz : Sizes) : ∀ l : List Segment, (∀ g ∈ l, g.bones.length = g.numBones) →
    OwnW (l.map (Segment.foot sz)).sum (destroySegments sz l) (l.map (Segment.left sz)).sum (l.map (Segment.bad sz)).sum
  | [], _ => ownW_of_own (own_pure rfl)
  | g :: l, h => by
    unfold destroySegments
    rw [List.map_cons, List.map_cons, List.map_cons, List.sum_cons, List.sum_cons, List.sum_cons]
    refine ownW_step (l.map (Segment.foot sz)).sum (ownW_destroySegment sz g (h g (by simp))) rfl fun _ => ?_
    exact ownW_cast (ownW_frame (g.left sz) (ownW_destroySegments sz l fun x hx => h x (by simp [hx]))) (add_comm _ _) (add_comm _ _) rfl

def Clip.left (sz : Sizes) (c : Clip) : Blocks := (c.segments.map (Segment.left sz)).sum

def Clip.bad (sz : Sizes) (c : Clip) : Blocks := (c.segments.map (Segment.bad sz)).sum

theorem ownW_destroyClip (sz : Sizes) (c : Clip) {n m : Nat} {allocs : List Nat} {e : Bool} (hs : Shape c n m allocs e) :
    OwnW (c.foot sz) (destroyClip sz c) (c.left sz) (c.bad sz) := by
  unfold destroyClip Clip.foot
  rw [List.take_of_length_le (by rw [hs.len])]
  have tail : Own (c.rest sz) (do
      free c.segmentsPtr (sz.segment * c.numSegments)
      freeArray c.ranges (sz.range * c.numBones)
      free c.metadata (sz.metadata * c.numBones)
      freeArray c.chains (4 * (c.numLeaves * bitsetSize c.numBones))
      free c.sorted (4 * c.numBones)
      freeArray c.contributing (sz.keyframe * c.samples)) (fun _ F => F = 0) := by
    unfold Clip.rest
    refine own_step (optBlock c.ranges (sz.range * c.numBones) + {(c.metadata, sz.metadata * c.numBones)} +
      optBlock c.chains (4 * (c.numLeaves * bitsetSize c.numBones)) + {(c.sorted, 4 * c.numBones)} +
      optBlock c.contributing (sz.keyframe * c.samples)) (own_free _ _) (by abel) ?_
    rintro _ F rfl
    refine own_step ({(c.metadata, sz.metadata * c.numBones)} +
      optBlock c.chains (4 * (c.numLeaves * bitsetSize c.numBones)) + {(c.sorted, 4 * c.numBones)} +
      optBlock c.contributing (sz.keyframe * c.samples)) (own_freeArray _ _) (by abel) ?_
    rintro _ F rfl
    refine own_step (optBlock c.chains (4 * (c.numLeaves * bitsetSize c.numBones)) + {(c.sorted, 4 * c.numBones)} +
      optBlock c.contributing (sz.keyframe * c.samples)) (own_free _ _) (by abel) ?_
    rintro _ F rfl
    refine own_step ({(c.sorted, 4 * c.numBones)} + optBlock c.contributing (sz.keyframe * c.samples)) (own_freeArray _ _) (by abel) ?_
    rintro _ F rfl
    refine own_step (optBlock c.contributing (sz.keyframe * c.samples)) (own_free _ _) (by abel) ?_
    rintro _ F rfl
    exact own_cast (own_freeArray _ _) (zero_add _)
  refine ownW_cast (ownW_step (c.rest sz) (ownW_destroySegments sz c.segments fun g hg => (hs.bones g hg).1) rfl fun _ =>
    ownW_cast (ownW_frame _ (ownW_of_own tail)) (add_comm _ _) rfl rfl) (add_comm _ _) (by rw [zero_add]; rfl) (by rw [add_zero]; rfl)

theorem left_none {sz : Sizes} {g : Segment} (h : g.contributing.isSome = false) : g.left sz = 0 ∧ g.bad sz = 0 := by
  have : g.contributing = none := by simpa using h
  unfold Segment.left Segment.bad
  rw [this]
  simp [optBlock]

theorem sum_map_zero {l : List Segment} {f : Segment → Blocks} (h : ∀ g ∈ l, f g = 0) : (l.map f).sum = 0 := by
  induction l with
  | nil => rfl
  | cons g l ih => rw [List.map_cons, List.sum_cons, h g (by simp), ih fun x hx => h x (by simp [hx]), zero_add]

theorem own_destroyClip (sz : Sizes) (c : Clip) {n m : Nat} {allocs : List Nat} (hs : Shape c n m allocs false) :
    Own (c.foot sz) (destroyClip sz c) (fun _ F => F = 0) := by
  have h := ownW_destroyClip sz c hs
  have h1 : c.left sz = 0 := sum_map_zero fun g hg => (left_none (hs.err g hg)).1
  have h2 : c.bad sz = 0 := sum_map_zero fun g hg => (left_none (hs.err g hg)).2
  rw [h1, h2] at h
  exact own_of_ownW h

theorem own_destroySegment (sz : Sizes) (g : Segment) (hg : g.bones.length = g.numBones) (he : g.contributing.isSome = false) :
    Own (g.foot sz) (destroySegment sz g) (fun _ F => F = 0) := by
  have h := ownW_destroySegment sz g hg
  rw [(left_none he).1, (left_none he).2] at h
  exact own_of_ownW h

theorem foot_stripLast (s : Stream) : s.stripLast.foot = s.foot := by
  unfold Stream.stripLast
  split <;> rfl

/-- Specification of how many samples are kept: the last one is dropped when the clip loops. -/
def keptSamples (s : Settings.Settings) (ch : Choices) (wrapPolicy : Bool) (x : Source) : Nat :=
  if s.optimizeLoops = true ∧ wrapPolicy = false ∧ ¬ (s.rotation = .full ∧ s.translation = .full ∧ s.scale = .full) ∧ 1 < x.numSamples ∧
      x.numBones ≠ 0 ∧ ch.wraps = true then x.numSamples - 1 else x.numSamples

theorem loopClip_spec (sz : Sizes) (s : Settings.Settings) (ch : Choices) (w : Bool) (x : Source) (c : Clip) {allocs : List Nat}
    (hs : Shape c x.numBones x.numSamples allocs false) :
    (loopClip s ch w c).foot sz = c.foot sz ∧ Shape (loopClip s ch w c) x.numBones (keptSamples s ch w x) allocs false ∧
      (loopClip s ch w c).ranges = c.ranges := by
  unfold loopClip keptSamples
  have e1 := hs.samples
  have e2 := hs.numBones
  rw [← e1, ← e2] at hs ⊢
  split
  · rename_i h
    rw [if_neg]
    · exact ⟨rfl, hs, rfl⟩
    · rintro ⟨h1, h2, h3, h4, h5, h6⟩
      simp only [h1, h2, h6, Bool.not_true, Bool.false_or, Bool.or_false, Bool.or_eq_true, Bool.and_eq_true, beq_iff_eq, decide_eq_true_eq] at h
      rcases h with (h | h) | h
      · exact h3 ⟨h.1.1, h.1.2, h.2⟩
      · omega
      · exact h5 h
  · rename_i h
    rw [if_pos]
    · refine ⟨?_, ⟨by simp [hs.len], ?_, rfl, rfl, by simpa [Function.comp_def] using hs.allocs, ?_, hs.clipErr⟩, rfl⟩
      · have hc : c.contributing = none := by simpa using hs.clipErr
        unfold Clip.foot Clip.rest
        dsimp only
        rw [hc, List.map_map]
        congr 2
        refine List.map_congr_left fun g _ => ?_
        simp only [Function.comp_apply, Segment.foot, List.map_map]
        congr 4
        refine List.map_congr_left fun b _ => ?_
        simp only [Function.comp_apply, Bone.foot, foot_stripLast]
      · intro g hg
        simp only [List.mem_map] at hg
        obtain ⟨g, hg, rfl⟩ := hg
        simpa using hs.bones g hg
      · intro g hg
        simp only [List.mem_map] at hg
        obtain ⟨g, hg, rfl⟩ := hg
        exact hs.err g hg
    · simp only [Bool.not_eq_true, Bool.or_eq_false_iff, Bool.not_eq_false', decide_eq_false_iff_not, Bool.and_eq_false_imp,
        beq_eq_false_iff_ne] at h
      obtain ⟨⟨⟨⟨⟨h1, h2⟩, h3⟩, h4⟩, h5⟩, h6⟩ := h
      exact ⟨h1, h2, fun ⟨a, b, d⟩ => by simp [a, b, d] at h3, by omega, h5, h6⟩

theorem own_cutSegment (sz : Sizes) (ch : Choices) (n : Nat) (bones : List Bone) (hb : bones.length = n) (count : Nat) :
    Own 0 (cutSegment sz ch n bones count) (fun g F => F = g.foot sz ∧ g.bones.length = n ∧ g.numBones = n ∧ g.allocated = count ∧
      g.contributing = none ∧ g.ranges = none) := by
  unfold cutSegment
  refine own_bind (own_alloc _) ?_
  rintro p F rfl
  refine own_step {(p, sz.bone * n)} (own_mapM (pre := fun _ => 0) (post := Bone.foot) (Q := fun _ _ => True) bones.zipIdx
    fun b _ => own_cutBone ch count b) (by rw [sum_zero, zero_add]) ?_
  rintro l F ⟨rfl, hl⟩
  refine own_pure ⟨by unfold Segment.foot; simp only [optBlock]; abel, ?_, rfl, rfl, rfl, rfl⟩
  rw [← hl.length_eq, List.length_zipIdx, hb]

/-- The samples of the segments: those of the split, or all there were (the dropped one included). -/
def splitCounts (seg : Segmenting.Settings) (kept total : Nat) : List Nat :=
  match Segmenting.splitSamplesPerSegment kept seg with
  | none => [total]
  | some counts => counts

theorem own_segmentClip (sz : Sizes) (ch : Choices) (seg : Segmenting.Settings) (c : Clip) {n m total : Nat}
    (hs : Shape c n m [total] false) :
    Own (c.foot sz) (segmentClip sz ch seg c) (fun c' F => F = c'.foot sz ∧ Shape c' n m (splitCounts seg m total) false ∧
      (c'.numSegments = 1 ∨ ∀ g ∈ c'.segments, g.ranges = none)) := by
  have hal := hs.allocs
  obtain ⟨whole, hw⟩ : ∃ whole, c.segments = [whole] := by
    match hq : c.segments with
    | [] => rw [hq] at hal; simp at hal
    | [w] => exact ⟨w, rfl⟩
    | _ :: _ :: _ => rw [hq] at hal; simp at hal
  have hn : c.numSegments = 1 := by rw [← hs.len, hw]; rfl
  unfold segmentClip splitCounts
  rw [hw, hs.samples, hs.numBones]
  cases hsp : Segmenting.splitSamplesPerSegment m seg with
  | none => exact own_pure ⟨rfl, hs, Or.inl hn⟩
  | some counts =>
    dsimp only
    have hwb := hs.bones whole (by simp [hw])
    have hwe := hs.err whole (by simp [hw])
    refine own_step (c.foot sz) (own_alloc _) (zero_add _).symm ?_
    rintro per F rfl
    refine own_step ({(per, 4 * estimated seg m)} + c.foot sz) (own_alloc _) (zero_add _).symm ?_
    rintro segs F rfl
    refine own_step ({(segs, sz.segment * counts.length)} + ({(per, 4 * estimated seg m)} + c.foot sz))
      (own_mapM (pre := fun _ => 0) (post := Segment.foot sz) (Q := fun count g => g.bones.length = n ∧ g.numBones = n ∧ g.allocated = count ∧
        g.contributing = none ∧ g.ranges = none) counts fun count _ => own_cutSegment sz ch n whole.bones (hwb.1.trans hwb.2) count)
      (by rw [sum_zero, zero_add]) ?_
    rintro list F ⟨rfl, hl⟩
    refine own_step ((list.map (Segment.foot sz)).sum + {(segs, sz.segment * counts.length)} + c.foot sz) (own_free per _) (by abel) ?_
    rintro _ F rfl
    have hrest : c.rest sz = {(c.segmentsPtr, sz.segment * 1)} + (optBlock c.ranges (sz.range * c.numBones) +
        {(c.metadata, sz.metadata * c.numBones)} + optBlock c.chains (4 * (c.numLeaves * bitsetSize c.numBones)) + {(c.sorted, 4 * c.numBones)} +
        optBlock c.contributing (sz.keyframe * c.samples)) := by
      unfold Clip.rest
      rw [hn]
      abel
    refine own_step ((list.map (Segment.foot sz)).sum + {(segs, sz.segment * counts.length)} + c.rest sz)
      (own_destroySegment sz whole hwb.1 hwe) (by unfold Clip.foot; rw [hw, List.map_cons, List.map_nil, List.sum_cons, List.sum_nil]; abel) ?_
    rintro _ F rfl
    refine own_step _ (own_free c.segmentsPtr (sz.segment * 1)) (by rw [hrest, zero_add, add_left_comm]) ?_
    rintro _ F rfl
    have hmem : ∀ g ∈ list, ∃ count ∈ counts, g.bones.length = n ∧ g.numBones = n ∧ g.allocated = count ∧
        g.contributing = none ∧ g.ranges = none := by
      clear hsp
      induction hl with
      | nil => simp
      | cons h _ ih =>
        intro g hg
        rcases List.mem_cons.mp hg with rfl | hg
        · exact ⟨_, by simp, h⟩
        · obtain ⟨k, hk, h⟩ := ih g hg
          exact ⟨k, by simp [hk], h⟩
    have hmap : list.map (·.allocated) = counts := by
      clear hsp hmem
      induction hl with
      | nil => rfl
      | cons h _ ih => rw [List.map_cons, h.2.2.1, ih]
    refine own_pure ⟨?_, ⟨hl.length_eq.symm, ?_, rfl, rfl, hmap, ?_, hs.clipErr⟩, Or.inr ?_⟩
    · unfold Clip.foot Clip.rest
      dsimp only
      rw [hs.numBones, hs.samples]
      abel
    · intro g hg
      obtain ⟨_, _, h⟩ := hmem g hg
      exact ⟨h.1.trans h.2.1.symm, h.2.1⟩
    · intro g hg
      obtain ⟨_, _, h⟩ := hmem g hg
      rw [h.2.2.2.1]; rfl
    · intro g hg
      obtain ⟨_, _, h⟩ := hmem g hg
      exact h.2.2.2.2

theorem own_segmentRanges (sz : Sizes) (reduced : Bool) (c : Clip) {n m : Nat} {allocs : List Nat} (hs : Shape c n m allocs false)
    (hr : c.numSegments = 1 ∨ ∀ g ∈ c.segments, g.ranges = none) :
    Own (c.foot sz) (segmentRanges sz reduced c) (fun c' F => F = c'.foot sz ∧ Shape c' n m allocs false) := by
  unfold segmentRanges
  split
  · rename_i h
    simp only [Bool.and_eq_true, decide_eq_true_eq] at h
    have hr : ∀ g ∈ c.segments, g.ranges = none := by
      rcases hr with hr | hr
      · omega
      · exact hr
    refine own_weaken (own_segments sz c hs _ fun g hg => ?_) fun _ _ h => ⟨h.1, h.2.1⟩
    refine own_step (g.foot sz) (own_alloc _) (zero_add _).symm ?_
    rintro p F rfl
    refine own_pure ⟨?_, rfl, rfl, rfl, rfl, by simp⟩
    unfold Segment.foot
    rw [hr g hg]
    simp only [optBlock]
    abel
  · exact own_pure ⟨rfl, hs⟩

def footAll : List (Option Nat) → List Nat → Blocks
  | p :: ps, size :: sizes => optBlock p size + footAll ps sizes
  | _, _ => 0

theorem own_freeAll : ∀ (ps : List (Option Nat)) (sizes : List Nat), Own (footAll ps sizes) (freeAll ps sizes) (fun _ F => F = 0)
  | [], _ => own_pure rfl
  | _ :: _, [] => own_pure rfl
  | p :: ps, size :: sizes => by
    unfold footAll freeAll
    refine own_step (footAll ps sizes) (own_freeArray p size) rfl ?_
    rintro _ F rfl
    exact own_cast (own_freeAll ps sizes) (zero_add _)

theorem own_allocAll {l : List (Option Nat)} {sizes : List Nat} (h : List.Forall₂ (fun o size => o = none ∨ o = some size) l sizes) :
    Own 0 (allocAll l) (fun ps F => F = footAll ps sizes) := by
  induction h with
  | nil => exact own_pure rfl
  | cons h _ ih =>
    rcases h with rfl | rfl
    · unfold allocAll
      refine own_bind ih ?_
      rintro ps F rfl
      exact own_pure (by simp [footAll, optBlock])
    · unfold allocAll
      refine own_bind (own_alloc _) ?_
      rintro p F rfl
      refine own_step _ ih (zero_add _).symm ?_
      rintro ps F rfl
      exact own_pure (by simp only [footAll, optBlock]; abel)

theorem quantize_sizes (sz : Sizes) (ch : Choices) (a e : Bool) (n m : Nat) :
    List.Forall₂ (fun o size => o = none ∨ o = some size) (quantizeSizes sz ch a e n m) (quantizeFrees sz n m) := by
  unfold quantizeSizes quantizeFrees
  repeat' (first | exact List.Forall₂.nil | refine List.Forall₂.cons ?_ ?_)
  all_goals first | (right; rfl) | (split <;> simp)

theorem own_searchRates (sz : Sizes) (n : Nat) : Own 0 (searchRates sz n) (fun _ F => F = 0) := by
  unfold searchRates
  refine own_bind (own_alloc _) ?_
  rintro a F rfl
  refine own_step {(a, 1 * n)} (own_alloc _) (zero_add _).symm ?_
  rintro b F rfl
  refine own_step ({(b, sz.bitRates * n)} + {(a, 1 * n)}) (own_alloc _) (zero_add _).symm ?_
  rintro c F rfl
  refine own_step ({(c, sz.bitRates * n)} + ({(b, sz.bitRates * n)} + {(a, 1 * n)})) (own_alloc _) (zero_add _).symm ?_
  rintro d F rfl
  refine own_step ({(d, sz.bitRates * n)} + {(c, sz.bitRates * n)} + {(b, sz.bitRates * n)}) (own_free a _) (by abel) ?_
  rintro _ F rfl
  refine own_step ({(d, sz.bitRates * n)} + {(c, sz.bitRates * n)}) (own_free b _) (by abel) ?_
  rintro _ F rfl
  refine own_step {(d, sz.bitRates * n)} (own_free c _) (by abel) ?_
  rintro _ F rfl
  exact own_cast (own_free d _) (by abel)

theorem own_contributingError (sz : Sizes) (g : Segment) (hg : g.contributing.isSome = false) :
    Own (g.foot sz) (contributingError sz g) (fun g' F => F = g'.foot sz ∧ Like true g g') := by
  have : g.contributing = none := by simpa using hg
  unfold contributingError
  rw [this]
  refine own_step (g.foot sz) (own_alloc _) (zero_add _).symm ?_
  rintro p F rfl
  refine own_pure ⟨?_, rfl, rfl, rfl, rfl, by simp⟩
  unfold Segment.foot
  rw [this]
  simp only [optBlock]
  abel

theorem own_quantizeSegment (sz : Sizes) (ch : Choices) (searched e : Bool) (n : Nat) (g : Segment × Nat) (hg : g.1.contributing.isSome = false) :
    Own (g.1.foot sz) (quantizeSegment sz ch searched e n g) (fun g' F => F = g'.foot sz ∧ Like e g.1 g') := by
  have fin : ∀ g1 : Segment, Like e g.1 g1 → Own (g1.foot sz) (g1.bones.zipIdx.mapM
      (fun b => b.1.replace fun k => if k = .scale ∧ ch.hasScale = false then none else ch.quantized g.2 b.2 k) >>=
        fun l => pure { g1 with bones := l }) (fun g' F => F = g'.foot sz ∧ Like e g.1 g') := by
    intro g1 h1
    refine own_weaken (own_bones sz g1 _ fun b => own_boneReplace b.1 _) ?_
    rintro g' F ⟨hF, h2⟩
    exact ⟨hF, h2.bones.trans h1.bones, h2.numBones.trans h1.numBones, h2.allocated.trans h1.allocated, h2.samples.trans h1.samples,
      by rw [h2.err, h1.err, Bool.or_false]⟩
  have mid : Own (g.1.foot sz) (do
      let s ← if e then contributingError sz g.1 else pure g.1
      let bones ← s.bones.zipIdx.mapM fun b => b.1.replace fun k => if k = .scale ∧ ch.hasScale = false then none else ch.quantized g.2 b.2 k
      return { s with bones := bones }) (fun g' F => F = g'.foot sz ∧ Like e g.1 g') := by
    cases e with
    | false => exact fin g.1 ⟨rfl, rfl, rfl, rfl, by simp⟩
    | true =>
      refine own_bind (own_contributingError sz g.1 hg) ?_
      rintro g1 F ⟨rfl, h1⟩
      exact fin g1 h1
  unfold quantizeSegment
  cases searched with
  | false => exact mid
  | true =>
    refine own_step (g.1.foot sz) (own_searchRates sz n) (zero_add _).symm ?_
    rintro _ F rfl
    exact own_cast mid (zero_add _)

theorem own_sortErrors (sz : Sizes) (c : Clip) (h : c.contributing = none) :
    Own (c.foot sz) (sortErrors sz c) (fun c' F => F = c'.foot sz ∧ ∃ p, c' = { c with contributing := some p }) := by
  unfold sortErrors
  rw [h]
  refine own_step (c.foot sz) (own_alloc _) (zero_add _).symm ?_
  rintro p F rfl
  refine own_step _ (own_alloc _) (zero_add _).symm ?_
  rintro t F rfl
  refine own_step _ (own_free t _) rfl ?_
  rintro _ F rfl
  refine own_pure ⟨?_, p, rfl⟩
  unfold Clip.foot Clip.rest
  rw [h]
  simp only [optBlock]
  abel

theorem forall_zipIdx {α β : Type} {P : α → β → Prop} {l : List α} {l' : List β} {k : Nat} (h : List.Forall₂ (fun (a : α × Nat) b => P a.1 b) (l.zipIdx k) l') :
    List.Forall₂ P l l' := by
  induction l generalizing l' k with
  | nil => cases h; exact .nil
  | cons a l ih =>
    rw [List.zipIdx_cons] at h
    cases h with
    | cons h1 h2 => exact .cons h1 (ih h2)

theorem own_quantizeClip (sz : Sizes) (ch : Choices) (a searched e : Bool) (c : Clip) {n m : Nat} {allocs : List Nat}
    (hs : Shape c n m allocs false) :
    Own (c.foot sz) (quantizeClip sz ch a searched e c)
      (fun c' F => F = c'.foot sz ∧ Shape c' n m allocs (e && decide (n ≠ 0) && decide (m ≠ 0))) := by
  obtain rfl := hs.numBones
  obtain rfl := hs.samples
  unfold quantizeClip
  split
  · rename_i h
    refine own_pure ⟨rfl, ?_⟩
    have : (e && decide (c.numBones ≠ 0) && decide (c.samples ≠ 0)) = false := by
      rcases h with h | h <;> simp [h]
    rw [this]
    exact hs
  · rename_i h
    have : (e && decide (c.numBones ≠ 0) && decide (c.samples ≠ 0)) = e := by
      have h1 : c.numBones ≠ 0 := fun h' => h (Or.inl h')
      have h2 : c.samples ≠ 0 := fun h' => h (Or.inr h')
      simp [h1, h2]
    rw [this]
    refine own_step (c.foot sz) (own_allocAll (quantize_sizes sz ch a e _ _)) (zero_add _).symm ?_
    rintro arrays F rfl
    generalize hsm : (c.segments.map (·.samples)).headD 0 = sm
    refine own_step (footAll arrays (quantizeFrees sz c.numBones sm) + c.rest sz)
      (own_mapM (pre := fun g => g.1.foot sz) (post := Segment.foot sz) (Q := fun g g' => Like e g.1 g') c.segments.zipIdx
        fun g hg => own_quantizeSegment sz ch searched e _ g (hs.err g.1 ?_))
      (by rw [sum_zipIdx]; unfold Clip.foot; abel) ?_
    · have : g.1 ∈ c.segments.zipIdx.map Prod.fst := List.mem_map.mpr ⟨g, hg, rfl⟩
      rwa [List.zipIdx_map_fst] at this
    rintro l F ⟨rfl, hl⟩
    have hl := forall_zipIdx (P := Like e) hl
    have hsh := shape_like hs hl
    have hcn : c.contributing = none := by simpa using hs.clipErr
    have hsm' : (l.map (·.samples)).headD 0 = sm := by rw [(like_map hl).2, hsm]
    have fin : ∀ c' : Clip, c'.segments = l → c'.numBones = c.numBones → Shape c' c.numBones c.samples allocs e →
        Own (footAll arrays (quantizeFrees sz c.numBones sm) + c'.foot sz)
          (freeAll arrays (quantizeFrees sz c'.numBones ((c'.segments.map (·.samples)).headD 0)) >>= fun _ => pure c')
          (fun c' F => F = c'.foot sz ∧ Shape c' c.numBones c.samples allocs e) := by
      intro c' h1 h2 h3
      rw [h1, h2, hsm']
      refine own_step (c'.foot sz) (own_freeAll _ _) rfl ?_
      rintro _ F rfl
      exact own_pure ⟨zero_add _, h3⟩
    cases e with
    | false =>
      refine own_cast (fin { c with segments := l } rfl hs.numBones ⟨hsh.1, hsh.2.1, hs.numBones, hs.samples, hsh.2.2.1, hsh.2.2.2, hs.clipErr⟩) ?_
      unfold Clip.foot Clip.rest
      dsimp only
      abel
    | true =>
      refine own_step (footAll arrays (quantizeFrees sz c.numBones sm)) (own_sortErrors sz { c with segments := l } hcn) ?_ ?_
      · unfold Clip.foot Clip.rest
        dsimp only
        abel
      · rintro c' F ⟨rfl, p, rfl⟩
        refine own_cast (fin _ rfl hs.numBones ⟨hsh.1, hsh.2.1, hs.numBones, hs.samples, hsh.2.2.1, hsh.2.2.2, rfl⟩) (add_comm _ _)

theorem own_process (sz : Sizes) (ch : Choices) (s : Settings.Settings) (w a : Bool) (x : Source) (c : Clip)
    (hs : Shape c x.numBones x.numSamples [x.numSamples] false) (hr : c.ranges = none) :
    Own (c.foot sz) (process sz ch s w a c) (fun c' F => F = c'.foot sz ∧
      Shape c' x.numBones (keptSamples s ch w x) (splitCounts (segmenting s) (keptSamples s ch w x) x.numSamples)
        (needsError s && decide (x.numBones ≠ 0) && decide (keptSamples s ch w x ≠ 0))) := by
  obtain ⟨hf, hsl, hrl⟩ := loopClip_spec sz s ch w x c hs
  unfold process
  rw [← hf]
  refine own_bind (own_convertClip sz _ hsl) ?_
  rintro c1 F ⟨rfl, h1, r1⟩
  refine own_bind (own_clipRanges sz c1 h1 (by rw [r1, hrl, hr])) ?_
  rintro c2 F ⟨rfl, h2⟩
  refine own_bind (own_compactClip sz ch c2 h2) ?_
  rintro c3 F ⟨rfl, h3, -⟩
  refine own_bind (own_segmentClip sz ch _ c3 h3) ?_
  rintro c4 F ⟨rfl, h4, r4⟩
  refine own_bind (own_segmentRanges sz _ c4 h4 r4) ?_
  rintro c5 F ⟨rfl, h5⟩
  exact own_quantizeClip sz ch a _ _ c5 h5

theorem keyframe_ne {sz : Sizes} (hk : 0 < sz.keyframe) (a : Nat) : sz.keyframe * 32 = sz.keyframe * a ↔ a = 32 := by
  constructor
  · intro h
    have := Nat.eq_of_mul_eq_mul_left hk h
    omega
  · rintro rfl; rfl

/-- What the segments of a clip leave behind, in the order of the segments. -/
theorem left_list {sz : Sizes} (hk : 0 < sz.keyframe) : ∀ l : List Segment, (∀ g ∈ l, g.contributing.isSome = true) →
    ∃ ps : List Nat, ps.length = ((l.map (·.allocated)).filter (· ≠ 32)).length ∧
      (l.map (Segment.left sz)).sum = ↑(ps.map fun p => (p, sz.keyframe * 32)) ∧
      (l.map (Segment.bad sz)).sum = ↑(ps.zip (((l.map (·.allocated)).filter (· ≠ 32)).map (sz.keyframe * ·)))
  | [], _ => ⟨[], rfl, rfl, rfl⟩
  | g :: l, h => by
    obtain ⟨ps, h1, h2, h3⟩ := left_list hk l fun x hx => h x (by simp [hx])
    by_cases ha : g.allocated = 32
    · refine ⟨ps, ?_, ?_, ?_⟩
      · simp [ha] at h1 ⊢; exact h1
      · rw [List.map_cons, List.sum_cons, h2]
        unfold Segment.left
        rw [if_pos ((keyframe_ne hk _).mpr ha), zero_add]
      · rw [List.map_cons, List.sum_cons, h3]
        unfold Segment.bad
        rw [if_pos ((keyframe_ne hk _).mpr ha), zero_add, List.map_cons, List.filter_cons, if_neg (by simp [ha])]
    · obtain ⟨p, hp⟩ := Option.isSome_iff_exists.mp (h g (by simp))
      refine ⟨p :: ps, ?_, ?_, ?_⟩
      · rw [List.length_cons, h1, List.map_cons, List.filter_cons, if_pos (by simp [ha]), List.length_cons]
      · rw [List.map_cons, List.sum_cons, h2]
        unfold Segment.left
        rw [if_neg fun e => ha ((keyframe_ne hk _).mp e), hp]
        rfl
      · rw [List.map_cons, List.sum_cons, h3]
        unfold Segment.bad
        rw [if_neg fun e => ha ((keyframe_ne hk _).mp e), hp, List.map_cons, List.filter_cons, if_pos (by simp [ha])]
        rfl

def baseFoot (sz : Sizes) : Option Clip → Blocks
  | none => 0
  | some c => c.foot sz

theorem own_destroyBase (sz : Sizes) (base : Option Clip) (h : ∀ c, base = some c → ∃ n m l, Shape c n m l false) :
    Own (baseFoot sz base) (destroyBase sz base) (fun _ F => F = 0) := by
  cases base with
  | none => exact own_pure rfl
  | some c =>
    obtain ⟨n, m, l, hs⟩ := h c rfl
    exact own_destroyClip sz c hs

theorem own_initBase (sz : Sizes) (base : Option Source) : Own 0 (initBase sz base) (fun c F => F = baseFoot sz c ∧
    (∀ c', c = some c' → ∃ n m l, Shape c' n m l false) ∧
    ∀ b, base = some b → F.card = 4 + 3 * b.numBones + if b.numBones = 0 then 0 else 1) := by
  cases base with
  | none => exact own_pure ⟨rfl, by simp, by simp⟩
  | some b =>
    refine own_bind (own_initClip sz b) ?_
    rintro c F ⟨rfl, hs, -, hc⟩
    refine own_pure ⟨rfl, ?_, ?_⟩
    · rintro _ ⟨⟩; exact ⟨_, _, _, hs⟩
    · rintro _ ⟨⟩; exact hc

theorem own_shellDistances (sz : Sizes) (x : Source) : Own 0 (shellDistances sz x) (fun p F => F = optBlock p (sz.shell * x.numBones)) := by
  unfold shellDistances
  split
  · exact own_pure rfl
  · split
    · exact own_pure rfl
    · refine own_bind (own_alloc _) ?_
      rintro p F rfl
      exact own_pure rfl

theorem own_work (sz : Sizes) (ch : Choices) (s : Settings.Settings) (w : Bool) (x : Source) (a : Bool) (raw lossy : Clip) (base : Option Clip)
    (hraw : Shape raw x.numBones x.numSamples [x.numSamples] false) (hl : Shape lossy x.numBones x.numSamples [x.numSamples] false)
    (hr : lossy.ranges = none) (hb : ∀ c, base = some c → ∃ n m l, Shape c n m l false) :
    OwnX (raw.foot sz + lossy.foot sz + baseFoot sz base) (work sz ch s w x a raw lossy base) (fun r F W => ∃ b c,
      r = .done b ∧ F = (b, ch.outputSize) ::ₘ Clip.left sz c ∧ W = Clip.bad sz c ∧
      Shape c x.numBones (keptSamples s ch w x) (splitCounts (segmenting s) (keptSamples s ch w x) x.numSamples)
        (needsError s && decide (x.numBones ≠ 0) && decide (keptSamples s ch w x ≠ 0))) := by
  unfold work
  refine ownX_step (raw.foot sz + lossy.foot sz + baseFoot sz base) (own_shellDistances sz x) (zero_add _).symm ?_
  rintro shell F rfl
  refine ownX_step (optBlock shell (sz.shell * x.numBones) + raw.foot sz + baseFoot sz base) (own_process sz ch s w a x lossy hl hr) (by abel) ?_
  rintro c F ⟨rfl, hs⟩
  refine ownX_step (c.foot sz + (optBlock shell (sz.shell * x.numBones) + raw.foot sz + baseFoot sz base)) (own_alloc _) (zero_add _).symm ?_
  rintro mapping F rfl
  refine ownX_step _ (own_alloc _) (zero_add _).symm ?_
  rintro b F rfl
  refine ownX_step ({(b, ch.outputSize)} + c.foot sz + (optBlock shell (sz.shell * x.numBones) + raw.foot sz + baseFoot sz base))
    (own_free mapping _) (by abel) ?_
  rintro _ F rfl
  refine ownX_step ({(b, ch.outputSize)} + c.foot sz + raw.foot sz + baseFoot sz base) (own_freeArray shell _) (by abel) ?_
  rintro _ F rfl
  refine ownX_weaken (T := _) (ownX_stepW (T := fun r F => r = .done b ∧ F = {(b, ch.outputSize)} + c.left sz)
    ({(b, ch.outputSize)} + raw.foot sz + baseFoot sz base) (ownW_destroyClip sz c hs) (by abel) fun _ => ?_) ?_
  · refine own_step (c.left sz + ({(b, ch.outputSize)} + baseFoot sz base)) (own_destroyClip sz raw hraw) (by abel) ?_
    rintro _ F rfl
    refine own_step (c.left sz + {(b, ch.outputSize)}) (own_destroyBase sz base hb) (by abel) ?_
    rintro _ F rfl
    exact own_pure ⟨rfl, by abel⟩
  · rintro r F W ⟨⟨rfl, rfl⟩, rfl⟩
    exact ⟨b, c, rfl, by rw [Multiset.singleton_add], rfl, hs⟩

end Acl.Mem
