import Verif.Transform.ClipWriterLemmas
import Verif.Props.C16
import Verif.Props.C32
/-
What the decompressor finds in the buffer of a clip: the header, the sections and what they hold.
-/
namespace Acl.Transform
open Acl.Headers Acl.Segmenting

/-- What the earlier stages of the compressor must have computed for a clip. -/
structure ClipOk (c : ClipSource) : Prop where
  bones : 0 < c.bones.length ∧ c.bones.length < 2 ^ 32
  /-- without scale no scale is animated -/
  scale : c.hasScale = false → entries c.bones .scale = []
  /-- a default sub-track is constant -/
  default : ∀ b ∈ c.bones, ∀ kind, (b.flags kind).isDefault = true → (b.flags kind).isConstant = true
  segments : ∀ (i : Nat) (s : SegmentSource), c.segments[i]? = some s → SegmentOk c i s
  /-- the samples were split with settings that have slack (C18) -/
  split : ∃ st : Settings, 0 < st.ideal ∧ st.ideal < st.max ∧ c.segments.map (·.numSamples) = segmentSizes c.numSamples st
  starts : c.segments.map (·.start) = clipSampleOffsets 0 (c.segments.map (·.numSamples))
  numSamples : c.numSamples < 0xFFFFFFFF

variable {c : ClipSource}

theorem segments_pos (h : ClipOk c) : 0 < c.segments.length := by
  obtain ⟨st, h1, h2, h3⟩ := h.split
  have hl : c.segments.length = (segmentSizes c.numSamples st).length := by rw [← h3, List.length_map]
  rcases Seek.segmentSizes_cases c.numSamples st ⟨h1, by omega⟩ with ⟨e, -⟩ | ⟨-, e, e2⟩
  · rw [hl, e]; simp
  · have hz : c.numSamples ≠ 0 → 0 < (segmentSizes c.numSamples st).length := by
      intro h0
      cases hs : segmentSizes c.numSamples st with
      | nil => rw [hs] at e2; simp at e2; omega
      | cons a l => simp
    by_cases h0 : c.numSamples = 0
    · exfalso
      have : segmentSizes 0 st = [0] := by
        unfold segmentSizes splitSamplesPerSegment
        simp
      rw [h0, this] at e
      exact e rfl
    · rw [hl]; exact hz h0

theorem sum_ge_length (l : List SegmentSource) (h : ∀ s ∈ l, 0 < s.numSamples) : l.length ≤ (l.map (·.numSamples)).sum := by
  induction l with
  | nil => simp
  | cons a l ih =>
    rw [List.map_cons, List.sum_cons, List.length_cons]
    have := h a List.mem_cons_self
    have := ih fun s hs => h s (List.mem_cons_of_mem _ hs)
    omega

theorem segment_nonempty (h : ClipOk c) : ∀ s ∈ c.segments, 0 < s.numSamples := by
  intro s hs
  obtain ⟨i, hi⟩ := List.mem_iff_getElem?.1 hs
  exact (h.segments i s hi).nonempty

theorem segments_le (h : ClipOk c) : c.segments.length ≤ c.numSamples := sum_ge_length _ (segment_nonempty h)

/-- The clip ranges. -/
def ClipSource.clipBytes (c : ClipSource) : List (BitVec 8) :=
  soa clipGroup ((c.part .rotation).map (·.clipRange .rotation)) ++
    ((c.part .translation).map (·.clipRange .translation)).flatMap (fun r => floatBytes r.words) ++
    ((c.part .scale).map (·.clipRange .scale)).flatMap (fun r => floatBytes r.words)

theorem clipSoa_length (l : List RangeF) : (soa clipGroup l).length = 24 * l.length := by
  rw [soa_length clipGroup (fun n => 24 * n) (fun g _ _ => clipGroup_length g)]
  split <;> omega

theorem clipRecords_length (l : List RangeF) : (l.flatMap fun r => floatBytes r.words).length = 24 * l.length :=
  flatMap_const_length _ 24 _ fun r _ => by rw [floatBytes_length]; rfl

theorem clipBytes_length (c : ClipSource) :
    c.clipBytes.length = 24 * (c.part .rotation).length + 24 * (c.part .translation).length + 24 * (c.part .scale).length := by
  unfold ClipSource.clipBytes
  rw [List.length_append, List.length_append, clipSoa_length, clipRecords_length, clipRecords_length, List.length_map, List.length_map,
    List.length_map]

theorem clipBytes_le (c : ClipSource) : c.clipBytes.length ≤ c.clipRangeSize := by
  have key : ∀ kind, (c.part kind).length ≤
      if c.isVariable kind then ((c.bones ++ c.strippedBones).filter fun b => !(b.flags kind).isConstant).length else 0 := by
    intro kind
    rw [part_eq]
    cases c.isVariable kind with
    | false => simp
    | true => simp only [if_true, List.filter_append, List.length_append]; unfold entries; omega
  rw [clipBytes_length]
  unfold ClipSource.clipRangeSize
  dsimp only
  have := key .rotation
  have := key .translation
  have := key .scale
  omega

theorem clipRanges_eq (h : ClipOk c) :
    (if c.isVariable .rotation || c.isVariable .translation || c.isVariable .scale then
      writeClipRanges c.isVariable c.hasScale c.bones c.garbage else some []) = some c.clipBytes := by
  split
  · have := writeClipRanges_eq c.isVariable c.hasScale c.bones c.garbage h.scale
    rw [this]; rfl
  · next hv =>
    simp only [Bool.or_eq_true, not_or, Bool.not_eq_true] at hv
    congr 1
    symm
    apply List.eq_nil_of_length_eq_zero
    rw [clipBytes_length, part_length, part_length, part_length, hv.1.1, hv.1.2, hv.2]
    rfl

/-- What is written for a clip. -/
structure InputIs (c : ClipSource) (x : Clip.Input) : Prop where
  counts : x.counts = ⟨BitVec.ofNat 32 (c.numAnimated .rotation), BitVec.ofNat 32 (c.numAnimated .translation), BitVec.ofNat 32 (c.numAnimated .scale),
      BitVec.ofNat 32 (c.numConstant .rotation), BitVec.ofNat 32 (c.numConstant .translation), BitVec.ofNat 32 (c.numConstant .scale)⟩
  numVariable : x.numVariable = c.formatSize
  stripped : x.stripped = c.stripped
  types : x.types = writePackedSubTrackTypes c.hasScale (c.bones.map (·.flags .rotation)) (c.bones.map (·.flags .translation)) (c.bones.map (·.flags .scale))
  constants : x.constants = writeConstantTrackData c.rotationFormat c.hasScale (c.bones.map ClipSource.constBone)
  clipRanges : x.clipRanges = c.clipBytes
  length : x.segments.length = c.segments.length
  segments : ∀ (i : Nat) (s : SegmentSource) (g : Clip.Segment), c.segments[i]? = some s → x.segments[i]? = some g → SegmentIs c i s g
  consistent : Clip.Consistent x

theorem inputOf_is (h : ClipOk c) : ∃ x, c.inputOf = some x ∧ InputIs c x := by
  obtain ⟨gs, e, hl, hg⟩ := segmentsOf_is h.scale c.segments 0 fun i s hs => by rw [Nat.zero_add]; exact h.segments i s hs
  unfold ClipSource.inputOf
  rw [e, Option.bind_some, clipRanges_eq h, Option.bind_some]
  refine ⟨_, rfl, ⟨rfl, rfl, rfl, rfl, rfl, rfl, hl, fun i s g hs hg' => by simpa using hg i s g hs hg', ?_⟩⟩
  have each : ∀ g ∈ gs, ∃ i s, c.segments[i]? = some s ∧ SegmentOk c i s ∧ SegmentIs c i s g := by
    intro g hg'
    obtain ⟨i, hi⟩ := List.mem_iff_getElem?.1 hg'
    have hlt : i < c.segments.length := by rw [← hl]; exact (List.getElem?_eq_some_iff.1 hi).1
    exact ⟨i, _, List.getElem?_eq_getElem hlt, h.segments i _ (List.getElem?_eq_getElem hlt), by
      simpa using hg i _ g (List.getElem?_eq_getElem hlt) hi⟩
  refine ⟨?_, ?_, clipBytes_le c⟩
  · intro g hg'
    obtain ⟨i, s, -, -, hi⟩ := each g hg'
    rw [hi.formats, formatBytes_length]
  · intro g hg'
    obtain ⟨i, s, -, ok, hi⟩ := each g hg'
    rw [hi.ranges, segmentBytes_length ok, rangeSize_eq, hl]

/-! ### The header -/

/-- The flags and the formats are read back. -/
theorem misc_read (c : ClipSource) (f : ClipFlags) (b : Bool) :
    rotationFormatOf (getRotationFormat (setHasMetadata (c.misc f) b)) = some c.rotationFormat ∧
    vectorFormatOf (getTranslationFormat (setHasMetadata (c.misc f) b)) = some c.translationFormat ∧
    vectorFormatOf (getScaleFormat (setHasMetadata (c.misc f) b)) = some c.scaleFormat ∧
    getHasScale (setHasMetadata (c.misc f) b) = c.hasScale ∧
    Clip.hasSampleIndices (setHasMetadata (c.misc f) b) = c.stripped := by
  unfold ClipSource.misc
  generalize c.hasScale = x1
  generalize f.defaultScaleOne = x2
  generalize f.trivialDefaults = x3
  generalize c.stripped = x4
  generalize f.wrapOptimized = x5
  cases c.rotationFormat <;> cases c.translationFormat <;> cases c.scaleFormat <;> revert x1 x2 x3 x4 x5 b <;> decide +kernel

theorem misc_stripped (c : ClipSource) (f : ClipFlags) : Clip.hasSampleIndices (c.misc f) = c.stripped := by
  have := (misc_read c f false).2.2.2.2
  rwa [Clip.indices_kept] at this

/-- The inputs of the compressor are legal, and this is the buffer. -/
structure Compressed (c : ClipSource) (e : Meta.Extra) (s : Meta.Settings) (src : Meta.Source) (f : ClipFlags) (m : List (BitVec 8)) : Prop where
  clip : ClipOk c
  metadata : C29.Valid src
  tracks : src.mapping.length = c.bones.length
  result : c.compress e s src f = some m
  small : m.length < 2 ^ 32

variable {e : Meta.Extra} {s : Meta.Settings} {src : Meta.Source} {f : ClipFlags} {m : List (BitVec 8)}

theorem Compressed.written (h : Compressed c e s src f m) : ∃ x, InputIs c x ∧ C32.Written e s src (c.header f) x m := by
  obtain ⟨x, hx, hi⟩ := inputOf_is h.clip
  have := h.result
  unfold ClipSource.compress at this
  rw [hx, Option.bind_some] at this
  exact ⟨x, hi, h.metadata, hi.consistent, by rw [hi.stripped]; exact misc_stripped c f, this, h.small⟩

theorem Compressed.header (h : Compressed c e s src f m) : ∃ b, Meta.loadTracksHeader m = some { c.header f with misc := setHasMetadata (c.misc f) b } := by
  obtain ⟨x, -, w⟩ := h.written
  obtain ⟨b, T, he, -⟩ := Clip.compress_eq e s src (c.header f) x w.valid w.consistent
  have := w.result
  rw [he] at this
  injection this with this
  refine ⟨b, ?_⟩
  rw [← this, Meta.rawBuffer_header]
  congr 1
  unfold Meta.headerOf
  rw [h.tracks, if_pos (by have := h.clip.bones; omega), if_pos (by have := h.clip.bones; omega)]
  rfl

/-- **Progress.** A legal clip is compressed. -/
theorem compress_some (h : ClipOk c) (hv : C29.Valid src) : ∃ m, c.compress e s src f = some m := by
  obtain ⟨x, hx, hi⟩ := inputOf_is h
  unfold ClipSource.compress
  rw [hx, Option.bind_some]
  exact C32.C32_no_overrun e s src (c.header f) x hv hi.consistent

/-! ### The key frames -/

theorem split_of_load {m B : List (BitVec 8)} {p : Nat} (h : loadBytes m p B.length = some B) :
    ∃ A C, m = A ++ (B ++ C) ∧ A.length = p := by
  unfold loadBytes at h
  split at h
  · next hl =>
    injection h with h
    refine ⟨m.take p, m.drop (p + B.length), ?_, by rw [List.length_take]; omega⟩
    conv_lhs => rw [← List.take_append_drop p m, ← List.take_append_drop B.length (m.drop p), h, List.drop_drop]
  · cases h

theorem readWords_split (ws : List (BitVec 32)) : ∀ (A C : List (BitVec 8)),
    readWords (A ++ (ws.flatMap bytesLE ++ C)) A.length ws.length = some ws := by
  induction ws with
  | nil => intro A C; rfl
  | cons w ws ih =>
    intro A C
    rw [List.flatMap_cons, List.append_assoc, List.length_cons, readWords, load32_bytesLE _ _ _ _ rfl, Option.bind_some]
    have := ih (A ++ bytesLE w) C
    rw [List.length_append, bytesLE_length, List.append_assoc] at this
    rw [this]; rfl

theorem readWords_load {ws : List (BitVec 32)} {m : List (BitVec 8)} {p : Nat} (h : loadBytes m p (4 * ws.length) = some (ws.flatMap bytesLE)) :
    readWords m p ws.length = some ws := by
  have hl : (ws.flatMap bytesLE).length = 4 * ws.length := flatMap_const_length _ 4 _ fun w _ => bytesLE_length w
  rw [← hl] at h
  obtain ⟨A, C, rfl, rfl⟩ := split_of_load h
  exact readWords_split ws A C

theorem readSampleIndices_eq {m : List (BitVec 8)} (ws : List (BitVec 32)) : ∀ (i : Nat),
    (∀ (j : Nat) (w : BitVec 32), ws[j]? = some w → ∃ p, Clip.segmentHeaderAt m (i + j) = some p ∧ load32 m (p + 16) = some w) →
    readSampleIndices m ws.length i = some ws := by
  induction ws with
  | nil => intro i _; rfl
  | cons w ws ih =>
    intro i h
    obtain ⟨p, h1, h2⟩ := h 0 w rfl
    rw [Nat.add_zero] at h1
    rw [List.length_cons, readSampleIndices, h1, Option.bind_some, h2, Option.bind_some, ih (i + 1) fun j v hv => by
      have := h (j + 1) v (by rw [List.getElem?_cons_succ]; exact hv)
      rwa [show i + 1 + j = i + (j + 1) by omega]]
    rfl

/-- The samples before segment `i`. -/
def ClipSource.offset (c : ClipSource) (i : Nat) : Nat := ((c.segments.take i).map (·.numSamples)).sum

theorem offset_eq (c : ClipSource) (i : Nat) : Seek.Spec.start (c.segments.map (·.numSamples)) i = c.offset i := by
  unfold Seek.Spec.start ClipSource.offset; rw [List.map_take]

/-- What the search of the key frames reads. -/
theorem Compressed.seekClip (h : Compressed c e s src f m) :
    ∃ starts, readSeekClip m = some ⟨c.numSamples, c.segments.length, starts, c.stripped,
        if c.stripped then c.segments.map (·.hardKeyframes) else [], none⟩ ∧
      (c.segments.length ≠ 1 → starts = segmentStartIndices (c.segments.map (·.numSamples))) := by
  obtain ⟨x, hi, w⟩ := h.written
  obtain ⟨b, hb⟩ := h.header
  obtain ⟨headers, types, constants, ranges, -, -, -, -, hstart, -, -, -, hseg⟩ := C32.C32_contents w
  have hn := segments_le h.clip
  have hN := h.clip.numSamples
  have hpos := segments_pos h.clip
  have hf0 := w.view.field 0 x.segments.length (by rw [hi.length]; omega) rfl
  rw [hi.length] at hf0
  -- the start indices
  have hst : (if c.segments.length > 1 then readWords m Clip.startIndicesAt (c.segments.length + 1) else some []) =
      some (if c.segments.length > 1 then (c.segments.map fun s => BitVec.ofNat 32 s.start) ++ [0xFFFFFFFF#32] else []) := by
    by_cases h1 : c.segments.length > 1
    · rw [if_pos h1, if_pos h1]
      have hmap : x.segments.map (·.start) = c.segments.map fun s => BitVec.ofNat 32 s.start := by
        apply List.ext_getElem?
        intro i
        rw [List.getElem?_map, List.getElem?_map]
        cases hc : c.segments[i]? with
        | none =>
          have : x.segments[i]? = none := by rw [List.getElem?_eq_none_iff, hi.length]; exact List.getElem?_eq_none_iff.1 hc
          rw [this]; rfl
        | some t =>
          have hlt : i < x.segments.length := by rw [hi.length]; exact (List.getElem?_eq_some_iff.1 hc).1
          rw [List.getElem?_eq_getElem hlt, Option.map_some, Option.map_some, (hi.segments i t _ hc (List.getElem?_eq_getElem hlt)).start]
      have := hstart (by rw [hi.length]; exact h1)
      rw [hmap, hi.length] at this
      refine Eq.trans ?_ (readWords_load (ws := (c.segments.map fun s => BitVec.ofNat 32 s.start) ++ [0xFFFFFFFF#32]) (m := m) (p := Clip.startIndicesAt) ?_)
      · rw [List.length_append, List.length_map]; rfl
      · rw [List.length_append, List.length_map]; exact this
    · rw [if_neg h1, if_neg h1]
  have hix : (if c.stripped = true then readSampleIndices m c.segments.length 0 else some []) =
      some (if c.stripped then c.segments.map (·.hardKeyframes) else []) := by
    cases hs : c.stripped with
    | false => rfl
    | true =>
      rw [if_pos rfl, if_pos rfl]
      have := readSampleIndices_eq (m := m) (c.segments.map (·.hardKeyframes)) 0 (by
        intro j v hv
        rw [List.getElem?_map, Option.map_eq_some_iff] at hv
        obtain ⟨t, ht, rfl⟩ := hv
        have hlt : j < x.segments.length := by rw [hi.length]; exact (List.getElem?_eq_some_iff.1 ht).1
        obtain ⟨p, -, -, -, h1, -, -, -, -, h2, -⟩ := hseg j _ (List.getElem?_eq_getElem hlt)
        rw [Nat.zero_add]
        refine ⟨p, h1, ?_⟩
        rw [h2 (by rw [hi.stripped]; exact hs), (hi.segments j t _ ht (List.getElem?_eq_getElem hlt)).hard])
      rw [List.length_map] at this
      exact this
  refine ⟨(if c.segments.length > 1 then (c.segments.map fun s => BitVec.ofNat 32 s.start) ++ [0xFFFFFFFF#32] else []).map BitVec.toNat, ?_, ?_⟩
  · unfold readSeekClip
    rw [hb, Option.bind_some, hf0, Option.bind_some, hst, Option.bind_some]
    dsimp only
    rw [(misc_read c f b).2.2.2.2, hix, Option.bind_some]
    congr 2
    unfold ClipSource.header
    dsimp only
    rw [BitVec.toNat_ofNat, Nat.mod_eq_of_lt (by omega)]
  · intro h1
    rw [if_pos (by omega), List.map_append, List.map_map]
    unfold segmentStartIndices
    rw [← h.clip.starts]
    congr 1
    apply List.map_congr_left
    intro t ht
    obtain ⟨i, hi⟩ := List.mem_iff_getElem?.1 ht
    have hlt := (List.getElem?_eq_some_iff.1 hi).1
    have e1 : (c.segments.map (·.start))[i]? = some t.start := by rw [List.getElem?_map, hi]; rfl
    rw [h.clip.starts] at e1
    obtain ⟨h3, h4⟩ := List.getElem?_eq_some_iff.1 e1
    rw [clipSampleOffsets_get] at h4
    have h5 := prefixSum_mono (c.segments.map (·.numSamples)) (show i ≤ (c.segments.map (·.numSamples)).length by rw [List.length_map]; omega)
    rw [prefixSum_all] at h5
    have h6 : (c.segments.map (·.numSamples)).sum = c.numSamples := rfl
    simp only [Function.comp, BitVec.toNat_ofNat]
    unfold prefixSum at h4 h5
    rw [Nat.mod_eq_of_lt (by omega)]

theorem Compressed.wellFormed (h : Compressed c e s src f m) {starts : List Nat}
    (hs : c.segments.length ≠ 1 → starts = segmentStartIndices (c.segments.map (·.numSamples))) :
    Seek.Spec.WellFormed ⟨c.numSamples, c.segments.length, starts, c.stripped,
        if c.stripped then c.segments.map (·.hardKeyframes) else [], none⟩ (c.segments.map (·.numSamples)) where
  numSamples := rfl
  numSegments := by rw [List.length_map]
  starts := fun hl => hs (by rwa [List.length_map] at hl)
  masks := fun hst => by
    have hst : c.stripped = true := hst
    dsimp only
    rw [if_pos hst, List.length_map, List.length_map]
  boundaries := fun hst g size hg => by
    have hst : c.stripped = true := hst
    rw [List.getElem?_map, Option.map_eq_some_iff] at hg
    obtain ⟨t, ht, rfl⟩ := hg
    have ok := h.clip.segments g t ht
    obtain ⟨a1, a2, a3, -⟩ := ok.hard hst
    refine ⟨ok.nonempty, a1, ⟨t.hardKeyframes, ?_, a2⟩, ⟨t.hardKeyframes, ?_, a3⟩⟩ <;>
      · dsimp only
        rw [if_pos hst, List.getElem?_map, ht]; rfl
  db := fun ms h => by simp at h

end Acl.Transform
