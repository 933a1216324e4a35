import Verif.Transform.ClipWriter
import Verif.Transform.AnimatedFound
import Verif.Transform.SeekMain
import Verif.Core.BitsLemmas
import Verif.Layout.ClipLemmas
/-
The segments of a clip as the compressor writes them.
-/
namespace Acl.Transform

/-- The bits of the sub-tracks of a kind in a key frame. -/
def kindWidth (bones : List Bone) (seg : Nat) (kind : Kind) : Nat := ((entries bones kind).map fun b => (b.stream seg kind).width).sum

/-- The bits of a key frame. -/
def frameWidth (bones : List Bone) (seg : Nat) : Nat :=
  kindWidth bones seg .rotation + kindWidth bones seg .translation + kindWidth bones seg .scale

/-- The size of an animated sample that is not variable. -/
def ClipSource.packedSize (c : ClipSource) : Kind → Nat
  | .rotation => packedRotationSize c.rotationFormat
  | .translation => 12
  | .scale => 12

/-- What the earlier stages of the compressor must have computed for segment number `seg`. -/
structure SegmentOk (c : ClipSource) (seg : Nat) (s : SegmentSource) : Prop where
  nonempty : 0 < s.numSamples
  garbage : s.garbage.length = 64
  /-- every sample is a value of the format of its stream -/
  frames : ∀ i, i < s.numSamples → FrameOk c.bones seg i
  const : ∀ kind, ∀ b ∈ entries c.bones kind, (b.stream seg kind).ConstOk
  /-- the streams have the format of the clip -/
  format : ∀ kind, ∀ b ∈ entries c.bones kind, FormatOk (c.isVariable kind) (c.packedSize kind) (b.stream seg kind)
  /-- with one segment there are no segment ranges -/
  ranged : c.segments.length = 1 → ∀ kind, ∀ b ∈ entries c.bones kind, (b.stream seg kind).bitRate ≠ some 0
  /-- the key frames that are kept are a set of the first 32, with the first and the last one -/
  hard : c.stripped = true → s.numSamples ≤ 32 ∧ s.hardKeyframes.getMsbD 0 = true ∧ s.hardKeyframes.getMsbD (s.numSamples - 1) = true ∧
    ∀ k, s.numSamples ≤ k → s.hardKeyframes.getMsbD k = false
  /-- the bits of the segment fit in 32 bits -/
  small : frameWidth c.bones seg * c.numStored s + 8 ≤ 2 ^ 32

/-- The samples that are stored, in order. -/
def ClipSource.kept (c : ClipSource) (s : SegmentSource) : List Nat := (List.range s.numSamples).filter (c.keep s)

theorem foldl_poseBits (seg : Nat) (kind : Kind) : ∀ (bones : List Bone) (n : Nat),
    (∀ b ∈ entries bones kind, (b.stream seg kind).poseBits = some (b.stream seg kind).width) →
    bones.foldl (fun acc b => acc.bind fun n =>
      if !(b.flags kind).isConstant then (b.stream seg kind).poseBits.map (n + ·) else some n) (some n) = some (n + kindWidth bones seg kind) := by
  intro bones
  induction bones with
  | nil => intro n _; rfl
  | cons b bones ih =>
    intro n h
    rw [List.foldl_cons, Option.bind_some]
    cases hc : (b.flags kind).isConstant with
    | true =>
      rw [if_neg (by simp)]
      have e : entries (b :: bones) kind = entries bones kind := by unfold entries; rw [List.filter_cons, if_neg (by simp [hc])]
      have hw : kindWidth (b :: bones) seg kind = kindWidth bones seg kind := by unfold kindWidth; rw [e]
      rw [hw]
      exact ih n fun b' hb' => h b' (by rw [e]; exact hb')
    | false =>
      have e : entries (b :: bones) kind = b :: entries bones kind := by unfold entries; rw [List.filter_cons, if_pos (by simp [hc])]
      have hw : kindWidth (b :: bones) seg kind = (b.stream seg kind).width + kindWidth bones seg kind := by
        unfold kindWidth; rw [e, List.map_cons, List.sum_cons]
      rw [if_pos (by simp), h b (by rw [e]; exact List.mem_cons_self), Option.map_some, hw, ← Nat.add_assoc]
      exact ih _ fun b' hb' => h b' (by rw [e]; exact List.mem_cons_of_mem _ hb')

theorem poseBits_eq {bones : List Bone} {seg : Nat} (h : FrameOk bones seg 0) (kind : Kind) :
    poseBits bones seg kind = some (kindWidth bones seg kind) := by
  unfold poseBits
  rw [foldl_poseBits seg kind bones 0 fun b hb => Stream.poseBits_eq (h kind b hb), Nat.zero_add]

theorem kindBits_length {bones : List Bone} {seg i : Nat} (h : FrameOk bones seg i) (kind : Kind) :
    (kindBits bones seg kind i).length = kindWidth bones seg kind := by
  unfold kindBits kindWidth
  rw [List.length_flatMap]
  congr 1
  apply List.map_congr_left
  intro b hb
  exact Stream.bits_length (h kind b hb)

theorem frameBits_length {bones : List Bone} {seg i : Nat} (h : FrameOk bones seg i) :
    (frameBits bones seg i).length = frameWidth bones seg := by
  unfold frameBits frameWidth
  rw [List.length_append, List.length_append, kindBits_length h, kindBits_length h, kindBits_length h]

theorem frames_length {bones : List Bone} {seg : Nat} (l : List Nat) (h : ∀ i ∈ l, FrameOk bones seg i) :
    (l.flatMap (frameBits bones seg)).length = frameWidth bones seg * l.length := by
  induction l with
  | nil => simp
  | cons i l ih =>
    rw [List.flatMap_cons, List.length_append, frameBits_length (h i List.mem_cons_self), ih fun j hj => h j (List.mem_cons_of_mem _ hj),
      List.length_cons, Nat.mul_succ, Nat.add_comm]

/-- The number of set bits of a word whose bits past `n` are clear. -/
theorem popCount_prefix (w : BitVec 32) (n : Nat) (hn : n ≤ 32) (hw : ∀ k, n ≤ k → w.getMsbD k = false) :
    (countSetBits32 w).toNat = ((List.range n).filter fun i => w.getMsbD i).length := by
  rw [countSetBits32_toNat, popSpec]
  have h1 : countBelow 32 (fun i => w.getLsbD i) = countBelow 32 (fun i => w.getMsbD i) := by
    rw [← Seek.countBelow_reverse 32 (fun i => w.getLsbD i)]
    apply countBelow_congr
    intro i hi
    rw [Seek.msb_eq w i hi]
  rw [h1]
  have h2 := countBelow_add n (32 - n) (fun i => w.getMsbD i)
  rw [show n + (32 - n) = 32 by omega] at h2
  have h3 : countBelow (32 - n) (fun i => w.getMsbD (n + i)) = 0 := by
    unfold countBelow
    rw [List.countP_eq_zero]
    intro i _
    rw [hw (n + i) (by omega)]; decide
  rw [h2, h3, Nat.add_zero]
  unfold countBelow
  rw [List.countP_eq_length_filter]

variable {c : ClipSource} {seg : Nat} {s : SegmentSource}

theorem kept_length (h : SegmentOk c seg s) : (c.kept s).length = c.numStored s := by
  unfold ClipSource.kept ClipSource.numStored
  cases hs : c.stripped with
  | false =>
    have : (List.range s.numSamples).filter (c.keep s) = List.range s.numSamples := by
      rw [List.filter_eq_self]; intro i _; unfold ClipSource.keep; rw [hs]; rfl
    rw [this]; simp
  | true =>
    obtain ⟨h1, -, -, h2⟩ := h.hard hs
    rw [if_pos rfl, popCount_prefix _ _ h1 h2]
    congr 1
    apply List.filter_congr
    intro i _
    unfold ClipSource.keep; rw [hs]; rfl

/-- The size of the animated data does not wrap. -/
theorem animatedSize_eq (n k : Nat) (h : n * k + 8 ≤ 2 ^ 32) : ClipSource.animatedSize n k = (n * k + 7) / 8 := by
  unfold ClipSource.animatedSize alignUp
  generalize n * k = N at *
  omega

/-- The streams of a kind that have a bit rate. -/
def ClipSource.part (c : ClipSource) (kind : Kind) : List Bone := (entries c.bones kind).filter fun _ => c.isVariable kind

theorem part_eq (c : ClipSource) (kind : Kind) : c.part kind = if c.isVariable kind then entries c.bones kind else [] := by
  unfold ClipSource.part
  cases c.isVariable kind <;> simp

theorem var_eq (h : SegmentOk c seg s) (kind : Kind) :
    (entries c.bones kind).filter (fun b => (b.stream seg kind).bitRate.isSome) = c.part kind := by
  unfold ClipSource.part
  apply List.filter_congr
  intro b hb
  have := h.format kind b hb
  unfold FormatOk at this
  cases hv : c.isVariable kind with
  | true => rw [hv, if_pos rfl] at this; exact this
  | false => rw [hv, if_neg (by decide)] at this; rw [this.1]; rfl

/-- The formats of a segment. -/
def ClipSource.formatBytes (c : ClipSource) (seg : Nat) : List (BitVec 8) :=
  (c.part .rotation).map (fun b => (b.stream seg .rotation).byte) ++
    List.replicate (padTo4 (c.part .rotation).length - (c.part .rotation).length) 0 ++
  (c.part .translation).map (fun b => (b.stream seg .translation).byte) ++
  (c.part .scale).map (fun b => (b.stream seg .scale).byte)

/-- The six bytes of a bone in the ranges of a segment. -/
def ClipSource.rangeOf (seg : Nat) (kind : Kind) (b : Bone) : List (BitVec 8) :=
  (b.stream seg kind).rangeBytes kind (b.segmentRange seg kind)

/-- The ranges of a segment. -/
def ClipSource.segmentBytes (c : ClipSource) (seg : Nat) : List (BitVec 8) :=
  if c.segments.length > 1 then
    soa segmentGroup ((c.part .rotation).map (ClipSource.rangeOf seg .rotation)) ++
      (c.part .translation).flatMap (ClipSource.rangeOf seg .translation) ++ (c.part .scale).flatMap (ClipSource.rangeOf seg .scale)
  else []

theorem part_length (c : ClipSource) (kind : Kind) : (c.part kind).length = if c.isVariable kind then c.numAnimated kind else 0 := by
  rw [part_eq]
  cases c.isVariable kind <;> rfl

theorem pad_formats (r t u : Nat) : (if r % 4 ≠ 0 then r + t + u + (4 - r % 4) else r + t + u) = 4 * ((r + 3) / 4) + t + u := by
  split <;> omega

theorem pad_ranges (r t u : Nat) :
    (if r % 4 ≠ 0 then 6 * r + 6 * t + 6 * u + (4 - r % 4) * 6 else 6 * r + 6 * t + 6 * u) = 6 * (4 * ((r + 3) / 4) + t + u) := by
  split <;> omega

theorem formatSize_eq (c : ClipSource) : c.formatSize = padTo4 (c.part .rotation).length + (c.part .translation).length + (c.part .scale).length := by
  rw [part_length, part_length, part_length]
  unfold ClipSource.formatSize padTo4
  dsimp only
  exact pad_formats _ _ _

theorem rangeSize_eq (c : ClipSource) : c.rangeSize = if c.segments.length > 1 then 6 * c.formatSize else 0 := by
  rw [formatSize_eq, part_length, part_length, part_length]
  unfold ClipSource.rangeSize padTo4
  split
  · dsimp only
    exact pad_ranges _ _ _
  · rfl

theorem formatBytes_length (c : ClipSource) (seg : Nat) : (c.formatBytes seg).length = c.formatSize := by
  rw [formatSize_eq]
  unfold ClipSource.formatBytes
  simp only [List.length_append, List.length_map, List.length_replicate]
  have : (c.part .rotation).length ≤ padTo4 (c.part .rotation).length := by unfold padTo4; omega
  omega

theorem flatMap_const_length {α : Type} (f : α → List (BitVec 8)) (n : Nat) (l : List α) (h : ∀ a ∈ l, (f a).length = n) :
    (l.flatMap f).length = n * l.length := by
  induction l with
  | nil => simp
  | cons a l ih =>
    rw [List.flatMap_cons, List.length_append, h a List.mem_cons_self, ih fun b hb => h b (List.mem_cons_of_mem _ hb), List.length_cons,
      Nat.mul_succ, Nat.add_comm]

theorem segmentSoa_length (l : List (List (BitVec 8))) : (soa segmentGroup l).length = 6 * padTo4 l.length := by
  rw [soa_length segmentGroup (fun _ => 24) (fun g _ _ => segmentGroup_length g)]
  unfold padTo4
  split <;> omega

theorem part_mem {kind : Kind} {b : Bone} (h : b ∈ c.part kind) : b ∈ entries c.bones kind ∧ c.isVariable kind = true := by
  unfold ClipSource.part at h
  rw [List.mem_filter] at h
  exact h

theorem segmentBytes_length (h : SegmentOk c seg s) : (c.segmentBytes seg).length = c.rangeSize := by
  have h6 : ∀ kind, ∀ b ∈ c.part kind, (ClipSource.rangeOf seg kind b).length = 6 := fun kind b hb =>
    rangeBytes_length (h.const kind b (part_mem hb).1)
  rw [rangeSize_eq, formatSize_eq]
  unfold ClipSource.segmentBytes
  split
  · rw [List.length_append, List.length_append, segmentSoa_length, flatMap_const_length _ 6 _ (h6 .translation),
      flatMap_const_length _ 6 _ (h6 .scale), List.length_map]
    omega
  · rfl

theorem Stream.Ok.packed {t : Stream} {i r : Nat} (h : t.Ok i) (hr : t.bitRate = some r) : r ≤ 24 := h.rate hr

/-- What is written for a segment. -/
structure SegmentIs (c : ClipSource) (seg : Nat) (s : SegmentSource) (g : Clip.Segment) : Prop where
  start : g.start = BitVec.ofNat 32 s.start
  pose : g.poseBits = BitVec.ofNat 32 (frameWidth c.bones seg)
  rotation : g.rotationBits = BitVec.ofNat 32 (kindWidth c.bones seg .rotation)
  translation : g.translationBits = BitVec.ofNat 32 (kindWidth c.bones seg .translation)
  hard : g.hardKeyframes = s.hardKeyframes
  formats : g.formats = c.formatBytes seg
  ranges : g.ranges = c.segmentBytes seg
  animated : HasBits g.animated 0 ((c.kept s).flatMap (frameBits c.bones seg))
  size : g.animated.length = (frameWidth c.bones seg * c.numStored s + 7) / 8

theorem sectionOf_some {size : Nat} {w : Option (List (BitVec 8))} {bytes : List (BitVec 8)} (hw : w = some bytes) (hl : bytes.length = size) :
    ClipSource.sectionOf size w = some bytes := by
  unfold ClipSource.sectionOf
  by_cases h0 : size ≠ 0
  · rw [if_pos h0, hw, Option.bind_some, if_pos hl]
  · rw [if_neg h0]
    have : bytes = [] := List.eq_nil_of_length_eq_zero (by omega)
    rw [this]

theorem sectionOf_zero (w : Option (List (BitVec 8))) : ClipSource.sectionOf 0 w = some [] := by
  unfold ClipSource.sectionOf; rw [if_neg (by decide)]

/-- **A segment**: it is written, and how. -/
theorem segmentOf_is (hscale : c.hasScale = false → entries c.bones .scale = []) (h : SegmentOk c seg s) :
    ∃ g, c.segmentOf seg s = some g ∧ SegmentIs c seg s g := by
  have h0 := h.frames 0 h.nonempty
  unfold ClipSource.segmentOf
  rw [poseBits_eq h0, Option.bind_some, poseBits_eq h0, Option.bind_some, poseBits_eq h0, Option.bind_some]
  dsimp only
  rw [show kindWidth c.bones seg .rotation + kindWidth c.bones seg .translation + kindWidth c.bones seg .scale = frameWidth c.bones seg from rfl,
    animatedSize_eq _ _ h.small]
  -- formats
  have hf := writeFormats_eq c.hasScale c.bones seg hscale (fun kind b hb r hr => (h0 kind b hb).rate hr)
  simp only [var_eq h] at hf
  rw [sectionOf_some (bytes := c.formatBytes seg) hf (formatBytes_length c seg), Option.bind_some]
  -- ranges
  have hr : ClipSource.sectionOf c.rangeSize (writeSegmentRanges c.isVariable c.hasScale c.bones seg) = some (c.segmentBytes seg) := by
    by_cases h1 : c.segments.length > 1
    · refine sectionOf_some ?_ (segmentBytes_length h)
      have := writeSegmentRanges_eq c.isVariable c.hasScale c.bones seg hscale (ClipSource.rangeOf seg)
        (fun kind b hb _ => ⟨segmentRangeBytes_eq (h.const kind b hb), rangeBytes_length (h.const kind b hb)⟩)
      rw [this]
      unfold ClipSource.segmentBytes
      rw [if_pos h1]
      rfl
    · have : c.rangeSize = 0 := by rw [rangeSize_eq, if_neg h1]
      rw [this, sectionOf_zero]
      unfold ClipSource.segmentBytes
      rw [if_neg h1]
  rw [hr, Option.bind_some]
  -- key frames
  have hlen := frames_length (bones := c.bones) (seg := seg) (c.kept s) (fun i hi => h.frames i (by
    unfold ClipSource.kept at hi; exact List.mem_range.1 (List.mem_filter.1 hi).1))
  rw [kept_length h] at hlen
  obtain ⟨m, hm, hml, hb⟩ := writeAnimated_spec c.hasScale c.bones seg (c.keep s) s.numSamples ((frameWidth c.bones seg * c.numStored s + 7) / 8)
    s.garbage hscale h.frames h.garbage (by
      rw [show (List.range s.numSamples).filter (c.keep s) = c.kept s from rfl, hlen]; omega)
  rw [sectionOf_some hm hml, Option.bind_some]
  exact ⟨_, rfl, ⟨rfl, rfl, rfl, rfl, rfl, rfl, rfl, hb, hml⟩⟩

/-- All segments. -/
theorem segmentsOf_is (hscale : c.hasScale = false → entries c.bones .scale = []) : ∀ (l : List SegmentSource) (n : Nat),
    (∀ (i : Nat) (s : SegmentSource), l[i]? = some s → SegmentOk c (n + i) s) →
    ∃ gs, c.segmentsOf n l = some gs ∧ gs.length = l.length ∧
      ∀ (i : Nat) (s : SegmentSource) (g : Clip.Segment), l[i]? = some s → gs[i]? = some g → SegmentIs c (n + i) s g := by
  intro l
  induction l with
  | nil => intro n _; exact ⟨[], rfl, rfl, fun i s g hs => by simp at hs⟩
  | cons s l ih =>
    intro n h
    obtain ⟨g, e, hg⟩ := segmentOf_is hscale (h 0 s rfl)
    obtain ⟨gs, e2, hl, hgs⟩ := ih (n + 1) fun i t ht => by
      have := h (i + 1) t (by rw [List.getElem?_cons_succ]; exact ht)
      rwa [show n + 1 + i = n + (i + 1) by omega]
    rw [Nat.add_zero] at e hg
    refine ⟨g :: gs, ?_, by rw [List.length_cons, List.length_cons, hl], ?_⟩
    · rw [ClipSource.segmentsOf, e, Option.bind_some, e2]; rfl
    · intro i t g' ht hg'
      cases i with
      | zero =>
        simp only [List.getElem?_cons_zero, Option.some.injEq] at ht hg'
        subst ht; subst hg'; exact hg
      | succ i =>
        rw [List.getElem?_cons_succ] at ht hg'
        have := hgs i t g' ht hg'
        rwa [show n + (i + 1) = n + 1 + i by omega]

end Acl.Transform
