import Verif.Transform.ClipContext
import Verif.Props.C15
/-
The context `seek` opens on the buffer of a clip holds the pose of the clip at the two key frames.
-/
namespace Acl.Transform
open Acl.Headers Acl.C13

variable {c : ClipSource} {m : List (BitVec 8)}

/-- The values of a bone. The two key frames are sample `i0` of segment `g0` and sample `i1` of segment `g1`. -/
def ClipSource.pose (c : ClipSource) (g0 i0 g1 i1 : Nat) : C14.Pose where
  rotationFlags := c.bones.map (·.flags .rotation)
  translationFlags := c.bones.map (·.flags .translation)
  scaleFlags := c.bones.map (·.flags .scale)
  rotation := fun t => match c.bones[t]? with
    | some b => C16.asLoaded c.rotationFormat b.rotation
    | none => .full ⟨0, 0, 0, 0⟩
  vector := fun kind t => match c.bones[t]? with
    | some b => b.vector kind
    | none => ⟨0, 0, 0⟩
  samples := fun kind t => match c.bones[t]? with
    | some b => ((b.stream g0 kind).sample (c.segments.length > 1) i0 (b.segmentRange g0 kind) (b.clipRange kind),
        (b.stream g1 kind).sample (c.segments.length > 1) i1 (b.segmentRange g1 kind) (b.clipRange kind))
    | none => (C14.noSample, C14.noSample)

/-- Counting the selected positions below `t` is counting the selected entries among the first `t`. -/
theorem range_filter_take {α : Type} (p : α → Bool) (sel : Nat → Bool) (l : List α) (h : ∀ (i : Nat) (a : α), l[i]? = some a → sel i = p a) :
    ∀ t, t ≤ l.length → ((List.range t).filter sel).length = ((l.take t).filter p).length := by
  intro t
  induction t with
  | zero => intro _; rfl
  | succ t ih =>
    intro ht
    have hlt : t < l.length := ht
    rw [List.range_succ, List.filter_append, List.length_append, ih (by omega), List.take_succ_eq_append_getElem hlt, List.filter_append,
      List.length_append]
    congr 1
    have := h t _ (List.getElem?_eq_getElem hlt)
    simp only [List.filter_cons, List.filter_nil, this]
    split <;> rfl

section ranks
variable (g0 i0 g1 i1 : Nat)

theorem pose_flags (kind : Kind) : (c.pose g0 i0 g1 i1).flags kind = c.bones.map (·.flags kind) := by
  cases kind <;> rfl

theorem pose_class (kind : Kind) (hk : kind = .scale → c.hasScale = true) (t : Nat) (b : Bone) (hb : c.bones[t]? = some b) :
    (c.pose g0 i0 g1 i1).class c.hasScale kind t = classOf (b.flags kind) := by
  unfold C14.Pose.class
  rw [if_neg (by rintro ⟨h1, h2⟩; rw [hk h1] at h2; cases h2), pose_flags, List.getElem?_map, hb]
  rfl

theorem pose_rank (kind : Kind) (hk : kind = .scale → c.hasScale = true) (cl : Class) (t : Nat) (ht : t ≤ c.bones.length) :
    (c.pose g0 i0 g1 i1).rank c.hasScale kind cl t = ((c.bones.take t).filter fun b => classOf (b.flags kind) = cl).length := by
  unfold C14.Pose.rank
  refine range_filter_take _ _ c.bones (fun i b hb => ?_) t ht
  rw [pose_class g0 i0 g1 i1 kind hk i b hb]

theorem classOf_animated {f : StreamFlags} (h : f.isDefault = true → f.isConstant = true) : decide (classOf f = .animated) = !f.isConstant := by
  obtain ⟨d, k⟩ := f
  cases d <;> cases k <;> simp_all [classOf]

theorem classOf_constant (f : StreamFlags) : decide (classOf f = .constant) = C16.StoredConstant f := by
  obtain ⟨d, k⟩ := f
  cases d <;> cases k <;> simp [classOf, C16.StoredConstant]

theorem rank_animated (h : ClipOk c) (kind : Kind) (hk : kind = .scale → c.hasScale = true) (t : Nat) (ht : t ≤ c.bones.length) :
    (c.pose g0 i0 g1 i1).rank c.hasScale kind .animated t = (entries (c.bones.take t) kind).length := by
  rw [pose_rank g0 i0 g1 i1 kind hk .animated t ht]
  unfold entries
  congr 1
  apply List.filter_congr
  intro b hb
  exact classOf_animated (h.default b (List.mem_of_mem_take hb) kind)

theorem entry_get (h : ClipOk c) (kind : Kind) (hk : kind = .scale → c.hasScale = true) (t : Nat) (ht : t < c.bones.length)
    (hc : (c.pose g0 i0 g1 i1).class c.hasScale kind t = .animated) :
    ∃ b, c.bones[t]? = some b ∧ (entries c.bones kind)[(c.pose g0 i0 g1 i1).rank c.hasScale kind .animated t]? = some b := by
  have hb := List.getElem?_eq_getElem ht
  refine ⟨_, hb, ?_⟩
  rw [pose_class g0 i0 g1 i1 kind hk t _ hb] at hc
  rw [rank_animated g0 i0 g1 i1 h kind hk t (by omega)]
  refine filter_get _ _ _ _ hb ?_
  rw [← classOf_animated (h.default _ (List.getElem_mem ht) kind)]
  exact decide_eq_true hc

theorem rank_all (h : ClipOk c) (kind : Kind) (hk : kind = .scale → c.hasScale = true) :
    c.numAnimated kind = (c.pose g0 i0 g1 i1).rank c.hasScale kind .animated c.bones.length := by
  rw [rank_animated g0 i0 g1 i1 h kind hk _ (by omega), List.take_length]; rfl

theorem rank_constant (kind : Kind) (hk : kind = .scale → c.hasScale = true) (t : Nat) (ht : t ≤ c.bones.length) :
    (c.pose g0 i0 g1 i1).rank c.hasScale kind .constant t = ((c.bones.take t).filter fun b => C16.StoredConstant (b.flags kind)).length := by
  rw [pose_rank g0 i0 g1 i1 kind hk .constant t ht]
  congr 1
  apply List.filter_congr
  intro b _
  exact classOf_constant _

theorem numConstant_eq (kind : Kind) (hk : kind = .scale → c.hasScale = true) :
    c.numConstant kind = (c.bones.filter fun b => C16.StoredConstant (b.flags kind)).length := by
  unfold ClipSource.numConstant
  congr 1
  apply List.filter_congr
  intro b _
  rw [C16.stored_eq]
  cases kind with
  | scale => rw [hk rfl]; simp
  | rotation => simp
  | translation => simp

theorem constant_get (kind : Kind) (hk : kind = .scale → c.hasScale = true) (t : Nat) (ht : t < c.bones.length)
    (hc : (c.pose g0 i0 g1 i1).class c.hasScale kind t = .constant) :
    ∃ b, c.bones[t]? = some b ∧
      (c.bones.filter fun b => C16.StoredConstant (b.flags kind))[(c.pose g0 i0 g1 i1).rank c.hasScale kind .constant t]? = some b := by
  have hb := List.getElem?_eq_getElem ht
  refine ⟨_, hb, ?_⟩
  rw [pose_class g0 i0 g1 i1 kind hk t _ hb] at hc
  rw [rank_constant g0 i0 g1 i1 kind hk t (by omega)]
  refine filter_get _ _ _ _ hb ?_
  rw [← classOf_constant]
  exact decide_eq_true hc

end ranks

/-! ### The animated samples -/

theorem zipWith_maps {α β γ δ : Type} (f : β → γ → δ) (a : α → β) (b : α → γ) (l : List α) :
    List.zipWith f (l.map a) (l.map b) = l.map fun x => f (a x) (b x) := by
  induction l with
  | nil => rfl
  | cons x l ih => rw [List.map_cons, List.map_cons, List.zipWith_cons_cons, ih, List.map_cons]

theorem isVariable_rotation (c : ClipSource) : c.isVariable .rotation = decide (c.rotationFormat = .dropWVariable) := rfl

/-- The rotations of a key frame. -/
theorem KeyIs.rotation_found {g i : Nat} {t : SegmentSource} {k : KeyFrame} (h : KeyIs c m g i k) (ok : SegmentOk c g t) (hi : i < t.numSamples)
    (hmulti : c.segments.length ≠ 0) {clipAt : Nat} (hclip : At m clipAt c.clipBytes) {single : Bool} {r : Nat} {b : Bone} (hb : (entries c.bones .rotation)[r]? = some b) :
    rotationSampleAt ⟨31, c.segments.length > 1, single⟩ c.rotationFormat m clipAt (c.numAnimated .rotation) ⟨k.fmt, k.seg, k.data, k.bit⟩ r =
      some ((b.stream g .rotation).sample (c.segments.length > 1) i (b.segmentRange g .rotation) (b.clipRange .rotation)) := by
  have hfo := ok.frames i hi
  obtain ⟨L0, hroom, hlen⟩ := h.room
  have hlenE : (entries c.bones .rotation).length = c.numAnimated .rotation := rfl
  have hflat : (((entries c.bones .rotation).map fun b => b.stream g .rotation).flatMap fun t => t.bits i) = kindBits c.bones g .rotation i := by
    rw [List.flatMap_map]; rfl
  have hpart : c.rotationFormat = .dropWVariable → c.part .rotation = entries c.bones .rotation := fun hv => by
    rw [part_eq, isVariable_rotation, hv]; rfl
  have key := Acl.Transform.rotation_found (m := m) (data := k.data) (fmtAt := k.fmt) (segAt := k.seg) (bit := k.bit) (clipAt := clipAt) (i := i) (L0 := L0)
    (multi := c.segments.length > 1) (single := single) (fmt := c.rotationFormat) (ts := (entries c.bones .rotation).map fun b => b.stream g .rotation)
    (segs := (entries c.bones .rotation).map fun b => b.segmentRange g .rotation) (clips := (entries c.bones .rotation).map fun b => b.clipRange .rotation)
    (k := r) (t := b.stream g .rotation) (sr := b.segmentRange g .rotation) (cr := b.clipRange .rotation)
  have hN : ((entries c.bones .rotation).map fun b => b.stream g .rotation).length = c.numAnimated .rotation := by rw [List.length_map]; rfl
  rw [hN] at key
  apply key
  · intro t ht
    obtain ⟨b, hb, rfl⟩ := List.mem_map.1 ht
    exact hfo _ b hb
  · intro t ht
    obtain ⟨b, hb, rfl⟩ := List.mem_map.1 ht
    exact ok.const _ b hb
  · intro t ht
    obtain ⟨b, hb, rfl⟩ := List.mem_map.1 ht
    exact ok.format _ b hb
  · intro hm t ht
    obtain ⟨b, hb, rfl⟩ := List.mem_map.1 ht
    exact ok.ranged (by have := of_decide_eq_false hm; omega) _ b hb
  · rw [List.length_map]; rfl
  · rw [List.length_map]; rfl
  · intro hv
    have := h.formats
    unfold ClipSource.formatBytes at this
    rw [at_append, at_append, at_append, hpart hv] at this
    rw [List.map_map]
    exact this.1.1.1
  · intro hv hm
    have := h.ranges
    unfold ClipSource.segmentBytes at this
    rw [if_pos (of_decide_eq_true hm), at_append, at_append, hpart hv] at this
    rw [zipWith_maps]
    exact this.1.1
  · intro hv
    unfold ClipSource.clipBytes at hclip
    rw [at_append, at_append, hpart hv] at hclip
    exact hclip.1.1
  · rw [hflat]
    have := h.data
    unfold frameBits at this
    rw [hasBits_append, hasBits_append] at this
    exact this.1.1
  · rw [hflat, kindBits_length hfo]
    unfold frameWidth at hroom
    omega
  · omega
  · rw [List.getElem?_map, hb]; rfl
  · rw [List.getElem?_map, hb]; rfl
  · rw [List.getElem?_map, hb]; rfl

/-- Where the formats of a kind are. -/
def ClipSource.formatOffset (c : ClipSource) : Kind → Nat
  | .rotation => 0
  | .translation => padTo4 (c.part .rotation).length
  | .scale => padTo4 (c.part .rotation).length + (c.part .translation).length

/-- Where the clip ranges of a kind are. -/
def ClipSource.clipOffset (c : ClipSource) : Kind → Nat
  | .rotation => 0
  | .translation => 24 * (c.part .rotation).length
  | .scale => 24 * (c.part .rotation).length + 24 * (c.part .translation).length

/-- Where the bits of a kind are. -/
def ClipSource.bitOffset (c : ClipSource) (g : Nat) : Kind → Nat
  | .rotation => 0
  | .translation => kindWidth c.bones g .rotation
  | .scale => kindWidth c.bones g .rotation + kindWidth c.bones g .translation

def ClipSource.vectorFormat (c : ClipSource) : Kind → VectorFormat
  | .scale => c.scaleFormat
  | _ => c.translationFormat

theorem isVariable_vector (c : ClipSource) (kind : Kind) (hk : kind ≠ .rotation) : c.isVariable kind = decide (c.vectorFormat kind = .varBits) := by
  cases kind with
  | rotation => exact absurd rfl hk
  | translation => rfl
  | scale => rfl

theorem part_vector (kind : Kind) (hk : kind ≠ .rotation) (hv : c.vectorFormat kind = .varBits) : c.part kind = entries c.bones kind := by
  rw [part_eq, isVariable_vector c kind hk, hv]; rfl

theorem KeyIs.formats_at {g i : Nat} {k : KeyFrame} (h : KeyIs c m g i k) (kind : Kind) (hk : kind ≠ .rotation) :
    At m (k.fmt + c.formatOffset kind) ((c.part kind).map fun b => (b.stream g kind).byte) ∧
      k.fmt + c.formatOffset kind + (c.part kind).length + 15 ≤ m.length := by
  have h1 := h.formats
  have h2 := h.padFormats
  rw [formatSize_eq] at h2
  unfold ClipSource.formatBytes at h1
  rw [at_append, at_append, at_append] at h1
  have hl : (c.part .rotation).length ≤ padTo4 (c.part .rotation).length := by unfold padTo4; omega
  cases kind with
  | rotation => exact absurd rfl hk
  | translation =>
    constructor
    · have := h1.1.2
      rw [List.length_append, List.length_map, List.length_replicate, Nat.add_sub_cancel' hl] at this
      exact this
    · unfold ClipSource.formatOffset; dsimp only; omega
  | scale =>
    constructor
    · have := h1.2
      rw [List.length_append, List.length_append, List.length_map, List.length_replicate, Nat.add_sub_cancel' hl, List.length_map] at this
      exact this
    · unfold ClipSource.formatOffset; dsimp only; omega

/-- The translations and the scales of a key frame. -/
theorem KeyIs.vector_found {g i : Nat} {t : SegmentSource} {k : KeyFrame} (h : KeyIs c m g i k) (ok : SegmentOk c g t) (hi : i < t.numSamples)
    (hmulti : c.segments.length ≠ 0) {clipAt : Nat} (hclip : At m clipAt c.clipBytes) (hpad : clipAt + c.clipBytes.length + 15 ≤ m.length)
    {single : Bool} (kind : Kind) (hk : kind ≠ .rotation) {r : Nat} {b : Bone} (hb : (entries c.bones kind)[r]? = some b) :
    vectorSampleAt ⟨31, c.segments.length > 1, single⟩ (c.vectorFormat kind) m (clipAt + c.clipOffset kind)
      ⟨k.fmt + c.formatOffset kind, k.seg + 6 * c.formatOffset kind, k.data, k.bit + c.bitOffset g kind⟩ r =
      some ((b.stream g kind).sample (c.segments.length > 1) i (b.segmentRange g kind) (b.clipRange kind)) := by
  have hfo := ok.frames i hi
  obtain ⟨L0, hroom, hlen⟩ := h.room
  have hflat : (((entries c.bones kind).map fun b => b.stream g kind).flatMap fun t => t.bits i) = kindBits c.bones g kind i := by
    rw [List.flatMap_map]; rfl
  have h6 : ∀ kind, ∀ b ∈ c.part kind, (ClipSource.rangeOf g kind b).length = 6 := fun kind b hb =>
    rangeBytes_length (ok.const kind b (part_mem hb).1)
  have key := Acl.Transform.vector_found (m := m) (data := k.data) (fmtAt := k.fmt + c.formatOffset kind) (segAt := k.seg + 6 * c.formatOffset kind)
    (bit := k.bit + c.bitOffset g kind) (clipAt := clipAt + c.clipOffset kind) (i := i) (L0 := L0)
    (multi := c.segments.length > 1) (single := single) (fmt := c.vectorFormat kind) (kind := kind) (ts := (entries c.bones kind).map fun b => b.stream g kind)
    (segs := (entries c.bones kind).map fun b => b.segmentRange g kind) (clips := (entries c.bones kind).map fun b => b.clipRange kind)
    (k := r) (t := b.stream g kind) (sr := b.segmentRange g kind) (cr := b.clipRange kind)
  apply key hk
  · intro t ht
    obtain ⟨b, hb, rfl⟩ := List.mem_map.1 ht
    exact hfo _ b hb
  · intro t ht
    obtain ⟨b, hb, rfl⟩ := List.mem_map.1 ht
    exact ok.const _ b hb
  · intro t ht
    obtain ⟨b, hb, rfl⟩ := List.mem_map.1 ht
    have := ok.format _ b hb
    rw [isVariable_vector c kind hk] at this
    cases kind with
    | rotation => exact absurd rfl hk
    | translation => exact this
    | scale => exact this
  · intro hm t ht
    obtain ⟨b, hb, rfl⟩ := List.mem_map.1 ht
    exact ok.ranged (by have := of_decide_eq_false hm; omega) _ b hb
  · rw [List.length_map, List.length_map]
  · rw [List.length_map, List.length_map]
  · intro hv
    have := (h.formats_at kind hk).1
    rw [part_vector kind hk hv] at this
    rw [List.map_map]
    exact this
  · intro hv hm
    have hr := h.ranges
    unfold ClipSource.segmentBytes at hr
    rw [if_pos (of_decide_eq_true hm), at_append, at_append] at hr
    rw [zipWith_maps, List.flatMap_map, ← part_vector kind hk hv]
    rw [List.length_append, segmentSoa_length, flatMap_const_length _ 6 _ (h6 .translation), List.length_map] at hr
    cases kind with
    | rotation => exact absurd rfl hk
    | translation => exact hr.1.2
    | scale =>
      have := hr.2
      rw [← Nat.mul_add] at this
      exact this
  · intro hv
    unfold ClipSource.clipBytes at hclip
    rw [at_append, at_append, List.length_append, clipSoa_length, clipRecords_length, List.length_map, List.length_map] at hclip
    rw [← part_vector kind hk hv]
    cases kind with
    | rotation => exact absurd rfl hk
    | translation => exact hclip.1.2
    | scale => exact hclip.2
  · intro hv hm
    have := h.padRanges
    rw [rangeSize_eq, if_pos (of_decide_eq_true hm), formatSize_eq] at this
    rw [List.length_map, ← part_vector kind hk hv]
    cases kind with
    | rotation => exact absurd rfl hk
    | translation => unfold ClipSource.formatOffset; dsimp only; omega
    | scale => unfold ClipSource.formatOffset; dsimp only; omega
  · intro hv
    rw [clipBytes_length] at hpad
    rw [List.length_map, ← part_vector kind hk hv]
    cases kind with
    | rotation => exact absurd rfl hk
    | translation => unfold ClipSource.clipOffset; dsimp only; omega
    | scale => unfold ClipSource.clipOffset; dsimp only; omega
  · rw [hflat]
    have := h.data
    unfold frameBits at this
    rw [hasBits_append, hasBits_append, List.length_append, kindBits_length hfo, kindBits_length hfo] at this
    cases kind with
    | rotation => exact absurd rfl hk
    | translation => exact this.1.2
    | scale => exact this.2
  · rw [hflat, kindBits_length hfo]
    unfold frameWidth at hroom
    cases kind with
    | rotation => exact absurd rfl hk
    | translation => unfold ClipSource.bitOffset; dsimp only; omega
    | scale => unfold ClipSource.bitOffset; dsimp only; omega
  · omega
  · rw [List.getElem?_map, hb]; rfl
  · rw [List.getElem?_map, hb]; rfl
  · rw [List.getElem?_map, hb]; rfl

/-! ### The context -/

theorem rotationStart (c : ClipSource) : (if c.rotationFormat = .dropWVariable then 4 * ((c.numAnimated .rotation + 3) / 4) else 0) =
    padTo4 (c.part .rotation).length := by
  rw [part_length, isVariable_rotation]
  by_cases h : c.rotationFormat = .dropWVariable
  · rw [if_pos h, decide_eq_true h]; rfl
  · rw [if_neg h, decide_eq_false h, if_neg (by decide)]; rfl

theorem translationStart (c : ClipSource) : (if c.translationFormat = .varBits then c.numAnimated .translation else 0) =
    (c.part .translation).length := by
  rw [part_length, isVariable_vector c .translation nofun]
  by_cases h : c.translationFormat = .varBits
  · rw [if_pos h, show c.vectorFormat .translation = c.translationFormat from rfl, decide_eq_true h]; rfl
  · rw [if_neg h, show c.vectorFormat .translation = c.translationFormat from rfl, decide_eq_false h]; rfl

theorem rotationRanges (c : ClipSource) : (if c.rotationFormat = .dropWVariable then 24 * c.numAnimated .rotation else 0) =
    24 * (c.part .rotation).length := by
  rw [part_length, isVariable_rotation]
  by_cases h : c.rotationFormat = .dropWVariable
  · rw [if_pos h, decide_eq_true h]; rfl
  · rw [if_neg h, decide_eq_false h]; rfl

theorem translationRanges (c : ClipSource) : (if c.translationFormat = .varBits then 24 * c.numAnimated .translation else 0) =
    24 * (c.part .translation).length := by
  rw [← translationStart]
  split <;> rfl

variable {g0 i0 g1 i1 : Nat} {perTrack : Bool} {rounding : Rounding} {x : Context}

theorem Opened.start_eq (h : Opened c m g0 i0 g1 i1 perTrack rounding x) (kind : Kind) {g i : Nat} {k : KeyFrame} (hk : KeyIs c m g i k) :
    C14.start x kind k = ⟨k.fmt + c.formatOffset kind, k.seg + 6 * c.formatOffset kind, k.data, k.bit + c.bitOffset g kind⟩ := by
  unfold C14.start
  rw [h.rotationFormat, h.translationFormat, h.animatedRotations, h.animatedTranslations]
  dsimp only
  rw [rotationStart, translationStart]
  cases kind with
  | rotation => rfl
  | translation => dsimp only; rw [hk.rotation]; rfl
  | scale =>
    dsimp only
    rw [hk.rotation, hk.translation]
    unfold ClipSource.formatOffset ClipSource.bitOffset
    dsimp only
    congr 1 <;> omega

theorem Opened.ranges_eq (h : Opened c m g0 i0 g1 i1 perTrack rounding x) (kind : Kind) :
    C14.startRanges x kind = x.clipRanges + c.clipOffset kind := by
  unfold C14.startRanges
  rw [h.rotationFormat, h.translationFormat, h.animatedRotations, h.animatedTranslations]
  dsimp only
  rw [rotationRanges, translationRanges]
  cases kind with
  | rotation => rfl
  | translation => rfl
  | scale => unfold ClipSource.clipOffset; dsimp only; omega

/-- The animated sub-tracks of a kind that is not rotation. -/
theorem Opened.vectors (hc : ClipOk c) (h : Opened c m g0 i0 g1 i1 perTrack rounding x) {t0 t1 : SegmentSource}
    (h0 : c.segments[g0]? = some t0) (h1 : c.segments[g1]? = some t1) (hi0 : i0 < t0.numSamples) (hi1 : i1 < t1.numSamples)
    (kind : Kind) (hk : kind ≠ .rotation) (hs : kind = .scale → c.hasScale = true) :
    C14.StoresVectors x (c.pose g0 i0 g1 i1) kind (c.vectorFormat kind) (c.numAnimated kind) := by
  have hne : c.segments.length ≠ 0 := by have := (List.getElem?_eq_some_iff.1 h0).1; omega
  have byte : ∀ {g i : Nat} {t : SegmentSource} {k : KeyFrame}, KeyIs c m g i k → SegmentOk c g t →
      c.segments.length = 1 → c.vectorFormat kind = .varBits → ∀ r, r < c.numAnimated kind → byteAt m (k.fmt + c.formatOffset kind + r) ≠ some 0 := by
    intro g i t k hki ok h1 hv r hr
    have hlt : r < (entries c.bones kind).length := hr
    have hmem := List.getElem_mem hlt
    have hform := ok.format kind _ hmem
    unfold FormatOk at hform
    rw [if_pos (by rw [isVariable_vector c kind hk]; exact decide_eq_true hv)] at hform
    obtain ⟨q, hq⟩ := Option.isSome_iff_exists.1 hform
    have hq0 : q ≠ 0 := fun h0 => ok.ranged h1 kind _ hmem (by rw [hq, h0])
    have hq24 := (ok.frames 0 ok.nonempty kind _ hmem).rate hq
    have hat := (hki.formats_at kind hk).1
    rw [part_vector kind hk hv] at hat
    have := at_byte hat (j := r) (b := rateByte q) (by
      rw [List.getElem?_map, List.getElem?_eq_getElem hlt, Option.map_some]
      unfold Stream.byte; rw [hq])
    rw [this]
    intro e
    injection e with e
    have e := congrArg BitVec.toNat e
    rw [rateByte_toNat hq24] at e
    split at e <;> simp at e
    exact hq0 e
  constructor
  · rw [h.hasScale, h.numTracks]; exact rank_all _ _ _ _ hc kind hs
  · intro t ht hcl
    rw [h.numTracks] at ht
    rw [h.hasScale] at hcl ⊢
    obtain ⟨b, hb, he⟩ := entry_get _ _ _ _ hc kind hs t ht hcl
    have := h.key0.vector_found (hc.segments g0 t0 h0) hi0 hne h.clipRanges.1 h.clipRanges.2 (single := decide (g0 = g1)) kind hk he
    rw [h.start_eq kind h.key0, h.ranges_eq, h.cfg, h.clip, this]
    unfold ClipSource.pose
    dsimp only
    rw [hb]
  · intro t ht hcl
    rw [h.numTracks] at ht
    rw [h.hasScale] at hcl ⊢
    obtain ⟨b, hb, he⟩ := entry_get _ _ _ _ hc kind hs t ht hcl
    have := h.key1.vector_found (hc.segments g1 t1 h1) hi1 hne h.clipRanges.1 h.clipRanges.2 (single := decide (g0 = g1)) kind hk he
    rw [h.start_eq kind h.key1, h.ranges_eq, h.cfg, h.clip, this]
    unfold ClipSource.pose
    dsimp only
    rw [hb]
  · intro hseg hv r hr
    rw [h.cfg] at hseg
    have hseg := of_decide_eq_false hseg
    rw [h.start_eq kind h.key0, h.start_eq kind h.key1, h.clip]
    exact ⟨byte h.key0 (hc.segments g0 t0 h0) (by omega) hv r hr, byte h.key1 (hc.segments g1 t1 h1) (by omega) hv r hr⟩
  · intro hv
    rw [h.start_eq kind h.key0, h.start_eq kind h.key1, h.clip]
    have a := (h.key0.formats_at kind hk).2
    have b := (h.key1.formats_at kind hk).2
    rw [part_vector kind hk hv] at a b
    unfold ClipSource.numAnimated
    unfold entries at a b
    dsimp only
    omega

theorem map_filter_constBone (bones : List Bone) (kind : Kind) (flag : ConstBone → StreamFlags) (hf : ∀ b, flag (ClipSource.constBone b) = b.flags kind) :
    (bones.map ClipSource.constBone).filter (fun b => C16.StoredConstant (flag b)) =
      (bones.filter fun b => C16.StoredConstant (b.flags kind)).map ClipSource.constBone := by
  rw [List.filter_map]
  congr 1
  apply List.filter_congr
  intro b _
  simp only [Function.comp, hf]

theorem rotationsOf_eq (bones : List Bone) : C16.rotationsOf (bones.map ClipSource.constBone) =
    (bones.filter fun b => C16.StoredConstant (b.flags .rotation)).map (·.rotation) := by
  unfold C16.rotationsOf
  rw [map_filter_constBone bones .rotation _ (fun _ => rfl), List.map_map]
  rfl

theorem translationsOf_eq (bones : List Bone) : C16.translationsOf (bones.map ClipSource.constBone) =
    (bones.filter fun b => C16.StoredConstant (b.flags .translation)).map (·.vector .translation) := by
  unfold C16.translationsOf
  rw [map_filter_constBone bones .translation _ (fun _ => rfl), List.map_map]
  rfl

theorem scalesOf_eq (bones : List Bone) : C16.scalesOf (bones.map ClipSource.constBone) =
    (bones.filter fun b => C16.StoredConstant (b.flags .scale)).map (·.vector .scale) := by
  unfold C16.scalesOf
  rw [map_filter_constBone bones .scale _ (fun _ => rfl), List.map_map]
  rfl

theorem numConstant_all (g0 i0 g1 i1 : Nat) (kind : Kind) (hk : kind = .scale → c.hasScale = true) :
    c.numConstant kind = (c.pose g0 i0 g1 i1).rank c.hasScale kind .constant c.bones.length := by
  rw [rank_constant _ _ _ _ kind hk _ (by omega), List.take_length, numConstant_eq kind hk]

theorem rotationBytes_eq (fmt : RotationFormat) : (if fmt = .quatfFull then 16 else 12) = C16.rotationBytes fmt := by
  cases fmt <;> rfl

/-- **The context holds the pose.** -/
theorem Opened.stores (hc : ClipOk c) (h : Opened c m g0 i0 g1 i1 perTrack rounding x) {t0 t1 : SegmentSource}
    (h0 : c.segments[g0]? = some t0) (h1 : c.segments[g1]? = some t1) (hi0 : i0 < t0.numSamples) (hi1 : i1 < t1.numSamples) :
    C14.Stores x (c.pose g0 i0 g1 i1) := by
  have hne : c.segments.length ≠ 0 := by have := (List.getElem?_eq_some_iff.1 h0).1; omega
  have hbl := hc.bones
  have hrl : (C16.rotationsOf (c.bones.map ClipSource.constBone)).length = c.numConstant .rotation := by
    rw [rotationsOf_eq, List.length_map, numConstant_eq .rotation nofun]
  have htl : (C16.translationsOf (c.bones.map ClipSource.constBone)).length = c.numConstant .translation := by
    rw [translationsOf_eq, List.length_map, numConstant_eq .translation nofun]
  have hst := h.constants
  have hcb : C14.constantRotationBytes x = C16.rotationBytes c.rotationFormat := by
    unfold C14.constantRotationBytes; rw [h.rotationFormat, rotationBytes_eq]
  refine ⟨?_, ?_, ?_, ?_, ?_, ?_, ?_, ?_, ?_, ?_, ?_, ?_, ?_, ?_, ?_, ?_, ?_, ?_, ?_, ?_, ?_⟩
  · rw [h.numTracks]; exact List.length_map _
  · rw [h.numTracks]; exact List.length_map _
  · rw [h.numTracks]; exact List.length_map _
  · rw [h.numTracks]; omega
  · rw [h.types, h.hasScale]; rfl
  · rw [h.cfg]; exact Nat.succ_ne_zero 30
  · rw [h.cfg]
    intro hs
    exact h.same (of_decide_eq_true hs)
  · rw [h.constantRotations, h.hasScale, h.numTracks]; exact numConstant_all _ _ _ _ .rotation nofun
  · rw [h.constantTranslations, h.hasScale, h.numTracks]; exact numConstant_all _ _ _ _ .translation nofun
  · intro t ht hcl
    rw [h.numTracks] at ht
    rw [h.hasScale] at hcl
    obtain ⟨b, hb, he⟩ := constant_get _ _ _ _ .rotation nofun t ht hcl
    rw [h.clip, h.rotationFormat, h.constantRotations, h.hasScale]
    have hg : (C16.rotationsOf (c.bones.map ClipSource.constBone))[(c.pose g0 i0 g1 i1).rank c.hasScale .rotation .constant t]? = some b.rotation := by
      rw [rotationsOf_eq, List.getElem?_map, he]; rfl
    obtain ⟨hlt, hv⟩ := List.getElem?_eq_some_iff.1 hg
    have := C16.rotationAt_stored hst _ hlt
    rw [hv, hrl] at this
    have e : (c.pose g0 i0 g1 i1).rotation t = C16.asLoaded c.rotationFormat b.rotation := by unfold ClipSource.pose; dsimp only; rw [hb]
    rw [e]
    exact this
  · intro t ht hcl
    rw [h.numTracks] at ht
    rw [h.hasScale] at hcl
    obtain ⟨b, hb, he⟩ := constant_get _ _ _ _ .translation nofun t ht hcl
    rw [h.clip, hcb, h.constantRotations, h.hasScale]
    have hg : (C16.translationsOf (c.bones.map ClipSource.constBone))[(c.pose g0 i0 g1 i1).rank c.hasScale .translation .constant t]? = some (b.vector .translation) := by
      rw [translationsOf_eq, List.getElem?_map, he]; rfl
    obtain ⟨hlt, hv⟩ := List.getElem?_eq_some_iff.1 hg
    have := C16.translationAt_stored hst _ hlt
    rw [hv, hrl] at this
    have e : (c.pose g0 i0 g1 i1).vector .translation t = b.vector .translation := by unfold ClipSource.pose; dsimp only; rw [hb]
    rw [e]
    exact this
  · intro t ht hcl
    rw [h.numTracks] at ht
    rw [h.hasScale] at hcl
    have hsc : c.hasScale = true := by
      cases hs : c.hasScale with
      | true => rfl
      | false => rw [hs] at hcl; unfold C14.Pose.class at hcl; rw [if_pos ⟨rfl, rfl⟩] at hcl; cases hcl
    obtain ⟨b, hb, he⟩ := constant_get _ _ _ _ .scale (fun _ => hsc) t ht hcl
    rw [h.clip, hcb, h.constantRotations, h.constantTranslations, h.hasScale]
    have hg : (C16.scalesOf (c.bones.map ClipSource.constBone))[(c.pose g0 i0 g1 i1).rank c.hasScale .scale .constant t]? = some (b.vector .scale) := by
      rw [scalesOf_eq, List.getElem?_map, he]; rfl
    obtain ⟨hlt, hv⟩ := List.getElem?_eq_some_iff.1 hg
    rw [hsc] at hst
    have := C16.scaleAt_stored hst _ hlt
    rw [hv, hrl, htl] at this
    have e : (c.pose g0 i0 g1 i1).vector .scale t = b.vector .scale := by unfold ClipSource.pose; dsimp only; rw [hb]
    rw [e]
    exact this
  · have hl := C16.stored_length hst
    rw [hrl, htl] at hl
    rw [hcb, h.clip, h.constantRotations, h.constantTranslations, h.numTracks, h.hasScale]
    have : 12 * (c.pose g0 i0 g1 i1).rank c.hasScale .scale .constant c.bones.length =
        if c.hasScale = true then 12 * (C16.scalesOf (c.bones.map ClipSource.constBone)).length else 0 := by
      cases hs : c.hasScale with
      | true =>
        rw [if_pos rfl, ← hs, ← numConstant_all _ _ _ _ .scale (fun _ => hs), scalesOf_eq, List.length_map, numConstant_eq .scale (fun _ => hs)]
      | false =>
        rw [if_neg (by decide)]
        unfold C14.Pose.rank
        rw [Nat.mul_eq_zero]
        right
        rw [List.length_eq_zero_iff, List.filter_eq_nil_iff]
        intro i _
        unfold C14.Pose.class
        rw [if_pos ⟨rfl, rfl⟩]
        decide
    omega
  · rw [h.animatedRotations, h.hasScale, h.numTracks]; exact rank_all _ _ _ _ hc .rotation nofun
  · intro t ht hcl
    rw [h.numTracks] at ht
    rw [h.hasScale] at hcl
    obtain ⟨b, hb, he⟩ := entry_get _ _ _ _ hc .rotation nofun t ht hcl
    have := h.key0.rotation_found (hc.segments g0 t0 h0) hi0 hne h.clipRanges.1 (single := decide (g0 = g1)) he
    rw [h.cfg, h.clip, h.rotationFormat, h.animatedRotations, h.hasScale]
    have e : ((c.pose g0 i0 g1 i1).samples .rotation t).1 =
        (b.stream g0 .rotation).sample (c.segments.length > 1) i0 (b.segmentRange g0 .rotation) (b.clipRange .rotation) := by
      unfold ClipSource.pose; dsimp only; rw [hb]
    rw [e]
    exact this
  · intro t ht hcl
    rw [h.numTracks] at ht
    rw [h.hasScale] at hcl
    obtain ⟨b, hb, he⟩ := entry_get _ _ _ _ hc .rotation nofun t ht hcl
    have := h.key1.rotation_found (hc.segments g1 t1 h1) hi1 hne h.clipRanges.1 (single := decide (g0 = g1)) he
    rw [h.cfg, h.clip, h.rotationFormat, h.animatedRotations, h.hasScale]
    have e : ((c.pose g0 i0 g1 i1).samples .rotation t).2 =
        (b.stream g1 .rotation).sample (c.segments.length > 1) i1 (b.segmentRange g1 .rotation) (b.clipRange .rotation) := by
      unfold ClipSource.pose; dsimp only; rw [hb]
    rw [e]
    exact this
  · intro hv hs
    rw [h.rotationFormat] at hv
    rw [h.cfg] at hs
    have hs : c.segments.length > 1 := of_decide_eq_true hs
    have a := h.key0.padRanges
    have b := h.key1.padRanges
    rw [rangeSize_eq, if_pos hs, formatSize_eq, ← rotationStart, if_pos hv] at a b
    rw [h.clip, h.animatedRotations]
    omega
  · intro hv
    rw [h.rotationFormat] at hv
    have a := h.clipRanges.2
    rw [clipBytes_length, ← rotationRanges, if_pos hv] at a
    rw [h.clip, h.animatedRotations]
    omega
  · intro hv
    rw [h.rotationFormat] at hv
    have a := h.key0.padFormats
    have b := h.key1.padFormats
    rw [formatSize_eq, ← rotationStart, if_pos hv] at a b
    rw [h.clip, h.animatedRotations]
    omega
  · have := h.vectors hc h0 h1 hi0 hi1 .translation nofun nofun
    rw [h.translationFormat, h.animatedTranslations]
    exact this
  · intro hs
    rw [h.hasScale] at hs
    have := h.vectors hc h0 h1 hi0 hi1 .scale nofun (fun _ => hs)
    rw [h.scaleFormat, h.animatedScales]
    exact this

end Acl.Transform
