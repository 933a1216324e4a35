import Verif.Transform.ClipOpenLemmas
import Verif.Transform.SubTracksLemmas
/-
The context `seek` opens on the buffer of a clip.
-/
namespace Acl.Transform
open Acl.Headers Acl.Segmenting

variable {c : ClipSource} {e : Meta.Extra} {s : Meta.Settings} {src : Meta.Source} {f : ClipFlags} {m : List (BitVec 8)}

/-- Entry `t` of a list is at the position of the number of selected entries before it in the selected ones. -/
theorem filter_get {α : Type} (p : α → Bool) : ∀ (l : List α) (t : Nat) (a : α), l[t]? = some a → p a = true →
    (l.filter p)[((l.take t).filter p).length]? = some a := by
  intro l
  induction l with
  | nil => intro t a h; simp at h
  | cons b l ih =>
    intro t a h hp
    cases t with
    | zero =>
      simp only [List.getElem?_cons_zero, Option.some.injEq] at h
      subst h
      rw [List.filter_cons, if_pos hp]; rfl
    | succ t =>
      rw [List.getElem?_cons_succ] at h
      have := ih t a h hp
      rw [List.take_succ_cons, List.filter_cons, List.filter_cons]
      split
      · rw [List.length_cons, List.getElem?_cons_succ]; exact this
      · exact this

/-- Key frame `i` of segment `g` is stored at a position. -/
structure StoredAt (c : ClipSource) (g i position : Nat) : Prop where
  segment : ∃ t, c.segments[g]? = some t ∧ i < t.numSamples ∧ c.keep t i = true ∧ position = ((List.range i).filter (c.keep t)).length

theorem kept_get {t : SegmentSource} {i : Nat} (hi : i < t.numSamples) (hk : c.keep t i = true) :
    (c.kept t)[((List.range i).filter (c.keep t)).length]? = some i := by
  have := filter_get (c.keep t) (List.range t.numSamples) i i (List.getElem?_range hi) hk
  rwa [List.take_range, Nat.min_eq_left (by omega)] at this

/-- What a key frame of the context points to. -/
structure KeyIs (c : ClipSource) (m : List (BitVec 8)) (g i : Nat) (k : KeyFrame) : Prop where
  formats : At m k.fmt (c.formatBytes g)
  ranges : At m k.seg (c.segmentBytes g)
  data : HasBits k.data k.bit (frameBits c.bones g i)
  room : ∃ L0, k.bit + frameWidth c.bones g ≤ 8 * L0 ∧ L0 + 15 ≤ k.data.length
  rotation : k.rotationBits = kindWidth c.bones g .rotation
  translation : k.translationBits = kindWidth c.bones g .translation
  padFormats : k.fmt + c.formatSize + 15 ≤ m.length
  padRanges : k.seg + c.rangeSize + 15 ≤ m.length

theorem numStored_pos {g : Nat} {t : SegmentSource} (h : SegmentOk c g t) : 0 < c.numStored t := by
  rw [← kept_length h]
  apply List.length_pos_of_mem (a := 0)
  unfold ClipSource.kept
  rw [List.mem_filter, List.mem_range]
  refine ⟨h.nonempty, ?_⟩
  unfold ClipSource.keep
  cases hs : c.stripped with
  | false => rfl
  | true => rw [(h.hard hs).2.1]; rfl

theorem hasBits_drop {B : List (BitVec 8)} {p off : Nat} {L : List Bool} (hat : At m p B) (h : HasBits B off L)
    (hroom : off + L.length ≤ 8 * B.length) : HasBits (m.drop p) off L := by
  refine hasBits_congr h ?_
  intro i h1 h2
  have hlt : i / 8 < B.length := by omega
  have := hat (i / 8) _ (List.getElem?_eq_getElem hlt)
  unfold bufBit
  rw [List.getD_eq_getElem?_getD, List.getD_eq_getElem?_getD, List.getElem?_drop, this, List.getElem?_eq_getElem hlt]

/-- The key frames. -/
theorem Compressed.keyFrame (h : Compressed c e s src f m) (kf : Seek.KeyFrame) (i : Nat) (hs : StoredAt c kf.segment i kf.position) :
    ∃ d bit rot trans, Clip.segmentDataAt m kf.segment = some d ∧ keyFrameOf m kf = some ⟨d.1, d.2.1, m.drop d.2.2, bit, rot, trans⟩ ∧
      KeyIs c m kf.segment i ⟨d.1, d.2.1, m.drop d.2.2, bit, rot, trans⟩ := by
  obtain ⟨t, ht, hi, hk, hpos⟩ := hs.segment
  obtain ⟨x, hx, w⟩ := h.written
  have ok := h.clip.segments kf.segment t ht
  have hlt : kf.segment < x.segments.length := by rw [hx.length]; exact (List.getElem?_eq_some_iff.1 ht).1
  obtain ⟨g, hg⟩ : ∃ g, x.segments[kf.segment]? = some g := ⟨_, List.getElem?_eq_getElem hlt⟩
  have is := hx.segments _ t g ht hg
  obtain ⟨_, _, _, _, -, -, -, -, -, -, -, -, hseg⟩ := C32.C32_contents w
  obtain ⟨p, fmt, rng, anim, h1, h2, h3, h4, h5, -, h6, h7, h8⟩ := hseg kf.segment g hg
  obtain ⟨_, _, _, _, segs, size, -, -, -, -, hsl, hsd, -, hsz, -, hin⟩ := C32.C32_sections w
  have hs2 := hsd _ hlt
  rw [h2] at hs2
  have mem : ∀ q ∈ C32.segmentSections g (fmt, rng, anim), q.start + q.size + 15 ≤ m.length := by
    intro q hq
    rw [← hsz]
    refine (hin q ?_).2.2
    unfold C32.sections
    rw [List.mem_append]
    right
    rw [List.mem_flatMap]
    refine ⟨(g, (fmt, rng, anim)), ?_, hq⟩
    rw [List.mem_iff_getElem?]
    exact ⟨kf.segment, by rw [List.getElem?_zip_eq_some]; exact ⟨hg, hs2.symm⟩⟩
  unfold C32.segmentSections at mem
  have m1 := mem _ List.mem_cons_self
  have m2 := mem _ (List.mem_cons_of_mem _ List.mem_cons_self)
  have m3 := mem _ (List.mem_cons_of_mem _ (List.mem_cons_of_mem _ List.mem_cons_self))
  dsimp only at m1 m2 m3
  have hfr := ok.frames i hi
  have hpl : kf.position < c.numStored t := by
    rw [← kept_length ok, hpos]
    exact (List.getElem?_eq_some_iff.1 (kept_get hi hk)).1
  have hmul : frameWidth c.bones kf.segment * (kf.position + 1) ≤ frameWidth c.bones kf.segment * c.numStored t := Nat.mul_le_mul_left _ hpl
  rw [Nat.mul_succ] at hmul
  have hsm := ok.small
  have hw1 : kindWidth c.bones kf.segment .rotation + kindWidth c.bones kf.segment .translation ≤ frameWidth c.bones kf.segment := by
    unfold frameWidth; omega
  have hfw : frameWidth c.bones kf.segment < 2 ^ 32 := by omega
  refine ⟨(fmt, rng, anim), frameWidth c.bones kf.segment * kf.position, kindWidth c.bones kf.segment .rotation,
    kindWidth c.bones kf.segment .translation, h2, ?_, ?_⟩
  · unfold keyFrameOf
    rw [h2, Option.bind_some, h1, Option.bind_some, h3, Option.bind_some, h4, Option.bind_some, h5, Option.bind_some, is.pose, is.rotation,
      is.translation, BitVec.toNat_ofNat, BitVec.toNat_ofNat, BitVec.toNat_ofNat, Nat.mod_eq_of_lt hfw,
      Nat.mod_eq_of_lt (a := kindWidth c.bones kf.segment .rotation) (by omega),
      Nat.mod_eq_of_lt (a := kindWidth c.bones kf.segment .translation) (by omega), Nat.mul_comm kf.position, Nat.mod_eq_of_lt (by omega)]
  · have hkeep : ∀ j ∈ c.kept t, FrameOk c.bones kf.segment j := fun j hj => ok.frames j (by
      unfold ClipSource.kept at hj; exact List.mem_range.1 (List.mem_filter.1 hj).1)
    have hb := hasBits_flatMap (frameBits c.bones kf.segment) is.animated (kept_get hi hk)
    rw [Nat.zero_add, frames_length _ (fun j hj => hkeep j (List.mem_of_mem_take hj)), List.length_take, ← hpos,
      Nat.min_eq_left (by rw [kept_length ok]; omega)] at hb
    have hsize := is.size
    refine ⟨?_, ?_, ?_, ⟨g.animated.length, ?_, ?_⟩, rfl, rfl, ?_, ?_⟩
    · have := at_of_load h6; rwa [is.formats] at this
    · have := at_of_load h7; rwa [is.ranges] at this
    · refine hasBits_drop (at_of_load h8) hb ?_
      rw [frameBits_length hfr, hsize]; dsimp only; omega
    · dsimp only; rw [hsize]; omega
    · dsimp only; rw [List.length_drop]; omega
    · have := formatBytes_length c kf.segment
      rw [← is.formats] at this
      dsimp only; omega
    · have := segmentBytes_length ok
      rw [← is.ranges] at this
      dsimp only; omega

/-- The context after `seek` has chosen the key frames `i0` of segment `g0` and `i1` of segment `g1`. -/
structure Opened (c : ClipSource) (m : List (BitVec 8)) (g0 i0 g1 i1 : Nat) (perTrack : Bool) (rounding : Rounding) (x : Context) : Prop where
  clip : x.clip = m
  types : x.types = writePackedSubTrackTypes c.hasScale (c.bones.map (·.flags .rotation)) (c.bones.map (·.flags .translation)) (c.bones.map (·.flags .scale))
  numTracks : x.numTracks = c.bones.length
  hasScale : x.hasScale = c.hasScale
  sampled : x.sampled = true
  rotationFormat : x.rotationFormat = c.rotationFormat
  translationFormat : x.translationFormat = c.translationFormat
  scaleFormat : x.scaleFormat = c.scaleFormat
  cfg : x.cfg = ⟨31, c.segments.length > 1, g0 = g1⟩
  perTrack : x.perTrackRounding = perTrack
  rounding : x.rounding = rounding
  constants : C16.Stored m x.constantData c.rotationFormat c.hasScale (c.bones.map ClipSource.constBone) 15
  clipRanges : At m x.clipRanges c.clipBytes ∧ x.clipRanges + c.clipBytes.length + 15 ≤ m.length
  constantRotations : x.numConstantRotations = c.numConstant .rotation
  constantTranslations : x.numConstantTranslations = c.numConstant .translation
  animatedRotations : x.numAnimatedRotations = c.numAnimated .rotation
  animatedTranslations : x.numAnimatedTranslations = c.numAnimated .translation
  animatedScales : x.numAnimatedScales = c.numAnimated .scale
  key0 : KeyIs c m g0 i0 x.key0
  key1 : KeyIs c m g1 i1 x.key1
  same : g0 = g1 → x.key0.seg = x.key1.seg

theorem Compressed.opened (h : Compressed c e s src f m) (f0 f1 : Seek.KeyFrame) (i0 i1 : Nat) (hs0 : StoredAt c f0.segment i0 f0.position)
    (hs1 : StoredAt c f1.segment i1 f1.position) (perTrack : Bool) (rounding : Rounding) :
    ∃ x, openContext m f0 f1 perTrack rounding = some x ∧ Opened c m f0.segment i0 f1.segment i1 perTrack rounding x := by
  obtain ⟨y, hy, w⟩ := h.written
  obtain ⟨b, hb⟩ := h.header
  obtain ⟨r1, r2, r3, r4, -⟩ := misc_read c f b
  obtain ⟨headers, types, constants, ranges, hh, hty, hco, hra, -, lty, lco, lra, -⟩ := C32.C32_contents w
  obtain ⟨_, types', constants', ranges', segs, size, -, hty', hco', hra', -, -, -, hsz, -, hin⟩ := C32.C32_sections w
  rw [hty] at hty'
  rw [hco] at hco'
  rw [hra] at hra'
  cases hty'
  cases hco'
  cases hra'
  have hbl := h.clip.bones
  have hcnt : ∀ kind, c.numAnimated kind < 2 ^ 32 := fun kind => by
    unfold ClipSource.numAnimated
    exact Nat.lt_of_le_of_lt (List.length_filter_le _ _) hbl.2
  have hcnt2 : ∀ kind, c.numConstant kind < 2 ^ 32 := fun kind => by
    unfold ClipSource.numConstant
    exact Nat.lt_of_le_of_lt (List.length_filter_le _ _) hbl.2
  have hn := segments_le h.clip
  have hN := h.clip.numSamples
  have v := w.view
  have v0 := v.field 0 y.segments.length (by rw [hy.length]; omega) rfl
  have v2 := v.field 2 (c.numAnimated .rotation) (hcnt _) (by unfold Clip.headerWords; rw [hy.counts]; rfl)
  have v3 := v.field 3 (c.numAnimated .translation) (hcnt _) (by unfold Clip.headerWords; rw [hy.counts]; rfl)
  have v4 := v.field 4 (c.numAnimated .scale) (hcnt _) (by unfold Clip.headerWords; rw [hy.counts]; rfl)
  have v5 := v.field 5 (c.numConstant .rotation) (hcnt2 _) (by unfold Clip.headerWords; rw [hy.counts]; rfl)
  have v6 := v.field 6 (c.numConstant .translation) (hcnt2 _) (by unfold Clip.headerWords; rw [hy.counts]; rfl)
  obtain ⟨d0, bit0, rot0, trans0, hd0, hk0, is0⟩ := h.keyFrame f0 i0 hs0
  obtain ⟨d1, bit1, rot1, trans1, hd1, hk1, is1⟩ := h.keyFrame f1 i1 hs1
  have htl : y.types.length = numSubTrackEntries c.bones.length * (if c.hasScale = true then 3 else 2) := by
    obtain ⟨R, T, S, a1, a2, a3, a4⟩ := writePacked_tables c.hasScale (c.bones.map (·.flags .rotation)) (c.bones.map (·.flags .translation))
      (c.bones.map (·.flags .scale))
    have b1 := a1.1
    have b2 := a2.1
    have b3 := a3.1
    rw [List.length_map] at b1 b2 b3
    rw [hy.types, a4]
    cases c.hasScale with
    | true => simp only [if_true, List.length_append]; omega
    | false => simp only [Bool.false_eq_true, if_false, List.length_append, List.length_nil]; omega
  have hkey1 : (if f0.segment = f1.segment then
      (keyFrameOf m f1).map fun k => { k with fmt := d0.1, seg := d0.2.1, data := m.drop d0.2.2 }
    else keyFrameOf m f1) = some ⟨d1.1, d1.2.1, m.drop d1.2.2, bit1, rot1, trans1⟩ := by
    split
    · next heq =>
      rw [heq, hd1] at hd0
      cases hd0
      rw [hk1]; rfl
    · exact hk1
  have hbn : (BitVec.ofNat 32 c.bones.length).toNat = c.bones.length := by rw [BitVec.toNat_ofNat, Nat.mod_eq_of_lt hbl.2]
  refine ⟨{
      clip := m
      types := y.types
      numTracks := c.bones.length
      hasScale := c.hasScale
      sampled := true
      rotationFormat := c.rotationFormat
      translationFormat := c.translationFormat
      scaleFormat := c.scaleFormat
      cfg := ⟨31, c.segments.length > 1, f0.segment = f1.segment⟩
      perTrackRounding := perTrack
      rounding := rounding
      constantData := constants
      clipRanges := ranges
      numConstantRotations := c.numConstant .rotation
      numConstantTranslations := c.numConstant .translation
      numAnimatedRotations := c.numAnimated .rotation
      numAnimatedTranslations := c.numAnimated .translation
      numAnimatedScales := c.numAnimated .scale
      key0 := ⟨d0.1, d0.2.1, m.drop d0.2.2, bit0, rot0, trans0⟩
      key1 := ⟨d1.1, d1.2.1, m.drop d1.2.2, bit1, rot1, trans1⟩ }, ?_, ?_⟩
  · unfold openContext
    rw [hk0, Option.bind_some]
    dsimp only
    rw [hkey1, Option.bind_some]
    unfold contextOf
    rw [hb, Option.bind_some]
    dsimp only
    rw [r1, Option.bind_some, r2, Option.bind_some, r3, Option.bind_some, v0, Option.bind_some, v2, Option.bind_some, v3, Option.bind_some,
      v4, Option.bind_some, v5, Option.bind_some, v6, Option.bind_some, hty, Option.bind_some, r4,
      show (c.header f).numTracks.toNat = c.bones.length from hbn, ← htl, readWords_load lty, Option.bind_some, hco, Option.bind_some, hra,
      Option.bind_some, hy.length]
    rfl
  · refine ⟨rfl, hy.types, rfl, rfl, rfl, rfl, rfl, rfl, rfl, rfl, rfl, ?_, ?_, rfl, rfl, rfl, rfl, rfl, is0, is1, ?_⟩
    · have hl := (hin ⟨constants, y.constants.length, 4⟩ (by unfold C32.sections; simp)).2.2
      obtain ⟨A, C, e1, e2⟩ := split_of_load lco
      refine ⟨A, C, ?_, e2, ?_⟩
      · rw [← hy.constants, List.append_assoc]; exact e1
      · have := congrArg List.length e1
        rw [List.length_append, List.length_append] at this
        dsimp only at hl
        omega
    · have hl := (hin ⟨ranges, y.clipRanges.length, 4⟩ (by unfold C32.sections; simp)).2.2
      dsimp only at hl ⊢
      rw [← hy.clipRanges]
      exact ⟨at_of_load lra, by omega⟩
    · intro heq
      dsimp only
      rw [heq, hd1] at hd0
      cases hd0; rfl

end Acl.Transform
