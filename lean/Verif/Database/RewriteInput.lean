import Verif.Database.RewriteClip
import Verif.Database.TierFrames
/-
What build_database reads of the clips it is given.
-/
namespace Acl.Rewrite
open Acl.Headers Acl.Tiers Acl.Chunks Acl.Transform Acl.Meta Acl.C22

variable {E : Type} {c : ClipSource} {e : Meta.Extra} {s : Meta.Settings} {src : Meta.Source} {f : ClipFlags} {m : List (BitVec 8)}

/-- A clip build_database takes: transforms, with the contributing error, no stripped key frame, and segments of at most 32 samples. -/
structure DbInput (c : ClipSource) (e : Meta.Extra) (s : Meta.Settings) (src : Meta.Source) (f : ClipFlags) (m : List (BitVec 8)) : Prop where
  compressed : Compressed c e s src f m
  transform : src.isTransform = true
  error : (s.contributingError || e.databaseSupport) = true
  errors : src.errors.length = c.numSamples
  whole : c.stripped = false
  short : ∀ t ∈ c.segments, t.numSamples ≤ 32

/-- The frames of clip `k` in a tier are frames of the clip. -/
structure TierFrames (c : ClipSource) (k : Nat) (tier : List (Frame E)) : Prop where
  sorted : tier.Pairwise Before
  frames : ∀ f ∈ tier, f.tracksIndex = k → ∃ t, c.segments[f.segmentIndex]? = some t ∧ f.segmentFrameIndex < t.numSamples ∧
    f.frameBitSize = frameWidth c.bones f.segmentIndex

/-- What is read of segment `g`. -/
structure SegRead (c : ClipSource) (m : List (BitVec 8)) (high : List (Frame E)) (k g : Nat) (t : SegmentSource) (s : Seg E) : Prop where
  pose : s.pose = BitVec.ofNat 32 (frameWidth c.bones g)
  width : s.pose.toNat = frameWidth c.bones g
  rotation : s.rotation = BitVec.ofNat 32 (kindWidth c.bones g .rotation)
  translation : s.translation = BitVec.ofNat 32 (kindWidth c.bones g .translation)
  formats : At m s.fmt (c.formatBytes g)
  ranges : At m s.rng (c.segmentBytes g)
  frames : s.frames = high.filter (isFrameOf k g)
  mask : IsMask s.frames s.indices
  ok : SegOk m c.segments.length c.formatSize s
  bits : ∀ i, i < t.numSamples → HasBits (m.drop s.anim) (i * frameWidth c.bones g) (frameBits c.bones g i)
  room : ∃ L, frameWidth c.bones g * t.numSamples ≤ 8 * L ∧ s.anim + L + 15 ≤ m.length
  found : Clip.segmentDataAt m g = some (s.fmt, s.rng, s.anim)

theorem kept_whole (h : c.stripped = false) (t : SegmentSource) : c.kept t = List.range t.numSamples := by
  unfold ClipSource.kept
  rw [List.filter_eq_self]
  intro i _
  unfold ClipSource.keep
  rw [h]; rfl

theorem stored_whole (h : c.stripped = false) (t : SegmentSource) : c.numStored t = t.numSamples := by
  unfold ClipSource.numStored
  rw [h]; rfl

theorem DbInput.segmentCount (h : DbInput c e s src f m) : c.segments.length < 2 ^ 32 := by
  have := segments_le h.compressed.clip
  have := h.compressed.clip.numSamples
  omega

theorem readSeg_ok (h : DbInput c e s src f m) {k : Nat} {high : List (Frame E)} (hh : TierFrames c k high) {headersAt : Nat}
    (hat : Clip.segmentHeadersAt m = some headersAt) (g : Nat) (t : SegmentSource) (ht : c.segments[g]? = some t) :
    ∃ r, readSeg m high k c.segments.length c.formatSize headersAt g = some r ∧ SegRead c m high k g t r := by
  obtain ⟨x, hx, w⟩ := h.compressed.written
  have ok := h.compressed.clip.segments g t ht
  have hlt : g < x.segments.length := by rw [hx.length]; exact (List.getElem?_eq_some_iff.1 ht).1
  obtain ⟨y, hy⟩ : ∃ y, x.segments[g]? = some y := ⟨_, List.getElem?_eq_getElem hlt⟩
  have is := hx.segments _ t y ht hy
  obtain ⟨_, _, _, _, -, -, -, -, -, -, -, -, hseg⟩ := C32.C32_contents w
  obtain ⟨p, fmt, rng, anim, h1, h2, h3, h4, h5, -, h6, h7, h8⟩ := hseg g y hy
  obtain ⟨_, _, _, _, segs, size, -, -, -, -, hsl, hsd, -, hsz, -, hin⟩ := C32.C32_sections w
  have hs2 := hsd _ hlt
  rw [h2] at hs2
  have m3 : anim + y.animated.length + 15 ≤ m.length := by
    rw [← hsz]
    refine (hin ⟨anim, y.animated.length, 4⟩ ?_).2.2
    unfold C32.sections
    rw [List.mem_append]
    right
    rw [List.mem_flatMap]
    refine ⟨(y, (fmt, rng, anim)), ?_, by simp [C32.segmentSections]⟩
    rw [List.mem_iff_getElem?]
    exact ⟨g, by rw [List.getElem?_zip_eq_some]; exact ⟨hy, hs2.symm⟩⟩
  have v := w.view
  have f0 := v.field 0 x.segments.length (by rw [hx.length]; exact h.segmentCount) rfl
  have hp : p = headersAt + 16 * g := by
    obtain ⟨b, hb⟩ := h.compressed.header
    have e1 := h1
    unfold Clip.segmentHeaderAt at e1
    rw [hb, hat] at e1
    simp only [Option.bind_eq_bind, Option.bind_some, Option.some.injEq] at e1
    have e2 := (misc_read c f b).2.2.2.2
    rw [h.whole] at e2
    rw [e2] at e1
    exact e1.symm
  subst hp
  have hfs : c.formatSize < 2 ^ 32 := by
    have e1 := formatBytes_length c g
    rw [← is.formats] at e1
    have := (split_of_load h6)
    obtain ⟨A, C, e2, -⟩ := this
    have := congrArg List.length e2
    rw [List.length_append, List.length_append] at this
    have := h.compressed.small
    omega
  have f1 := v.field 1 c.formatSize hfs (by rw [← hx.numVariable]; rfl)
  have hoff : ∃ off, load32 m (headersAt + 16 * g + 12) = some off ∧
      Clip.segmentData c.segments.length c.formatSize (Clip.base + off.toNat) = (fmt, rng, anim) := by
    have e2 := h2
    unfold Clip.segmentDataAt at e2
    rw [h1, f0, f1] at e2
    simp only [Option.bind_eq_bind, Option.bind_some] at e2
    cases ho : load32 m (headersAt + 16 * g + 12) with
    | none => rw [ho] at e2; simp at e2
    | some off =>
      rw [ho, hx.length] at e2
      simp only [Option.bind_some, Option.some.injEq] at e2
      exact ⟨off, rfl, e2⟩
  obtain ⟨off, ho, hd⟩ := hoff
  have hfr : ∀ q ∈ high.filter (isFrameOf k g), q.segmentFrameIndex < t.numSamples ∧ q.frameBitSize = frameWidth c.bones g := by
    intro q hq
    obtain ⟨q1, q2⟩ := List.mem_filter.1 hq
    unfold isFrameOf at q2
    simp only [Bool.and_eq_true, beq_iff_eq] at q2
    obtain ⟨t', b1, b2, b3⟩ := hh.frames q q1 q2.1
    rw [q2.2] at b1 b3
    rw [ht] at b1
    cases b1
    exact ⟨b2, b3⟩
  have hshort := h.short t (List.mem_of_getElem? ht)
  obtain ⟨mask, hmask, hm⟩ := mask_exists (high.filter (isFrameOf k g)) (frames_sorted hh.sorted k g) fun q hq => by
    have := (hfr q hq).1; omega
  have hsm := ok.small
  rw [stored_whole h.whole] at hsm
  have hw : frameWidth c.bones g < 2 ^ 32 := by
    have := ok.nonempty
    have : frameWidth c.bones g * 1 ≤ frameWidth c.bones g * t.numSamples := Nat.mul_le_mul_left _ this
    omega
  have hpn : (BitVec.ofNat 32 (frameWidth c.bones g)).toNat = frameWidth c.bones g := by rw [BitVec.toNat_ofNat, Nat.mod_eq_of_lt hw]
  have hsize := is.size
  rw [stored_whole h.whole] at hsize
  have hd1 : fmt = Clip.base + off.toNat := (congrArg Prod.fst hd).symm
  have hd2 : rng = alignUp (fmt + c.formatSize) 2 := by
    have := (congrArg (fun q => q.2.1) hd).symm
    rw [hd1]; exact this
  have hd3 : anim = alignUp (rng + if c.segments.length > 1 then 6 * c.formatSize else 0) 4 := by
    have := (congrArg (fun q => q.2.2) hd).symm
    rw [hd2, hd1]
    simpa only [Clip.segmentData, Nat.one_mul] using this
  refine ⟨⟨BitVec.ofNat 32 (frameWidth c.bones g), BitVec.ofNat 32 (kindWidth c.bones g .rotation), BitVec.ofNat 32 (kindWidth c.bones g .translation),
    fmt, rng, anim, high.filter (isFrameOf k g), mask⟩, ?_, ?_⟩
  · unfold readSeg
    rw [h3, Option.bind_some, h4, Option.bind_some, h5, Option.bind_some, ho, Option.bind_some, hmask, Option.bind_some,
      List.getElem?_cons_zero, Option.bind_some, hd, is.pose, is.rotation, is.translation]
  · have hbits : ∀ i, i < t.numSamples → HasBits (m.drop anim) (i * frameWidth c.bones g) (frameBits c.bones g i) := by
      intro i hi
      have hk := is.animated
      rw [kept_whole h.whole] at hk
      have hb := hasBits_flatMap (frameBits c.bones g) hk (List.getElem?_range hi)
      rw [Nat.zero_add, List.take_range, Nat.min_eq_left (by omega), frames_length _ (fun j hj => ok.frames j (by
        have := List.mem_range.1 hj; omega)), List.length_range] at hb
      rw [Nat.mul_comm i]
      refine hasBits_drop (at_of_load h8) hb ?_
      rw [frameBits_length (ok.frames i hi), hsize]
      have : frameWidth c.bones g * (i + 1) ≤ frameWidth c.bones g * t.numSamples := Nat.mul_le_mul_left _ hi
      rw [Nat.mul_succ] at this
      omega
    exact {
      pose := rfl
      width := hpn
      rotation := rfl
      translation := rfl
      formats := by have := at_of_load h6; rwa [is.formats] at this
      ranges := by have := at_of_load h7; rwa [is.ranges] at this
      frames := rfl
      mask := hm
      ok := {
        rng := hd2
        anim := hd3
        inside := by dsimp only; omega
        bits := fun q hq => by dsimp only; rw [hpn]; exact (hfr q hq).2
        source := fun q hq => by
          dsimp only
          rw [hpn]
          have := (hfr q hq).1
          have : (q.segmentFrameIndex + 1) * frameWidth c.bones g ≤ t.numSamples * frameWidth c.bones g := Nat.mul_le_mul_right _ this
          rw [Nat.add_mul, Nat.one_mul, Nat.mul_comm t.numSamples] at this
          omega
        count := hm.length }
      bits := hbits
      room := ⟨y.animated.length, by rw [hsize]; omega, m3⟩
      found := h2 }

theorem readSegs_ok (h : DbInput c e s src f m) {k : Nat} {high : List (Frame E)} (hh : TierFrames c k high) {headersAt : Nat}
    (hat : Clip.segmentHeadersAt m = some headersAt) : ∀ (n i : Nat), i + n = c.segments.length →
    ∃ segs, readSegs m high k c.segments.length c.formatSize headersAt n i = some segs ∧ segs.length = n ∧
      ∀ (j : Nat) r t, segs[j]? = some r → c.segments[i + j]? = some t → SegRead c m high k (i + j) t r := by
  intro n
  induction n with
  | zero => intro i _; exact ⟨[], rfl, rfl, fun j r t hr => by simp at hr⟩
  | succ n ih =>
    intro i hi
    have hlt : i < c.segments.length := by omega
    obtain ⟨r, e1, r1⟩ := readSeg_ok h hh hat i _ (List.getElem?_eq_getElem hlt)
    obtain ⟨segs, e2, hl, hs⟩ := ih (i + 1) (by omega)
    refine ⟨r :: segs, by rw [readSegs, e1, Option.bind_some, e2]; rfl, by rw [List.length_cons, hl], ?_⟩
    intro j q t hj ht
    cases j with
    | zero =>
      simp only [List.getElem?_cons_zero, Option.some.injEq] at hj
      subst hj
      rw [Nat.add_zero, List.getElem?_eq_getElem hlt] at ht
      cases ht
      exact r1
    | succ j =>
      rw [List.getElem?_cons_succ] at hj
      rw [← Nat.add_assoc, Nat.add_right_comm] at ht ⊢
      exact hs j q t hj ht

/-- The types. -/
def typeWords (c : ClipSource) : List (BitVec 32) :=
  writePackedSubTrackTypes c.hasScale (c.bones.map (·.flags .rotation)) (c.bones.map (·.flags .translation)) (c.bones.map (·.flags .scale))

theorem typeWords_length (c : ClipSource) : (typeWords c).length = numSubTrackEntries c.bones.length * (if c.hasScale = true then 3 else 2) := by
  obtain ⟨R, T, S, a1, a2, a3, a4⟩ := writePacked_tables c.hasScale (c.bones.map (·.flags .rotation)) (c.bones.map (·.flags .translation))
    (c.bones.map (·.flags .scale))
  have b1 := a1.1
  have b2 := a2.1
  have b3 := a3.1
  rw [List.length_map] at b1 b2 b3
  unfold typeWords
  rw [a4]
  cases c.hasScale with
  | true => simp only [if_true, List.length_append]; omega
  | false => simp only [Bool.false_eq_true, if_false, List.length_append, List.length_nil]; omega

def constantBytes (c : ClipSource) : List (BitVec 8) := writeConstantTrackData c.rotationFormat c.hasScale (c.bones.map ClipSource.constBone)

def startWords (c : ClipSource) : List (BitVec 32) := (c.segments.map fun s => BitVec.ofNat 32 s.start) ++ [0xFFFFFFFF#32]

/-- The sections of the input before the segments. -/
structure Sections (c : ClipSource) (m : List (BitVec 8)) (headersAt typesAt constantsAt rangesAt : Nat) : Prop where
  headersAtIs : Clip.segmentHeadersAt m = some headersAt
  typesAtIs : Clip.typesAt m = some typesAt
  constantsAtIs : Clip.constantsAt m = some constantsAt
  rangesAtIs : Clip.clipRangesAt m = some rangesAt
  starts : c.segments.length > 1 → At m Clip.startIndicesAt ((startWords c).flatMap bytesLE)
  startsIn : 84 + (if c.segments.length > 1 then 4 * (c.segments.length + 1) else 0) ≤ m.length
  types : At m typesAt ((typeWords c).flatMap bytesLE)
  typesIn : typesAt + 4 * (typeWords c).length ≤ m.length
  constants : At m constantsAt (constantBytes c)
  constantsIn : constantsAt + (constantBytes c).length ≤ rangesAt
  ranges : At m rangesAt c.clipBytes
  rangesIn : rangesAt + c.clipBytes.length ≤ m.length
  first : ∀ fmt rng anim, Clip.segmentDataAt m 0 = some (fmt, rng, anim) → rangesAt + c.clipBytes.length ≤ fmt
  segments : Clip.field m 0 = some c.segments.length
  numVariable : Clip.field m 1 = some c.formatSize
  counts : ∀ kind, Clip.field m (match kind with | .rotation => 2 | .translation => 3 | .scale => 4) = some (c.numAnimated kind) ∧
    Clip.field m (match kind with | .rotation => 5 | .translation => 6 | .scale => 7) = some (c.numConstant kind)

theorem startWords_length (c : ClipSource) : ((startWords c).flatMap bytesLE).length = 4 * (c.segments.length + 1) := by
  rw [flatMap_const_length _ 4 _ fun w _ => bytesLE_length w]
  unfold startWords
  rw [List.length_append, List.length_map]; rfl

theorem DbInput.sections (h : DbInput c e s src f m) : ∃ headersAt typesAt constantsAt rangesAt, Sections c m headersAt typesAt constantsAt rangesAt := by
  obtain ⟨x, hx, w⟩ := h.compressed.written
  obtain ⟨headers, types, constants, ranges, hh, hty, hco, hra, hst, lty, lco, lra, hseg⟩ := C32.C32_contents w
  obtain ⟨headers', types', constants', ranges', segs, size, hh', hty', hco', hra', hsl, hsd, -, hsz, hpw, hin⟩ := C32.C32_sections w
  rw [hh] at hh'
  rw [hty] at hty'
  rw [hco] at hco'
  rw [hra] at hra'
  cases hh'
  cases hty'
  cases hco'
  cases hra'
  have hbl := h.compressed.clip.bones
  have hcnt : ∀ kind, c.numAnimated kind < 2 ^ 32 := fun kind => by
    unfold ClipSource.numAnimated
    exact Nat.lt_of_le_of_lt (List.length_filter_le _ _) hbl.2
  have hcnt2 : ∀ kind, c.numConstant kind < 2 ^ 32 := fun kind => by
    unfold ClipSource.numConstant
    exact Nat.lt_of_le_of_lt (List.length_filter_le _ _) hbl.2
  have v := w.view
  have hpos := segments_pos h.compressed.clip
  have f0 := v.field 0 x.segments.length (by rw [hx.length]; exact h.segmentCount) rfl
  rw [hx.length] at f0
  have ht0 := List.getElem?_eq_getElem hpos
  obtain ⟨y, hy⟩ : ∃ y, x.segments[0]? = some y := ⟨_, List.getElem?_eq_getElem (by rw [hx.length]; exact hpos)⟩
  obtain ⟨p, fmt, rng, anim, h1, h2, h3, h4, h5, -, h6, h7, h8⟩ := hseg 0 y hy
  have is := hx.segments _ _ y ht0 hy
  have hfs : c.formatSize < 2 ^ 32 := by
    have e1 := formatBytes_length c 0
    rw [← is.formats] at e1
    obtain ⟨A, C, e2, -⟩ := split_of_load h6
    have := congrArg List.length e2
    rw [List.length_append, List.length_append] at this
    have := h.compressed.small
    omega
  have f1 := v.field 1 c.formatSize hfs (by rw [← hx.numVariable]; rfl)
  have hmap : x.segments.map (·.start) ++ [0xFFFFFFFF#32] = startWords c := by
    unfold startWords
    congr 1
    apply List.ext_getElem?
    intro i
    rw [List.getElem?_map, List.getElem?_map]
    cases hc : c.segments[i]? with
    | none =>
      have : x.segments[i]? = none := by rw [List.getElem?_eq_none_iff, hx.length]; exact List.getElem?_eq_none_iff.1 hc
      rw [this]; rfl
    | some t =>
      have hlt : i < x.segments.length := by rw [hx.length]; exact (List.getElem?_eq_some_iff.1 hc).1
      rw [List.getElem?_eq_getElem hlt, Option.map_some, Option.map_some, (hx.segments i t _ hc (List.getElem?_eq_getElem hlt)).start]
  have inside : ∀ q ∈ C32.sections x headers types constants ranges segs, q.start + q.size + 15 ≤ m.length := fun q hq => by
    rw [← hsz]; exact (hin q hq).2.2
  unfold C32.sections at hpw inside
  have hfirst : (⟨fmt, y.formats.length, 1⟩ : C32.Sect) ∈ (List.zip x.segments segs).flatMap fun p => C32.segmentSections p.1 p.2 := by
    rw [List.mem_flatMap]
    refine ⟨(y, (fmt, rng, anim)), ?_, by simp [C32.segmentSections]⟩
    rw [List.mem_iff_getElem?]
    refine ⟨0, ?_⟩
    rw [List.getElem?_zip_eq_some]
    refine ⟨hy, ?_⟩
    rw [← hsd 0 (by rw [hx.length]; exact hpos)]; exact h2
  obtain ⟨q1, -, q2⟩ := List.pairwise_append.1 hpw
  have q3 := q2 ⟨ranges, x.clipRanges.length, 4⟩ (by simp) _ hfirst
  have q4 : constants + x.constants.length ≤ ranges := by
    simp only [List.pairwise_cons, List.mem_cons, List.not_mem_nil, or_false, forall_eq_or_imp, forall_eq] at q1
    exact q1.2.2.2.1
  have i1 := inside ⟨ranges, x.clipRanges.length, 4⟩ (by simp)
  have i2 := inside ⟨types, 4 * x.types.length, 4⟩ (by simp)
  have i3 := inside ⟨Clip.startIndicesAt, if x.segments.length > 1 then 4 * (x.segments.length + 1) else 0, 4⟩ (by simp)
  have hsi : Clip.startIndicesAt = 84 := rfl
  dsimp only at q3 i1 i2 i3
  rw [hx.clipRanges] at q3 i1
  rw [hx.types] at i2
  rw [hx.constants] at q4
  rw [hx.length, hsi] at i3
  refine ⟨headers, types, constants, ranges, {
    headersAtIs := hh
    typesAtIs := hty
    constantsAtIs := hco
    rangesAtIs := hra
    starts := fun h1 => ?_
    startsIn := by omega
    types := ?_
    typesIn := by unfold typeWords; omega
    constants := by have := at_of_load lco; rw [hx.constants] at this; exact this
    constantsIn := q4
    ranges := by have := at_of_load lra; rw [hx.clipRanges] at this; exact this
    rangesIn := by omega
    first := fun a b d hd => by rw [h2] at hd; cases hd; exact q3
    segments := f0
    numVariable := f1
    counts := fun kind => ?_ }⟩
  · have := hst (by rw [hx.length]; exact h1)
    rw [hmap, hx.length, ← startWords_length] at this
    exact at_of_load this
  · have e1 : (x.types.flatMap bytesLE).length = 4 * x.types.length := flatMap_const_length _ 4 _ fun w _ => bytesLE_length w
    rw [← e1] at lty
    have := at_of_load lty
    rwa [hx.types] at this
  · cases kind
    · exact ⟨v.field 2 _ (hcnt _) (by unfold Clip.headerWords; rw [hx.counts]; rfl), v.field 5 _ (hcnt2 _) (by unfold Clip.headerWords; rw [hx.counts]; rfl)⟩
    · exact ⟨v.field 3 _ (hcnt _) (by unfold Clip.headerWords; rw [hx.counts]; rfl), v.field 6 _ (hcnt2 _) (by unfold Clip.headerWords; rw [hx.counts]; rfl)⟩
    · exact ⟨v.field 4 _ (hcnt _) (by unfold Clip.headerWords; rw [hx.counts]; rfl), v.field 7 _ (hcnt2 _) (by unfold Clip.headerWords; rw [hx.counts]; rfl)⟩

end Acl.Rewrite
