import Verif.Database.RewriteDecode
import Verif.Transform.ClipContext
/-
The context `seek` opens on a clip build_database has rewritten: the key frames are in the clip or in the bulk data of a tier.
/repo/includes/acl/decompression/impl/decompression.transform.h:262-565
-/
namespace Acl.Rewrite
open Acl.Headers Acl.Tiers Acl.Chunks Acl.Transform Acl.Meta Acl.Segmenting

variable {E : Type} {c : ClipSource} {f : ClipFlags} {m : List (BitVec 8)} {high : List (Frame E)} {k cho : Nat}

theorem startWords_toNat (hc : ClipOk c) : (startWords c).map BitVec.toNat = segmentStartIndices (c.segments.map (·.numSamples)) := by
  have hn := segments_le hc
  have hN := hc.numSamples
  unfold startWords
  rw [List.map_append, List.map_map]
  unfold segmentStartIndices
  rw [← hc.starts]
  congr 1
  apply List.map_congr_left
  intro t ht
  obtain ⟨i, hi⟩ := List.mem_iff_getElem?.1 ht
  have hlt := (List.getElem?_eq_some_iff.1 hi).1
  have e1 : (c.segments.map (·.start))[i]? = some t.start := by rw [List.getElem?_map, hi]; rfl
  rw [hc.starts] at e1
  obtain ⟨h3, h4⟩ := List.getElem?_eq_some_iff.1 e1
  rw [clipSampleOffsets_get] at h4
  have h5 := prefixSum_mono (c.segments.map (·.numSamples)) (show i ≤ (c.segments.map (·.numSamples)).length by rw [List.length_map]; omega)
  rw [prefixSum_all] at h5
  have h6 : (c.segments.map (·.numSamples)).sum = c.numSamples := rfl
  simp only [Function.comp, BitVec.toNat_ofNat]
  unfold prefixSum at h4 h5
  rw [Nat.mod_eq_of_lt (by omega)]

theorem split_of_at {B : List (BitVec 8)} {p : Nat} (h : At m p B) (hl : p + B.length ≤ m.length) :
    ∃ A C, m = A ++ (B ++ C) ∧ A.length = p := by
  refine ⟨m.take p, m.drop (p + B.length), ?_, by rw [List.length_take]; omega⟩
  apply List.ext_getElem?
  intro i
  by_cases h1 : i < p
  · rw [List.getElem?_append_left (by rw [List.length_take]; omega), List.getElem?_take, if_pos h1]
  · rw [List.getElem?_append_right (by rw [List.length_take]; omega), List.length_take, Nat.min_eq_left (by omega)]
    by_cases h2 : i - p < B.length
    · rw [List.getElem?_append_left h2, List.getElem?_eq_getElem h2]
      have := h (i - p) _ (List.getElem?_eq_getElem h2)
      rwa [show p + (i - p) = i by omega] at this
    · rw [List.getElem?_append_right (by omega), List.getElem?_drop]
      congr 1; omega

theorem readWords_at (ws : List (BitVec 32)) {p : Nat} (h : At m p (ws.flatMap bytesLE)) (hl : p + 4 * ws.length ≤ m.length) : readWords m p ws.length = some ws := by
  have hlen : (ws.flatMap bytesLE).length = 4 * ws.length := flatMap_const_length _ 4 _ fun w _ => bytesLE_length w
  obtain ⟨A, C, e1, e2⟩ := split_of_at h (by omega)
  subst e2
  rw [e1]
  exact readWords_split ws A C

/-- What `seek` reads of a rewritten clip. -/
theorem DbClipIs.seekClip (h : DbClipIs c f high k cho m) (hc : ClipOk c) :
    ∃ starts masks, readSeekClip m = some ⟨c.numSamples, c.segments.length, starts, true, masks, none⟩ ∧
      (c.segments.length ≠ 1 → starts = segmentStartIndices (c.segments.map (·.numSamples))) ∧ masks.length = c.segments.length ∧
      ∀ (g : Nat) w, masks[g]? = some w → IsMask (high.filter (isFrameOf k g)) w ∧ ∃ p, Clip.segmentHeaderAt m g = some p ∧ load32 m (p + 16) = some w := by
  have hn := segments_le hc
  have hN := hc.numSamples
  have hpos := segments_pos hc
  obtain ⟨b, st, md, hb⟩ := h.header
  -- the masks
  have hex : ∀ n, n ≤ c.segments.length → ∃ ws : List (BitVec 32), ws.length = n ∧ ∀ (g : Nat) w, ws[g]? = some w →
      IsMask (high.filter (isFrameOf k g)) w ∧ ∃ p, Clip.segmentHeaderAt m g = some p ∧ load32 m (p + 16) = some w := by
    intro n
    induction n with
    | zero => intro _; exact ⟨[], rfl, fun g w hw => by simp at hw⟩
    | succ n ih =>
      intro hle
      obtain ⟨ws, h1, h2⟩ := ih (by omega)
      obtain ⟨p, d, w, e1, e2, e3, e4, e5, e6, e7, -⟩ := h.each n _ (List.getElem?_eq_getElem (show n < c.segments.length by omega))
      refine ⟨ws ++ [w], by rw [List.length_append, h1]; rfl, fun g v hv => ?_⟩
      by_cases hg : g < ws.length
      · rw [List.getElem?_append_left hg] at hv
        exact h2 g v hv
      · rw [List.getElem?_append_right (by omega)] at hv
        have : g = n := by
          have := (List.getElem?_eq_some_iff.1 hv).1
          simp only [List.length_singleton] at this
          omega
        subst this
        rw [h1, Nat.sub_self, List.getElem?_cons_zero, Option.some.injEq] at hv
        subst hv
        exact ⟨e7, p, e1, e6⟩
  obtain ⟨masks, hl, hm⟩ := hex _ (Nat.le_refl _)
  refine ⟨(if c.segments.length > 1 then startWords c else []).map BitVec.toNat, masks, ?_, ?_, hl, hm⟩
  · have hst : (if c.segments.length > 1 then readWords m Clip.startIndicesAt (c.segments.length + 1) else some []) =
        some (if c.segments.length > 1 then startWords c else []) := by
      by_cases h1 : c.segments.length > 1
      · rw [if_pos h1, if_pos h1]
        have hat := h.starts h1
        have hlen : (startWords c).length = c.segments.length + 1 := by unfold startWords; rw [List.length_append, List.length_map]; rfl
        have hbl : ((startWords c).flatMap bytesLE).length = 4 * (startWords c).length := flatMap_const_length _ 4 _ fun w _ => bytesLE_length w
        rw [← hlen]
        refine readWords_at _ hat ?_
        rw [← hbl]
        refine at_length hat ?_
        intro he
        rw [he] at hbl
        simp only [List.length_nil] at hbl
        omega
      · rw [if_neg h1, if_neg h1]
    have hix : readSampleIndices m c.segments.length 0 = some masks := by
      rw [← hl]
      exact readSampleIndices_eq masks 0 fun j v hv => by rw [Nat.zero_add]; exact (hm j v hv).2
    unfold readSeekClip
    rw [hb, Option.bind_some, h.segments, Option.bind_some, hst, Option.bind_some]
    dsimp only
    have hdb : Clip.hasSampleIndices (newMisc c f b st md) = true := by
      unfold Clip.hasSampleIndices
      rw [(newMisc_read c f b st md).2.2.2.2.1]
      rfl
    rw [hdb, if_pos rfl, hix, Option.bind_some]
    congr 2
    unfold ClipSource.header
    dsimp only
    rw [BitVec.toNat_ofNat, Nat.mod_eq_of_lt (by omega)]
  · intro h1
    rw [if_pos (by omega)]
    exact startWords_toNat hc

/-! ### The key frames -/

/-- decompression.transform.h:320-353, 545-556: where the samples of a key frame are. `medium` and `low` are the bulk data of
the tiers (null when not allocated), `clip` is the animated data of the segment in the clip. -/
def samplesAt (medium low : Option (List (BitVec 8))) (location : Seek.Location) (clip : List (BitVec 8)) : Option (List (BitVec 8)) :=
  match location with
  | .clip => some clip
  | .medium offset => medium.map (·.drop offset)
  | .low offset => low.map (·.drop offset)

/-- decompression.transform.h:520-565: the context after `seek` has chosen the key frames `f0` and `f1` of a clip of a
database. -/
def openDbContext (m : List (BitVec 8)) (medium low : Option (List (BitVec 8))) (f0 f1 : Seek.KeyFrame) (perTrack : Bool) (rounding : Rounding) :
    Option Context :=
  (keyFrameOf m f0).bind fun key0 =>
  (if f0.segment = f1.segment then
      (keyFrameOf m f1).map fun k => { k with fmt := key0.fmt, seg := key0.seg, data := key0.data }
    else keyFrameOf m f1).bind fun key1 =>
  (samplesAt medium low f0.location key0.data).bind fun d0 =>
  (samplesAt medium low f1.location key1.data).bind fun d1 =>
  contextOf m { key0 with data := d0 } { key1 with data := d1 } (f0.segment = f1.segment) perTrack rounding

/-- The samples a key frame of the search names are those of frame `i` of its segment. -/
structure SamplesAre (c : ClipSource) (m : List (BitVec 8)) (medium low : Option (List (BitVec 8))) (kf : Seek.KeyFrame) (i : Nat) : Prop where
  segment : ∃ t, c.segments[kf.segment]? = some t ∧ i < t.numSamples
  samples : ∃ d data, Clip.segmentDataAt m kf.segment = some d ∧ samplesAt medium low kf.location (m.drop d.2.2) = some data ∧
    HasBits data (kf.position * frameWidth c.bones kf.segment) (frameBits c.bones kf.segment i) ∧
    ∃ L, kf.position * frameWidth c.bones kf.segment + frameWidth c.bones kf.segment ≤ 8 * L ∧ L + 15 ≤ data.length
  small : kf.position ≤ i

theorem DbClipIs.keyFrame (h : DbClipIs c f high k cho m) (hc : ClipOk c) (hw : c.stripped = false) {medium low : Option (List (BitVec 8))}
    (kf : Seek.KeyFrame) (i : Nat) (hs : SamplesAre c m medium low kf i) :
    ∃ d bit rot trans data, Clip.segmentDataAt m kf.segment = some d ∧ keyFrameOf m kf = some ⟨d.1, d.2.1, m.drop d.2.2, bit, rot, trans⟩ ∧
      samplesAt medium low kf.location (m.drop d.2.2) = some data ∧ KeyIs c m kf.segment i ⟨d.1, d.2.1, data, bit, rot, trans⟩ := by
  obtain ⟨t, ht, hi⟩ := hs.segment
  obtain ⟨d', data, hd', hdata, hbits, L, hL1, hL2⟩ := hs.samples
  obtain ⟨p, d, w, h1, h2, h3, h4, h5, h6, h7, h8, h9, h10, h11, -⟩ := h.each kf.segment t ht
  rw [h2, Option.some.injEq] at hd'
  subst hd'
  have ok := hc.segments kf.segment t ht
  have hsm := ok.small
  have hpl := hs.small
  have hstored : c.numStored t = t.numSamples := by unfold ClipSource.numStored; rw [hw]; rfl
  rw [hstored] at hsm
  have hmul : frameWidth c.bones kf.segment * (kf.position + 1) ≤ frameWidth c.bones kf.segment * t.numSamples := Nat.mul_le_mul_left _ (by omega)
  rw [Nat.mul_succ] at hmul
  have hw1 : kindWidth c.bones kf.segment .rotation + kindWidth c.bones kf.segment .translation ≤ frameWidth c.bones kf.segment := by
    unfold frameWidth; omega
  have hfw : frameWidth c.bones kf.segment < 2 ^ 32 := by omega
  have hcomm : kf.position * frameWidth c.bones kf.segment = frameWidth c.bones kf.segment * kf.position := Nat.mul_comm _ _
  refine ⟨d, kf.position * frameWidth c.bones kf.segment, kindWidth c.bones kf.segment .rotation, kindWidth c.bones kf.segment .translation, data, h2, ?_,
    hdata, ⟨h8, h10, hbits, ⟨L, hL1, hL2⟩, rfl, rfl, h9, h11⟩⟩
  unfold keyFrameOf
  rw [h2, Option.bind_some, h1, Option.bind_some, h3, Option.bind_some, h4, Option.bind_some, h5, Option.bind_some,
    BitVec.toNat_ofNat, BitVec.toNat_ofNat, BitVec.toNat_ofNat, Nat.mod_eq_of_lt hfw,
    Nat.mod_eq_of_lt (a := kindWidth c.bones kf.segment .rotation) (by omega),
    Nat.mod_eq_of_lt (a := kindWidth c.bones kf.segment .translation) (by omega), Nat.mod_eq_of_lt (by omega)]

theorem DbClipIs.opened (h : DbClipIs c f high k cho m) (hc : ClipOk c) (hw : c.stripped = false) {medium low : Option (List (BitVec 8))}
    (f0 f1 : Seek.KeyFrame) (i0 i1 : Nat) (hs0 : SamplesAre c m medium low f0 i0) (hs1 : SamplesAre c m medium low f1 i1) (perTrack : Bool) (rounding : Rounding) :
    ∃ x, openDbContext m medium low f0 f1 perTrack rounding = some x ∧ Opened c m f0.segment i0 f1.segment i1 perTrack rounding x := by
  obtain ⟨b, st, md, hb⟩ := h.header
  obtain ⟨r1, r2, r3, r4, -⟩ := newMisc_read c f b st md
  obtain ⟨types, hty, lty, lty2⟩ := h.types
  obtain ⟨constants, hco, lco, lco2⟩ := h.constants
  obtain ⟨ranges, hra, lra, lra2⟩ := h.ranges
  have hbl := hc.bones
  obtain ⟨v2, v5⟩ := h.counts .rotation
  obtain ⟨v3, v6⟩ := h.counts .translation
  obtain ⟨v4, -⟩ := h.counts .scale
  dsimp only at v2 v3 v4 v5 v6
  obtain ⟨d0, bit0, rot0, trans0, data0, hd0, hk0, hx0, is0⟩ := h.keyFrame hc hw f0 i0 hs0
  obtain ⟨d1, bit1, rot1, trans1, data1, hd1, hk1, hx1, is1⟩ := h.keyFrame hc hw f1 i1 hs1
  have hkey1 : (if f0.segment = f1.segment then
      (keyFrameOf m f1).map fun k => { k with fmt := d0.1, seg := d0.2.1, data := m.drop d0.2.2 }
    else keyFrameOf m f1) = some ⟨d1.1, d1.2.1, m.drop d1.2.2, bit1, rot1, trans1⟩ := by
    split
    · next heq =>
      rw [heq, hd1] at hd0
      cases hd0
      rw [hk1]; rfl
    · exact hk1
  have hbn : (BitVec.ofNat 32 c.bones.length).toNat = c.bones.length := by rw [BitVec.toNat_ofNat, Nat.mod_eq_of_lt hbl.2]
  refine ⟨{
      clip := m
      types := typeWords c
      numTracks := c.bones.length
      hasScale := c.hasScale
      sampled := true
      rotationFormat := c.rotationFormat
      translationFormat := c.translationFormat
      scaleFormat := c.scaleFormat
      cfg := ⟨31, c.segments.length > 1, f0.segment = f1.segment⟩
      perTrackRounding := perTrack
      rounding := rounding
      constantData := constants
      clipRanges := ranges
      numConstantRotations := c.numConstant .rotation
      numConstantTranslations := c.numConstant .translation
      numAnimatedRotations := c.numAnimated .rotation
      numAnimatedTranslations := c.numAnimated .translation
      numAnimatedScales := c.numAnimated .scale
      key0 := ⟨d0.1, d0.2.1, data0, bit0, rot0, trans0⟩
      key1 := ⟨d1.1, d1.2.1, data1, bit1, rot1, trans1⟩ }, ?_, ?_⟩
  · unfold openDbContext
    rw [hk0, Option.bind_some]
    dsimp only
    rw [hkey1, Option.bind_some]
    dsimp only
    rw [hx0, Option.bind_some, hx1, Option.bind_some]
    unfold contextOf
    rw [hb, Option.bind_some]
    dsimp only
    rw [r1, Option.bind_some, r2, Option.bind_some, r3, Option.bind_some, h.segments, Option.bind_some, v2, Option.bind_some, v3, Option.bind_some,
      v4, Option.bind_some, v5, Option.bind_some, v6, Option.bind_some, hty, Option.bind_some, r4,
      show (c.header f).numTracks.toNat = c.bones.length from hbn, ← typeWords_length, readWords_at _ lty lty2, Option.bind_some, hco, Option.bind_some, hra,
      Option.bind_some]
    rfl
  · refine ⟨rfl, rfl, rfl, rfl, rfl, rfl, rfl, rfl, rfl, rfl, rfl, ?_, ⟨lra, lra2⟩, rfl, rfl, rfl, rfl, rfl, is0, is1, ?_⟩
    · obtain ⟨A, C, e1, e2⟩ := split_of_at lco (by omega)
      refine ⟨A, C, ?_, e2, ?_⟩
      · rw [List.append_assoc]; exact e1
      · have := congrArg List.length e1
        rw [List.length_append, List.length_append] at this
        omega
    · intro heq
      dsimp only
      rw [heq, hd1] at hd0
      cases hd0; rfl

end Acl.Rewrite
