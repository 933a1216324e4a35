import Verif.Database.RewriteRun
/-
What a decompression context finds in a clip build_database has rewritten.
-/
namespace Acl.Rewrite
open Acl.Headers Acl.Tiers Acl.Chunks Acl.Transform Acl.Meta Acl.C22

variable {E : Type} {c : ClipSource} {e : Meta.Extra} {s : Meta.Settings} {src : Meta.Source} {f : ClipFlags} {m : List (BitVec 8)}

/-- The flags and the formats are read back. -/
theorem newMisc_read (c : ClipSource) (f : ClipFlags) (b st md : Bool) :
    rotationFormatOf (getRotationFormat (newMisc c f b st md)) = some c.rotationFormat ∧
    vectorFormatOf (getTranslationFormat (newMisc c f b st md)) = some c.translationFormat ∧
    vectorFormatOf (getScaleFormat (newMisc c f b st md)) = some c.scaleFormat ∧
    getHasScale (newMisc c f b st md) = c.hasScale ∧
    getHasDatabase (newMisc c f b st md) = true ∧
    getHasStrippedKeyframes (newMisc c f b st md) = st ∧
    getHasMetadata (newMisc c f b st md) = md ∧
    getIsWrapOptimized (newMisc c f b st md) = f.wrapOptimized := by
  unfold newMisc ClipSource.misc
  generalize c.hasScale = x1
  generalize f.defaultScaleOne = x2
  generalize f.trivialDefaults = x3
  generalize c.stripped = x4
  generalize f.wrapOptimized = x5
  cases c.rotationFormat <;> cases c.translationFormat <;> cases c.scaleFormat <;> revert x1 x2 x3 x4 x5 b st md <;> decide +kernel

/-- A rewritten clip, as it is read. -/
structure DbClipIs (c : ClipSource) (f : ClipFlags) (high : List (Frame E)) (k cho : Nat) (m : List (BitVec 8)) : Prop where
  header : ∃ b st md, loadTracksHeader m = some { c.header f with misc := newMisc c f b st md }
  size : load32 m 0 = some (BitVec.ofNat 32 m.length)
  hash : load32 m 4 = some (hash32 (m.drop 8))
  segments : Clip.field m 0 = some c.segments.length
  numVariable : Clip.field m 1 = some c.formatSize
  counts : ∀ kind, Clip.field m (match kind with | .rotation => 2 | .translation => 3 | .scale => 4) = some (c.numAnimated kind) ∧
    Clip.field m (match kind with | .rotation => 5 | .translation => 6 | .scale => 7) = some (c.numConstant kind)
  /-- tracks_database_header::clip_header_offset -/
  db : ∃ p, Clip.field m 8 = some p ∧ load32 m (Clip.base + p) = some (BitVec.ofNat 32 cho)
  starts : c.segments.length > 1 → At m Clip.startIndicesAt ((startWords c).flatMap bytesLE)
  types : ∃ p, Clip.typesAt m = some p ∧ At m p ((typeWords c).flatMap bytesLE) ∧ p + 4 * (typeWords c).length ≤ m.length
  constants : ∃ p, Clip.constantsAt m = some p ∧ At m p (constantBytes c) ∧ p + (constantBytes c).length + 15 ≤ m.length
  ranges : ∃ p, Clip.clipRangesAt m = some p ∧ At m p c.clipBytes ∧ p + c.clipBytes.length + 15 ≤ m.length
  /-- for each segment its header with the samples in the clip, its formats, its ranges and the samples -/
  each : ∀ (g : Nat) t, c.segments[g]? = some t → ∃ p d w,
    Clip.segmentHeaderAt m g = some p ∧ Clip.segmentDataAt m g = some d ∧
    load32 m p = some (BitVec.ofNat 32 (frameWidth c.bones g)) ∧
    load32 m (p + 4) = some (BitVec.ofNat 32 (kindWidth c.bones g .rotation)) ∧
    load32 m (p + 8) = some (BitVec.ofNat 32 (kindWidth c.bones g .translation)) ∧
    load32 m (p + 16) = some w ∧ IsMask (high.filter (isFrameOf k g)) w ∧
    At m d.1 (c.formatBytes g) ∧ d.1 + c.formatSize + 15 ≤ m.length ∧
    At m d.2.1 (c.segmentBytes g) ∧ d.2.1 + c.rangeSize + 15 ≤ m.length ∧
    ∃ L, d.2.2 + L + 15 ≤ m.length ∧ ∀ i, w.getMsbD i = true →
      i < t.numSamples ∧
      HasBits (m.drop d.2.2) (((List.range i).countP fun j => w.getMsbD j) * frameWidth c.bones g) (frameBits c.bones g i) ∧
      ((List.range i).countP fun j => w.getMsbD j) * frameWidth c.bones g + frameWidth c.bones g ≤ 8 * L

theorem at_of_at {m : List (BitVec 8)} {p : Nat} {A B C : List (BitVec 8)} (h : At m p (A ++ (B ++ C))) : At m (p + A.length) B := by
  rw [at_append, at_append] at h; exact h.2.1

/-- Bits seen from the start of the data. -/
theorem bufBit_drop (m : List (BitVec 8)) (p i : Nat) : bufBit (m.drop p) i = bufBit m (p * 8 + i) := by
  unfold bufBit
  rw [List.getD_eq_getElem?_getD, List.getD_eq_getElem?_getD, List.getElem?_drop, show (p * 8 + i) / 8 = p + i / 8 by omega,
    show (p * 8 + i) % 8 = i % 8 by omega]

theorem Rewrote.decoded (h : DbInput c e s src f m) {k : Nat} {high : List (Frame E)} (hh : TierFrames c k high) {cho : Nat}
    {m' : List (BitVec 8)} {segs : List (Seg E)} {o : Offsets} {headersAt typesAt constantsAt rangesAt rangesSize : Nat} {b : Bool}
    {se : Meta.Settings} {tracks : List Track} {l : Layout} {start : Nat}
    (r : Rewrote c src f m high k cho m' segs o headersAt typesAt constantsAt rangesAt rangesSize b se tracks l start) (hsmall : m'.length < 2 ^ 32) :
    DbClipIs c f high k cho m' := by
  have hB : Clip.base = 32 := rfl
  have hsi : Clip.startIndicesAt = 84 := rfl
  have w := r.written
  have sec := r.sections
  have hpad := r.padding
  have h4 : startSizeOf c.segments.length % 4 = 0 := by unfold startSizeOf; split <;> omega
  obtain ⟨o1, o2, o3, o4, o5, o6, o7⟩ := offsets_order _ _ _ _ _ h4 o r.offsets
  have a4 := alignUp_le (o.types + 4 * (typeWords c).length) 4 (by omega)
  have a5 := alignUp_le (o.constants + (rangesAt - constantsAt)) 4 (by omega)
  have hge := foldl_ge segs o.segments
  have hrs := r.ranges
  have hcs := sec.constantsIn
  have hpn : ∀ n, n < 2 ^ 32 → (ptrOffsetOf 32 n).toNat = n := fun n hn => by
    unfold ptrOffsetOf; rw [BitVec.toNat_ofNat, Nat.mod_eq_of_lt hn]
  have hfield : ∀ k, k < 8 → Clip.field m' k = Clip.field m k := fun k hk => by
    unfold Clip.field; rw [w.counts k hk]
  have hheader := header_of_at w.header
  have hf9 : Clip.segmentHeadersAt m' = some (Clip.base + o.headers) := by
    unfold Clip.segmentHeadersAt Clip.field
    rw [w.headersWord, Option.map_some, Option.map_some, hpn _ (by omega)]
  have htl : ((typeWords c).flatMap bytesLE).length = 4 * (typeWords c).length := flatMap_const_length _ 4 _ fun w _ => bytesLE_length w
  refine {
    header := ⟨b, _, _, hheader⟩
    size := r.size
    hash := r.hash
    segments := by rw [hfield 0 (by omega)]; exact sec.segments
    numVariable := by rw [hfield 1 (by omega)]; exact sec.numVariable
    counts := fun kind => ?_
    db := ⟨o.db, ?_, w.db⟩
    starts := fun h1 => w.starts _ (sec.starts h1) (by rw [startWords_length]; unfold startSizeOf; rw [if_pos h1])
    types := ⟨Clip.base + o.types, ?_, w.types _ sec.types (by rw [htl]), by omega⟩
    constants := ⟨Clip.base + o.constants, ?_, w.constants _ sec.constants (by omega), by omega⟩
    ranges := ⟨Clip.base + o.ranges, ?_, w.ranges _ sec.ranges hrs, by omega⟩
    each := ?_ }
  · have := sec.counts kind
    cases kind
    · rw [hfield 2 (by omega), hfield 5 (by omega)]; exact this
    · rw [hfield 3 (by omega), hfield 6 (by omega)]; exact this
    · rw [hfield 4 (by omega), hfield 7 (by omega)]; exact this
  · unfold Clip.field
    rw [w.dbWord, Option.map_some, hpn _ (by omega)]
  · unfold Clip.typesAt Clip.field
    rw [w.typesWord, Option.map_some, Option.map_some, hpn _ (by omega)]
  · unfold Clip.constantsAt Clip.field
    rw [w.constantsWord, Option.map_some, Option.map_some, hpn _ (by omega)]
  · unfold Clip.clipRangesAt Clip.field
    rw [w.rangesWord, Option.map_some, Option.map_some, hpn _ (by omega)]
  · intro g t ht
    have hlt : g < segs.length := by rw [r.count]; exact (List.getElem?_eq_some_iff.1 ht).1
    obtain ⟨q, hq⟩ : ∃ q, segs[g]? = some q := ⟨_, List.getElem?_eq_getElem hlt⟩
    have rd := r.each g q t hq ht
    have hw := w.headers g q hq
    obtain ⟨sw, hend⟩ := w.segs g q hq
    have hle := foldl_take_le segs o.segments (g + 1)
    have hoff := foldl_take_le segs o.segments g
    have hoffn : (ptrOffsetOf 32 ((segs.take g).foldl segEnd o.segments)).toNat = (segs.take g).foldl segEnd o.segments := hpn _ (by omega)
    unfold headerBytes at hw
    have l0 := load32_of_words _ hw 0 _ rfl
    have l1 := load32_of_words _ hw 1 _ rfl
    have l2 := load32_of_words _ hw 2 _ rfl
    have l3 := load32_of_words _ hw 3 _ rfl
    have l4 := load32_of_words _ hw 4 _ rfl
    have hha : Clip.segmentHeaderAt m' g = some (Clip.base + o.headers + 20 * g) := by
      unfold Clip.segmentHeaderAt
      rw [hheader, hf9]
      simp only [Option.bind_eq_bind, Option.bind_some]
      unfold Clip.hasSampleIndices
      rw [(newMisc_read c f b _ _).2.2.2.2.1]
      rfl
    have hda : Clip.segmentDataAt m' g = some (Clip.segmentData c.segments.length c.formatSize (Clip.base + (segs.take g).foldl segEnd o.segments)) := by
      unfold Clip.segmentDataAt
      rw [hha]
      simp only [Option.bind_eq_bind, Option.bind_some]
      rw [show Clip.base + o.headers + 20 * g + 12 = Clip.base + o.headers + 20 * g + 4 * 3 from rfl, l3, hfield 0 (by omega), sec.segments,
        hfield 1 (by omega), sec.numVariable]
      simp only [Option.bind_some]
      rw [hoffn]
    have ok := h.compressed.clip.segments g t ht
    have hfl := formatBytes_length c g
    have hrl := segmentBytes_length ok
    have hrz := rangeSize_eq c
    generalize hd : Clip.segmentData c.segments.length c.formatSize (Clip.base + (segs.take g).foldl segEnd o.segments) = d at *
    have e1 : d.1 = Clip.base + (segs.take g).foldl segEnd o.segments := by rw [← hd]; rfl
    have e2 : d.2.1 = alignUp (d.1 + c.formatSize) 2 := by rw [← hd]; rfl
    have e3 : d.2.2 = alignUp (d.2.1 + if c.segments.length > 1 then 6 * c.formatSize else 0) 4 := by
      rw [← hd]; unfold Clip.segmentData; simp only [Nat.one_mul]
    have f2 := alignUp_le (d.1 + c.formatSize) 2 (by omega)
    have f3 := alignUp_le (d.2.1 + if c.segments.length > 1 then 6 * c.formatSize else 0) 4 (by omega)
    rw [← hrz] at e3 f3
    have hmask := rd.mask
    rw [rd.frames] at hmask
    refine ⟨_, d, q.indices, hha, hda, ?_, ?_, ?_, l4, hmask, sw.formats _ rd.formats (by omega), by omega,
      sw.ranges _ rd.ranges (by rw [hrl, hrz]), by omega, (q.frames.length * q.pose.toNat + 7) / 8, by omega, ?_⟩
    · rw [← rd.pose]; exact l0
    · rw [← rd.rotation]; exact l1
    · rw [← rd.translation]; exact l2
    · intro i hi
      obtain ⟨fr, p1, p2⟩ := hmask.position hi
      have hmem : fr ∈ high ∧ fr.tracksIndex = k ∧ fr.segmentIndex = g := by
        obtain ⟨x1, x2⟩ := List.mem_filter.1 (List.mem_of_getElem? p1)
        unfold isFrameOf at x2
        simp only [Bool.and_eq_true, beq_iff_eq] at x2
        exact ⟨x1, x2⟩
      obtain ⟨t', b1, b2, b3⟩ := hh.frames fr hmem.1 hmem.2.1
      rw [hmem.2.2, ht] at b1
      cases b1
      rw [p2] at b2
      have pl := (List.getElem?_eq_some_iff.1 p1).1
      rw [← rd.frames] at p1 pl
      have han := sw.animated _ fr p1
      rw [p2, rd.width] at han
      have hmul : (((List.range i).countP fun j => q.indices.getMsbD j) + 1) * frameWidth c.bones g ≤ q.frames.length * frameWidth c.bones g :=
        Nat.mul_le_mul_right _ pl
      rw [Nat.add_mul, Nat.one_mul] at hmul
      refine ⟨b2, ?_, by rw [rd.width]; omega⟩
      have hb := rd.bits i b2
      intro j x hj
      have hx := hb j x hj
      rw [← hx]
      have hjl : j < frameWidth c.bones g := by
        have := (List.getElem?_eq_some_iff.1 hj).1
        rwa [frameBits_length (ok.frames i b2)] at this
      have := han j hjl
      rw [bufBit_drop, ← Nat.add_assoc]
      exact this

end Acl.Rewrite
