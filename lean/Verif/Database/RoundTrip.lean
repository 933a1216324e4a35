import Verif.Database.RewriteOpen
import Verif.Database.RuntimeState
import Verif.Props.C27
/-
What a decoder reads of a clip of a database, for any history of chunks streamed in and out.
/repo/includes/acl/decompression/impl/decompression.transform.h:262-565
-/
namespace Acl.Runtime
open Acl.Chunks Acl.Context Acl.Transform Acl.Tiers Acl.Rewrite Acl.C23 Acl.Headers Acl.Segmenting Acl.Seek.Spec
variable {E : Type}

/-- decompression.transform.h:262-565: the rest of `seek` on a clip `m` of a database, once the two key frames of the time are
known. `headers` are the runtime headers of the database context, `medium` and `low` its bulk data. The context and the
interpolation alpha. -/
def seekDbContext {α : Type} (remapAlpha : α → Nat → Nat → Nat → α) (m headers : List (BitVec 8)) (medium low : Option (List (BitVec 8)))
    (wrapping : Bool) (kf0 kf1 : Nat) (alpha : α) (perTrack : Bool) (rounding : Transform.Rounding) : Option (Transform.Context × α) :=
  (readSeekClip m).bind fun c =>
  (Clip.field m 8).bind fun p =>
  (load32 m (Clip.base + p)).bind fun clipHeaderOffset =>
  (tierMetadata headers clipHeaderOffset.toNat c.numSegments).bind fun md =>
  (Seek.seekKeyFrames remapAlpha wrapping { c with db := some md } kf0 kf1 alpha).bind fun r =>
  (openDbContext m medium low r.1 r.2.1 perTrack rounding).map fun x => (x, r.2.2)

/-- decompression.transform.h:296-304, 439-454: the metadata of the segments of a clip, each word loaded on its own
(`tier_metadata[t].load(relaxed)`): `headersAt s t` are the runtime headers when the word of tier `t` of segment `s` is loaded.
Another thread can write them meanwhile. The code loads the words of the one or two segments it needs only. -/
def loadMetadata (headersAt : Nat → Nat → List (BitVec 8)) (clipHeader : Nat) : Nat → Option (List Seek.TierMetadata)
  | 0 => some []
  | n + 1 => do
    let rest ← loadMetadata headersAt clipHeader n
    let medium ← load64 (headersAt n 0) (clipHeader + 8 + 16 * n)
    let low ← load64 (headersAt n 1) (clipHeader + 8 + 16 * n + 8)
    pure (rest ++ [⟨medium, low⟩])

/-- `seekDbContext` while another thread writes the runtime headers: the words are loaded at different times. `headersAt v s t` are
the runtime headers when the word of tier `t` of segment `s` is loaded for the first (`v = 0`) or the second (`v = 1`) key frame
(decompression.transform.h:439-454). `medium` and `low` are what is read of the bulk data afterwards. -/
def seekWhile {α : Type} (remapAlpha : α → Nat → Nat → Nat → α) (m : List (BitVec 8)) (headersAt : Nat → Nat → Nat → List (BitVec 8))
    (medium low : Option (List (BitVec 8))) (wrapping : Bool) (kf0 kf1 : Nat) (alpha : α) (perTrack : Bool) (rounding : Transform.Rounding) :
    Option (Transform.Context × α) :=
  (readSeekClip m).bind fun c =>
  (Clip.field m 8).bind fun p =>
  (load32 m (Clip.base + p)).bind fun clipHeaderOffset =>
  (loadMetadata (headersAt 0) clipHeaderOffset.toNat c.numSegments).bind fun md0 =>
  (loadMetadata (headersAt 1) clipHeaderOffset.toNat c.numSegments).bind fun md1 =>
  (Seek.seekLoads remapAlpha wrapping { c with db := some md0 } (some md1) kf0 kf1 alpha).bind fun r =>
  (openDbContext m medium low r.1 r.2.1 perTrack rounding).map fun x => (x, r.2.2)

theorem loadMetadata_const (headers : List (BitVec 8)) (o n : Nat) : loadMetadata (fun _ _ => headers) o n = tierMetadata headers o n := by
  induction n with
  | zero => rfl
  | succ n ih => rw [loadMetadata, tierMetadata, ih]

/-- When nothing is written meanwhile it is `seekDbContext`. -/
theorem seekWhile_const {α : Type} (remapAlpha : α → Nat → Nat → Nat → α) (m headers : List (BitVec 8)) (medium low : Option (List (BitVec 8)))
    (wrapping : Bool) (kf0 kf1 : Nat) (alpha : α) (perTrack : Bool) (rounding : Transform.Rounding) :
    seekWhile remapAlpha m (fun _ _ _ => headers) medium low wrapping kf0 kf1 alpha perTrack rounding =
      seekDbContext remapAlpha m headers medium low wrapping kf0 kf1 alpha perTrack rounding := by
  unfold seekWhile seekDbContext
  simp only [loadMetadata_const]
  congr 1
  funext c
  congr 1
  funext p
  congr 1
  funext o
  cases tierMetadata headers o.toNat c.numSegments with
  | none => rfl
  | some md => rfl

/-- Clip `k` of a database: what build_database was given, `m`, and what it returns, `m'`. `clips` are the clips of the database
as its chunks are built from them, `d` the medium (0) and low (1) tiers and `high` the one which stays in the clips. -/
structure InDb (c : ClipSource) (e : Meta.Extra) (s : Meta.Settings) (src : Meta.Source) (f : ClipFlags) (m : List (BitVec 8)) (k : Nat)
    (d : Tiers E) (high : List (Frame E)) (clips : List DbClip) (m' : List (BitVec 8)) : Prop where
  input : DbInput c e s src f m
  clip : ∃ clip, clips[k]? = some clip ∧ clip.numSegments = c.segments.length ∧
    ∀ (g : Nat) x, g < c.segments.length → Clip.segmentDataAt m g = some x → clip.source g = m.drop x.2.2
  tiers : ∀ t, t < 2 → TierFrames c k (d.frames t)
  /-- the boundaries of the segments stay in the clip -/
  boundary : ∀ (g : Nat) t, c.segments[g]? = some t → ∀ i, (i = 0 ∨ i = t.numSamples - 1) → ∃ fr ∈ high, isFrameOf k g fr ∧ fr.segmentFrameIndex = i
  result : DbClipIs c f high k (runtimeSize (clips.take k)) m'

/-- Specification: sample `i` of segment `g` of clip `k` is in the tier. -/
def InTierAt (tier : List (Frame E)) (k g i : Nat) : Prop := ∃ fr ∈ tier, fr.tracksIndex = k ∧ fr.segmentIndex = g ∧ fr.segmentFrameIndex = i

/-- Specification: the chunk which has segment `g` of clip `k` in tier `t` is loaded. -/
def ChunkLoaded (d : Tiers E) (loaded : Nat → Nat → Bool) (t k g : Nat) : Prop := ∃ i h, d.Has t i k g h ∧ loaded t i = true

/-- Specification: the decoder can use sample `i` of segment `g` of clip `k`: it stayed in the clip, or it is in a chunk which is
loaded. -/
def AvailableAt (d : Tiers E) (high : List (Frame E)) (loaded : Nat → Nat → Bool) (k g i : Nat) : Prop :=
  InTierAt high k g i ∨ ∃ t, t < 2 ∧ InTierAt (d.frames t) k g i ∧ ChunkLoaded d loaded t k g

/-- The bulk data the decoder reads has the bytes of the chunks that are loaded. -/
def MemoryOk (d : Tiers E) (loaded : Nat → Nat → Bool) (t : Nat) (memory : Option (List (BitVec 8))) : Prop :=
  ∀ i, loaded t i = true → ∃ mem, memory = some mem ∧ (d.memory t).length ≤ mem.length ∧
    ∀ ch, (d.bulk t).chunks[i]? = some ch → Agree mem (d.memory t) ch

/-! ### Proof -/

theorem isFrameOf_iff (k g : Nat) (fr : Frame E) : isFrameOf k g fr = true ↔ fr.tracksIndex = k ∧ fr.segmentIndex = g := by
  unfold isFrameOf; simp

theorem mask_iff {tier : List (Frame E)} {k g : Nat} {w : BitVec 32} (h : IsMask (tier.filter (isFrameOf k g)) w) (i : Nat) :
    w.getMsbD i = true ↔ InTierAt tier k g i := by
  by_cases hi : i < 32
  · rw [h.bits i hi]
    constructor
    · rintro ⟨fr, hf, e⟩
      obtain ⟨h1, h2⟩ := List.mem_filter.1 hf
      exact ⟨fr, h1, ((isFrameOf_iff k g fr).1 h2).1, ((isFrameOf_iff k g fr).1 h2).2, e⟩
    · rintro ⟨fr, h1, h2, h3, e⟩
      exact ⟨fr, List.mem_filter.2 ⟨h1, (isFrameOf_iff k g fr).2 ⟨h2, h3⟩⟩, e⟩
  · constructor
    · intro hw; simp [BitVec.getMsbD, hi] at hw
    · rintro ⟨fr, h1, h2, h3, e⟩
      exact absurd (e ▸ h.small fr (List.mem_filter.2 ⟨h1, (isFrameOf_iff k g fr).2 ⟨h2, h3⟩⟩)) hi

theorem loadMetadata_ok (headersAt : Nat → Nat → List (BitVec 8)) (o : Nat) (v : Nat → Nat → BitVec 64) (n : Nat)
    (h : ∀ s, s < n → load64 (headersAt s 0) (o + 8 + 16 * s) = some (v s 0) ∧ load64 (headersAt s 1) (o + 8 + 16 * s + 8) = some (v s 1)) :
    loadMetadata headersAt o n = some ((List.range n).map fun s => ⟨v s 0, v s 1⟩) := by
  induction n with
  | zero => rfl
  | succ n ih =>
    obtain ⟨h1, h2⟩ := h n (by omega)
    rw [loadMetadata, ih (fun s hs => h s (by omega)), h1, h2, List.range_succ, List.map_append]
    rfl

theorem meta_low (h : SegHeader) : (metaOf h).extractLsb' 0 32 = h.sampleIndices.headD 0 := by
  unfold metaOf metadataOf
  rw [BitVec.extractLsb'_append_eq_right]

theorem meta_high (h : SegHeader) (hs : h.samplesOffset < 2 ^ 32) : ((metaOf h).extractLsb' 32 32).toNat = h.samplesOffset := by
  unfold metaOf metadataOf
  rw [BitVec.extractLsb'_append_eq_left, BitVec.toNat_ofNat, Nat.mod_eq_of_lt hs]

theorem countP_range_le (p : Nat → Bool) (i : Nat) : (List.range i).countP p ≤ i := by
  have := List.countP_le_length (p := p) (l := List.range i)
  rwa [List.length_range] at this

section
variable {c : ClipSource} {e : Meta.Extra} {s : Meta.Settings} {src : Meta.Source} {f : ClipFlags} {m m' : List (BitVec 8)} {k : Nat}
  {d : Tiers E} {high : List (Frame E)} {clips : List DbClip}

/-- The bits of a sample in the clip build_database was given. -/
theorem DbInput.segmentBits (h : DbInput c e s src f m) {g : Nat} {t : SegmentSource} (ht : c.segments[g]? = some t) :
    ∃ x, Clip.segmentDataAt m g = some x ∧ (∀ i, i < t.numSamples → HasBits (m.drop x.2.2) (i * frameWidth c.bones g) (frameBits c.bones g i)) ∧
      t.numSamples * frameWidth c.bones g ≤ 8 * (m.drop x.2.2).length := by
  obtain ⟨headersAt, _, _, _, hs⟩ := h.sections
  obtain ⟨r, -, hr⟩ := readSeg_ok (E := Unit) (k := 0) (high := []) h ⟨List.Pairwise.nil, by simp⟩ hs.headersAtIs g t ht
  obtain ⟨L, l1, l2⟩ := hr.room
  refine ⟨_, hr.found, hr.bits, ?_⟩
  rw [List.length_drop, Nat.mul_comm]
  dsimp only
  omega

/-- The samples of a segment in a chunk that is loaded. -/
theorem InDb.tierSamples (hi : InDb c e s src f m k d high clips m') (hd : d.Ok clips) {t : Nat} (ht : t < 2) {loaded : Nat → Nat → Bool}
    {memory : Option (List (BitVec 8))} (hm : MemoryOk d loaded t memory) {j g : Nat} {h : SegHeader} (hh : d.Has t j k g h) (hl : loaded t j = true)
    {i : Nat} (hb : (h.sampleIndices.headD 0).getMsbD i = true) :
    ∃ mem, memory = some mem ∧
      HasBits (mem.drop h.samplesOffset) (((List.range i).countP fun l => (h.sampleIndices.headD 0).getMsbD l) * frameWidth c.bones g) (frameBits c.bones g i) ∧
      ∃ L, ((List.range i).countP fun l => (h.sampleIndices.headD 0).getMsbD l) * frameWidth c.bones g + frameWidth c.bones g ≤ 8 * L ∧
        L + 15 ≤ (mem.drop h.samplesOffset).length := by
  obtain ⟨mem, rfl, hlen, hag⟩ := hm j hl
  have hB := hd t ht
  obtain ⟨hs, hch⟩ := hB.each j k g h hh
  obtain ⟨jj, gg, ch, -, hchunk, -, -⟩ := id hh
  obtain ⟨c1, c2⟩ := hch ch hchunk
  have hag := hag ch hchunk
  obtain ⟨clip, k1, k2, -, k4⟩ := hs.clip
  obtain ⟨fr, hf, he⟩ := hs.mask.position hb
  generalize hpos : ((List.range i).countP fun l => (h.sampleIndices.headD 0).getMsbD l) = n at *
  have hmem := List.mem_of_getElem? hf
  obtain ⟨hmt, hfo⟩ := List.mem_filter.1 hmem
  obtain ⟨e1, e2⟩ := (isFrameOf_iff k g fr).1 hfo
  obtain ⟨sg, hsg, hsi, hw⟩ := (hi.tiers t ht).frames fr hmt e1
  rw [e2] at hsg hw
  rw [he] at hsi
  have hbits := k4 n fr hf
  rw [hw, he] at hbits
  -- the size of the samples
  have hsum : (((framesOf (d.frames t) k g).map (·.frameBitSize)).sum) = (framesOf (d.frames t) k g).length * frameWidth c.bones g := by
    rw [List.map_congr_left (g := fun _ => frameWidth c.bones g), List.map_const', List.sum_replicate_nat]
    intro y hy
    obtain ⟨y1, y2⟩ := List.mem_filter.1 hy
    obtain ⟨y3, y4⟩ := (isFrameOf_iff k g y).1 y2
    obtain ⟨_, _, _, hyw⟩ := (hi.tiers t ht).frames y y1 y3
    rw [hyw, y4]
  have hn : n < (framesOf (d.frames t) k g).length := (List.getElem?_eq_some_iff.1 hf).1
  have hmul : (n + 1) * frameWidth c.bones g ≤ (framesOf (d.frames t) k g).length * frameWidth c.bones g := Nat.mul_le_mul_right _ hn
  rw [Nat.succ_mul] at hmul
  have hby : bytesOf (d.frames t) k g = ((framesOf (d.frames t) k g).length * frameWidth c.bones g + 7) / 8 := by unfold bytesOf; rw [hsum]
  have hroom := hs.room
  obtain ⟨clip', q1, q2, q3⟩ := hi.clip
  rw [k1, Option.some.injEq] at q1
  subst q1
  obtain ⟨x, x1, x2, -⟩ := DbInput.segmentBits hi.input hsg
  have hsrc := x2 i hsi
  rw [← q3 g x (List.getElem?_eq_some_iff.1 hsg).1 x1] at hsrc
  have hfl := frameBits_length ((hi.input.compressed.clip.segments g sg hsg).frames i hsi)
  refine ⟨mem, rfl, ?_, bytesOf (d.frames t) k g, by omega, by rw [List.length_drop]; omega⟩
  intro b v hv
  have hlt : b < frameWidth c.bones g := by rw [← hfl]; exact (List.getElem?_eq_some_iff.1 hv).1
  rw [← hsrc b v hv, ← hbits b hlt, bufBit_drop, ← Nat.add_assoc]
  unfold bufBit
  rw [List.getD_eq_getElem?_getD, List.getD_eq_getElem?_getD, hag _ (by omega) (by omega)]

/-- What the metadata of a segment of the clip says. -/
structure MetaIs (d : Tiers E) (loaded : Nat → Nat → Bool) (k g t : Nat) (v : BitVec 64) : Prop where
  is : (∃ j h, d.Has t j k g h ∧ loaded t j = true ∧ v = metaOf h) ∨ ((∀ j h, d.Has t j k g h → loaded t j = false) ∧ v = 0)

theorem MetaIs.bit (hd : d.Ok clips) {t : Nat} (ht : t < 2) {loaded : Nat → Nat → Bool} {g : Nat} {v : BitVec 64} (hv : MetaIs d loaded k g t v)
    (i : Nat) : (v.extractLsb' 0 32).getMsbD i = true ↔ InTierAt (d.frames t) k g i ∧ ChunkLoaded d loaded t k g := by
  rcases hv.is with ⟨j, h, h1, h2, rfl⟩ | ⟨h1, rfl⟩
  · rw [meta_low]
    have := mask_iff ((hd t ht).each j k g h h1).1.mask i
    rw [this]
    exact ⟨fun hx => ⟨hx, j, h, h1, h2⟩, fun hx => hx.1⟩
  · constructor
    · intro hx; simp [BitVec.getMsbD] at hx
    · rintro ⟨-, j, h, hh, hl⟩
      rw [h1 j h hh] at hl
      exact absurd hl (by simp)

/-- The key frames the decoder reads of clip `k` of the database: `L s t` are the chunks that were in when the metadata of segment `s`
in tier `t` was loaded. -/
theorem InDb.seekFrames (hi : InDb c e s src f m k d high clips m') (hd : d.Ok clips) (hsmall : runtimeSize clips < 2 ^ 32)
    (hbulk : ∀ t, t < 2 → (d.memory t).length < 2 ^ 32) {L : Nat → Nat → Nat → Nat → Bool} {headersAt : Nat → Nat → List (BitVec 8)}
    (hst : ∀ s t, s < c.segments.length → t < 2 → ∃ v, load64 (headersAt s t) (slot clips k s t) = some v ∧ MetaIs d (L s t) k s t v)
    {α : Type} (remapAlpha : α → Nat → Nat → Nat → α) (wrapping : Bool) (kf0 kf1 : Nat)
    (hkf : KeyFramePair wrapping c.numSamples kf0 kf1) (alpha : α) {cl : Seek.Clip} (hcl : readSeekClip m' = some cl) {p : Nat} (hp : Clip.field m' 8 = some p)
    {o : BitVec 32} (ho : load32 m' (Clip.base + p) = some o) :
    ∃ md, loadMetadata headersAt o.toNat cl.numSegments = some md ∧ cl.hasStrippedKeyframes = true ∧ ∃ f0 f1 i0 i1 t0 t1,
      Seek.seekKeyFrames remapAlpha wrapping { cl with db := some md } kf0 kf1 alpha = some (f0, f1, remapAlpha alpha kf0 f0.clipIndex f1.clipIndex) ∧
      c.segments[f0.segment]? = some t0 ∧ i0 < t0.numSamples ∧ f0.clipIndex = ((c.segments.take f0.segment).map (·.numSamples)).sum + i0 ∧
      c.segments[f1.segment]? = some t1 ∧ i1 < t1.numSamples ∧ f1.clipIndex = ((c.segments.take f1.segment).map (·.numSamples)).sum + i1 ∧
      f0.clipIndex ≤ kf0 ∧ AvailableAt d high (fun t => L f0.segment t t) k f0.segment i0 ∧
      (∀ g i t, c.segments[g]? = some t → i < t.numSamples → f0.clipIndex < ((c.segments.take g).map (·.numSamples)).sum + i →
        ((c.segments.take g).map (·.numSamples)).sum + i ≤ kf0 → ¬ AvailableAt d high (fun t => L g t t) k g i) ∧
      kf1 ≤ f1.clipIndex ∧ AvailableAt d high (fun t => L f1.segment t t) k f1.segment i1 ∧
      (∀ g i t, c.segments[g]? = some t → i < t.numSamples → kf1 ≤ ((c.segments.take g).map (·.numSamples)).sum + i →
        ((c.segments.take g).map (·.numSamples)).sum + i < f1.clipIndex → ¬ AvailableAt d high (fun t => L g t t) k g i) ∧
      ∀ (medium low : Option (List (BitVec 8))),
        (∀ g, g < c.segments.length → MemoryOk d (L g 0) 0 medium) → (∀ g, g < c.segments.length → MemoryOk d (L g 1) 1 low) →
        SamplesAre c m' medium low f0 i0 ∧ SamplesAre c m' medium low f1 i1 := by
  rename' cl => clip0, hcl => hcl0, hp => hp0, ho => ho0
  have hc := hi.input.compressed.clip
  obtain ⟨starts, masks, hclip, hstarts, hml, hmasks⟩ := hi.result.seekClip hc
  obtain ⟨clip, k1, k2, k3⟩ := hi.clip
  obtain ⟨p, db1, db2⟩ := hi.result.db
  -- the metadata
  have hv : ∀ s t, ∃ v, s < c.segments.length → t < 2 → load64 (headersAt s t) (slot clips k s t) = some v ∧ MetaIs d (L s t) k s t v := by
    intro s t
    by_cases hx : s < c.segments.length ∧ t < 2
    · obtain ⟨v, hv⟩ := hst s t hx.1 hx.2
      exact ⟨v, fun _ _ => hv⟩
    · exact ⟨0, fun h1 h2 => absurd ⟨h1, h2⟩ hx⟩
  choose v hv using hv
  have hcho : runtimeSize (clips.take k) < 2 ^ 32 := by
    have := C40.size_take_mono clips k clips.length (List.getElem?_eq_some_iff.1 k1).1.le (Nat.le_refl _)
    rw [List.take_length] at this
    omega
  have hmd : loadMetadata headersAt (BitVec.ofNat 32 (runtimeSize (clips.take k))).toNat c.segments.length =
      some ((List.range c.segments.length).map fun s => ⟨v s 0, v s 1⟩) := by
    rw [BitVec.toNat_ofNat, Nat.mod_eq_of_lt hcho]
    exact loadMetadata_ok headersAt _ v _ fun s hs => ⟨(hv s 0 hs (by omega)).1, (hv s 1 hs (by omega)).1⟩
  have hget : ∀ (s : Nat) (x : Seek.TierMetadata), ((List.range c.segments.length).map fun s => (⟨v s 0, v s 1⟩ : Seek.TierMetadata))[s]? = some x →
      s < c.segments.length ∧ x = ⟨v s 0, v s 1⟩ := by
    intro s x hx
    have hlt := (List.getElem?_eq_some_iff.1 hx).1
    rw [List.length_map, List.length_range] at hlt
    rw [List.getElem?_map, List.getElem?_range hlt, Option.map_some, Option.some.injEq] at hx
    exact ⟨hlt, hx.symm⟩
  have hget2 : ∀ (s : Nat), s < c.segments.length →
      ((List.range c.segments.length).map fun s => (⟨v s 0, v s 1⟩ : Seek.TierMetadata))[s]? = some ⟨v s 0, v s 1⟩ := by
    intro s hs
    rw [List.getElem?_map, List.getElem?_range hs, Option.map_some]
  generalize hcl : (⟨c.numSamples, c.segments.length, starts, true, masks, some ((List.range c.segments.length).map fun s => ⟨v s 0, v s 1⟩)⟩ : Seek.Clip) = cl
  -- where the samples are
  have hInClip : ∀ g i, g < c.segments.length → (InClip cl g i ↔ InTierAt high k g i) := by
    intro g i hg
    subst hcl
    unfold InClip
    dsimp only
    constructor
    · rintro ⟨w, hw, hb⟩
      exact (mask_iff (hmasks g w hw).1 i).1 hb
    · intro hb
      refine ⟨masks[g], List.getElem?_eq_getElem (by omega), ?_⟩
      exact (mask_iff (hmasks g _ (List.getElem?_eq_getElem (by omega))).1 i).2 hb
  have hInMedium : ∀ g i, g < c.segments.length → (InMedium cl g i ↔ InTierAt (d.frames 0) k g i ∧ ChunkLoaded d (L g 0) 0 k g) := by
    intro g i hg
    rw [← (hv g 0 hg (by omega)).2.bit hd (by omega) i]
    subst hcl
    constructor
    · rintro ⟨ms, x, h1, h2, h3⟩
      simp only [Option.some.injEq] at h1
      subst h1
      obtain ⟨-, rfl⟩ := hget _ _ h2
      exact h3
    · exact fun h => ⟨_, _, rfl, hget2 g hg, h⟩
  have hInLow : ∀ g i, g < c.segments.length → (InLow cl g i ↔ InTierAt (d.frames 1) k g i ∧ ChunkLoaded d (L g 1) 1 k g) := by
    intro g i hg
    rw [← (hv g 1 hg (by omega)).2.bit hd (by omega) i]
    subst hcl
    constructor
    · rintro ⟨ms, x, h1, h2, h3⟩
      simp only [Option.some.injEq] at h1
      subst h1
      obtain ⟨-, rfl⟩ := hget _ _ h2
      exact h3
    · exact fun h => ⟨_, _, rfl, hget2 g hg, h⟩
  have hav : ∀ g i, g < c.segments.length → (InMemory cl g i ↔ AvailableAt d high (fun t => L g t t) k g i) := by
    intro g i hg
    unfold InMemory AvailableAt
    rw [hInClip g i hg, hInMedium g i hg, hInLow g i hg]
    constructor
    · rintro (h | h | h)
      · exact Or.inl h
      · exact Or.inr ⟨0, by omega, h⟩
      · exact Or.inr ⟨1, by omega, h⟩
    · rintro (h | ⟨t, ht, h⟩)
      · exact Or.inl h
      · obtain rfl | rfl : t = 0 ∨ t = 1 := by omega
        · exact Or.inr (Or.inl h)
        · exact Or.inr (Or.inr h)
  obtain ⟨st, hpos, hmax, hsz⟩ := hc.split
  have wf : WellFormed cl (segmentSizes c.numSamples st) := by
    rw [← hsz]
    have hbnd : ∀ (g size : Nat), (c.segments.map (·.numSamples))[g]? = some size → 0 < size ∧ size ≤ 32 ∧ InClip cl g 0 ∧ InClip cl g (size - 1) := by
      intro g size hg
      rw [List.getElem?_map, Option.map_eq_some_iff] at hg
      obtain ⟨t, ht, rfl⟩ := hg
      have hlt := (List.getElem?_eq_some_iff.1 ht).1
      refine ⟨(hc.segments g t ht).nonempty, hi.input.short t (List.mem_of_getElem? ht), (hInClip g _ hlt).2 ?_, (hInClip g _ hlt).2 ?_⟩
      · obtain ⟨fr, h1, h2, h3⟩ := hi.boundary g t ht 0 (Or.inl rfl)
        exact ⟨fr, h1, ((isFrameOf_iff k g fr).1 h2).1, ((isFrameOf_iff k g fr).1 h2).2, h3⟩
      · obtain ⟨fr, h1, h2, h3⟩ := hi.boundary g t ht _ (Or.inr rfl)
        exact ⟨fr, h1, ((isFrameOf_iff k g fr).1 h2).1, ((isFrameOf_iff k g fr).1 h2).2, h3⟩
    subst hcl
    refine ⟨rfl, by rw [List.length_map], fun hl => hstarts (by rwa [List.length_map] at hl), fun _ => ?_, fun _ => hbnd, ?_⟩
    · rw [List.length_map]; exact hml
    · rintro ms h
      simp only [Option.some.injEq] at h
      subst h
      rw [List.length_map, List.length_map, List.length_range]
  have hN := hc.numSamples
  have eN : cl.numSamples = c.numSamples := by subst hcl; rfl
  have hoff : ∀ g, start (segmentSizes c.numSamples st) g = ((c.segments.take g).map (·.numSamples)).sum := fun g => by
    rw [← hsz]; exact offset_eq c g
  have hseg : ∀ (g size : Nat), (segmentSizes c.numSamples st)[g]? = some size → ∃ t, c.segments[g]? = some t ∧ t.numSamples = size ∧ g < c.segments.length := by
    intro g size hg
    rw [← hsz, List.getElem?_map, Option.map_eq_some_iff] at hg
    obtain ⟨t, ht, rfl⟩ := hg
    exact ⟨t, ht, rfl, (List.getElem?_eq_some_iff.1 ht).1⟩
  have husable : ∀ g i t, c.segments[g]? = some t → i < t.numSamples → AvailableAt d high (fun t => L g t t) k g i →
      Usable cl (segmentSizes c.numSamples st) (((c.segments.take g).map (·.numSamples)).sum + i) := by
    intro g i t ht hit ha
    refine ⟨g, i, t.numSamples, ?_, hit, by rw [hoff], (hav g i (List.getElem?_eq_some_iff.1 ht).1).2 ha⟩
    rw [← hsz, List.getElem?_map, ht]; rfl
  obtain ⟨f0, f1, sk, a1, a2, a3, a4, a5, a6, p0, p1⟩ := C27.C27_nearest_in_memory remapAlpha st hpos hmax cl (by rw [eN]; exact wf)
    (by subst hcl; rfl) (by rw [eN]; exact hN) wrapping kf0 kf1 (by rw [eN]; exact hkf) alpha
  rw [eN] at a2 a3 a5 a6 p0 p1
  -- the samples
  have hsam : ∀ kf, Placed cl (segmentSizes c.numSamples st) kf → ∃ i t, c.segments[kf.segment]? = some t ∧ i < t.numSamples ∧
      kf.clipIndex = ((c.segments.take kf.segment).map (·.numSamples)).sum + i ∧ AvailableAt d high (fun t => L kf.segment t t) k kf.segment i ∧
      ∀ medium low, (∀ g, g < c.segments.length → MemoryOk d (L g 0) 0 medium) → (∀ g, g < c.segments.length → MemoryOk d (L g 1) 1 low) →
        SamplesAre c m' medium low kf i := by
    rintro ⟨g, n, loc, pos⟩ ⟨i, size, h1, h2, h3, h4⟩
    obtain ⟨t, ht, rfl, hlt⟩ := hseg _ _ h1
    dsimp only at h3 ht h4 hlt ⊢
    obtain ⟨q, x, w, -, x2, -, -, -, x6, x7, -, -, -, -, L, hL, hx⟩ := hi.result.each g t ht
    refine ⟨i, t, ht, h2, by rw [h3, hoff], ?_⟩
    cases loc with
    | clip =>
      obtain ⟨b1, -, -, w', b2, b3⟩ := h4
      have hw' : masks[g]? = some w' := by subst hcl; exact b2
      have hb := (mask_iff x7 i).2 ((hInClip g i hlt).1 b1)
      obtain ⟨r2, r3, r4⟩ := hx i hb
      have hww : w' = w := by
        obtain ⟨-, q', y1, y2⟩ := hmasks g w' hw'
        have := (hmasks g w' hw').1
        apply BitVec.eq_of_getMsbD_eq
        intro l hl
        rw [Bool.eq_iff_iff, mask_iff this l, mask_iff x7 l]
      subst hww
      refine ⟨(hav g i hlt).1 (Or.inl b1), fun medium low _ _ => ⟨⟨t, ht, h2⟩, ⟨x, m'.drop x.2.2, x2, rfl, ?_, L, ?_, ?_⟩, ?_⟩⟩
      · rw [b3]; exact r3
      · rw [b3]; exact r4
      · rw [List.length_drop]; omega
      · rw [b3]; exact countP_range_le _ _
    | medium offset =>
      obtain ⟨b1, ms, md, b2, b3, b4, b5⟩ := h4
      subst hcl
      simp only [Option.some.injEq] at b2
      subst b2
      obtain ⟨-, rfl⟩ := hget _ _ b3
      have hva := (hv g 0 hlt (by omega)).2
      have hon := (hInMedium g i hlt).1 b1
      rcases hva.is with ⟨j, h, hh, hl, hveq⟩ | ⟨hno, -⟩
      swap
      · obtain ⟨-, j, h, hh, hl⟩ := hon
        rw [hno j h hh] at hl
        exact absurd hl (by simp)
      dsimp only at b4 b5
      have hsm : h.samplesOffset < 2 ^ 32 := by
        have := ((hd 0 (by omega)).each j k g h hh).1.room
        have := hbulk 0 (by omega)
        omega
      rw [hveq, meta_high h hsm] at b4
      rw [hveq, meta_low] at b5
      have hb : (h.sampleIndices.headD 0).getMsbD i = true := by
        have := (hva.bit hd (by omega) i).2 hon
        rwa [hveq, meta_low] at this
      refine ⟨(hav g i hlt).1 (Or.inr (Or.inl b1)), fun medium low hm0 hm1 => ?_⟩
      obtain ⟨mem, rfl, r1, L', r2, r3⟩ := hi.tierSamples hd (by omega) (hm0 g hlt) hh hl hb
      refine ⟨⟨t, ht, h2⟩, ⟨x, mem.drop h.samplesOffset, x2, ?_, ?_, L', ?_, r3⟩, ?_⟩
      · dsimp only [samplesAt]; rw [b4]; rfl
      · rw [b5]; exact r1
      · rw [b5]; exact r2
      · rw [b5]; exact countP_range_le _ _
    | low offset =>
      obtain ⟨b1, ms, md, b2, b3, b4, b5⟩ := h4
      subst hcl
      simp only [Option.some.injEq] at b2
      subst b2
      obtain ⟨-, rfl⟩ := hget _ _ b3
      have hva := (hv g 1 hlt (by omega)).2
      have hon := (hInLow g i hlt).1 b1
      rcases hva.is with ⟨j, h, hh, hl, hveq⟩ | ⟨hno, -⟩
      swap
      · obtain ⟨-, j, h, hh, hl⟩ := hon
        rw [hno j h hh] at hl
        exact absurd hl (by simp)
      dsimp only at b4 b5
      have hsm : h.samplesOffset < 2 ^ 32 := by
        have := ((hd 1 (by omega)).each j k g h hh).1.room
        have := hbulk 1 (by omega)
        omega
      rw [hveq, meta_high h hsm] at b4
      rw [hveq, meta_low] at b5
      have hb : (h.sampleIndices.headD 0).getMsbD i = true := by
        have := (hva.bit hd (by omega) i).2 hon
        rwa [hveq, meta_low] at this
      refine ⟨(hav g i hlt).1 (Or.inr (Or.inr b1)), fun medium low hm0 hm1 => ?_⟩
      obtain ⟨mem, rfl, r1, L', r2, r3⟩ := hi.tierSamples hd (by omega) (hm1 g hlt) hh hl hb
      refine ⟨⟨t, ht, h2⟩, ⟨x, mem.drop h.samplesOffset, x2, ?_, ?_, L', ?_, r3⟩, ?_⟩
      · dsimp only [samplesAt]; rw [b4]; rfl
      · rw [b5]; exact r1
      · rw [b5]; exact r2
      · rw [b5]; exact countP_range_le _ _
  obtain ⟨i0, t0, c1, c2, c3, c4, c5⟩ := hsam f0 p0
  obtain ⟨i1, t1, d1, d2, d3, d4, d5⟩ := hsam f1 p1
  rw [hclip, Option.some.injEq] at hcl0
  subst hcl0
  rw [db1, Option.some.injEq] at hp0
  subst hp0
  rw [db2, Option.some.injEq] at ho0
  subst ho0
  refine ⟨_, hmd, rfl, f0, f1, i0, i1, t0, t1, ?_, c1, c2, c3, d1, d2, d3, a1, c4, ?_, a4, d4, ?_, fun medium low hm0 hm1 => ⟨c5 medium low hm0 hm1, d5 medium low hm0 hm1⟩⟩
  · dsimp only
    rw [hcl]
    exact sk
  · intro g i t ht hit h1 h2 ha
    exact a3 _ h1 h2 (husable g i t ht hit ha)
  · intro g i t ht hit h1 h2 ha
    exact a6 _ h1 h2 (husable g i t ht hit ha)

/-- What the decoder reads of clip `k` of the database: `L v s t` are the chunks that were in when the metadata of segment `s` in
tier `t` was loaded for the first or the second key frame. -/
theorem InDb.seekAt (hi : InDb c e s src f m k d high clips m') (hd : d.Ok clips) (hsmall : runtimeSize clips < 2 ^ 32)
    (hbulk : ∀ t, t < 2 → (d.memory t).length < 2 ^ 32) {L : Nat → Nat → Nat → Nat → Nat → Bool} {headersAt : Nat → Nat → Nat → List (BitVec 8)}
    (hst : ∀ v s t, v < 2 → s < c.segments.length → t < 2 → ∃ x, load64 (headersAt v s t) (slot clips k s t) = some x ∧ MetaIs d (L v s t) k s t x)
    {α : Type} (remapAlpha : α → Nat → Nat → Nat → α) (wrapping : Bool) (kf0 kf1 : Nat)
    (hkf : KeyFramePair wrapping c.numSamples kf0 kf1) (alpha : α) :
    ∃ v g0 i0 g1 i1 t0 t1 n0 n1, v < 2 ∧
      c.segments[g0]? = some t0 ∧ i0 < t0.numSamples ∧ n0 = ((c.segments.take g0).map (·.numSamples)).sum + i0 ∧
      c.segments[g1]? = some t1 ∧ i1 < t1.numSamples ∧ n1 = ((c.segments.take g1).map (·.numSamples)).sum + i1 ∧
      n0 ≤ kf0 ∧ AvailableAt d high (fun t => L 0 g0 t t) k g0 i0 ∧
      (∀ g i t, c.segments[g]? = some t → i < t.numSamples → n0 < ((c.segments.take g).map (·.numSamples)).sum + i →
        ((c.segments.take g).map (·.numSamples)).sum + i ≤ kf0 → ¬ AvailableAt d high (fun t => L 0 g t t) k g i) ∧
      kf1 ≤ n1 ∧ AvailableAt d high (fun t => L v g1 t t) k g1 i1 ∧
      (∀ g i t, c.segments[g]? = some t → i < t.numSamples → kf1 ≤ ((c.segments.take g).map (·.numSamples)).sum + i →
        ((c.segments.take g).map (·.numSamples)).sum + i < n1 → ¬ AvailableAt d high (fun t => L v g t t) k g i) ∧
      ∀ (perTrack : Bool) (rounding : Transform.Rounding) (medium low : Option (List (BitVec 8))),
        (∀ u g, u < 2 → g < c.segments.length → MemoryOk d (L u g 0) 0 medium) → (∀ u g, u < 2 → g < c.segments.length → MemoryOk d (L u g 1) 1 low) →
        ∃ x, seekWhile remapAlpha m' headersAt medium low wrapping kf0 kf1 alpha perTrack rounding = some (x, remapAlpha alpha kf0 n0 n1) ∧
          Opened c m' g0 i0 g1 i1 perTrack rounding x := by
  have hc := hi.input.compressed.clip
  obtain ⟨starts, masks, hclip, hstarts, hml, hmasks⟩ := hi.result.seekClip hc
  obtain ⟨p, db1, db2⟩ := hi.result.db
  obtain ⟨md0, x1, x2, f0, f1, i0, i1, t0, t1, x3, x4, x5, x6, x7, x8, x9, x10, x11, x12, x13, x14, x15, x16⟩ :=
    hi.seekFrames hd hsmall hbulk (hst 0 · · (by omega)) remapAlpha wrapping kf0 kf1 hkf alpha hclip db1 db2
  obtain ⟨md1, y1, y2, e0, e1, j0, j1, u0, u1, y3, y4, y5, y6, y7, y8, y9, y10, y11, y12, y13, y14, y15, y16⟩ :=
    hi.seekFrames hd hsmall hbulk (hst 1 · · (by omega)) remapAlpha wrapping kf0 kf1 hkf alpha hclip db1 db2
  have hopen : ∀ {r0 r1 a0 a1} {perTrack : Bool} {rounding : Transform.Rounding} {medium low : Option (List (BitVec 8))} ,
      Seek.seekLoads remapAlpha wrapping { (⟨c.numSamples, c.segments.length, starts, true, masks, none⟩ : Seek.Clip) with db := some md0 } (some md1) kf0 kf1 alpha =
        some (r0, r1, remapAlpha alpha kf0 r0.clipIndex r1.clipIndex) → SamplesAre c m' medium low r0 a0 → SamplesAre c m' medium low r1 a1 →
      ∃ x, seekWhile remapAlpha m' headersAt medium low wrapping kf0 kf1 alpha perTrack rounding = some (x, remapAlpha alpha kf0 r0.clipIndex r1.clipIndex) ∧
          Opened c m' r0.segment a0 r1.segment a1 perTrack rounding x := by
    intro r0 r1 a0 a1 perTrack rounding medium low hs h0 h1
    obtain ⟨x, hx, ho⟩ := hi.result.opened hc hi.input.whole r0 r1 a0 a1 h0 h1 perTrack rounding
    refine ⟨x, ?_, ho⟩
    unfold seekWhile
    rw [hclip, Option.bind_some, db1, Option.bind_some, db2, Option.bind_some, x1, Option.bind_some, y1, Option.bind_some, hs, Option.bind_some]
    dsimp only
    rw [hx]; rfl
  by_cases hone : c.segments.length = 1
  · refine ⟨0, f0.segment, i0, f1.segment, i1, t0, t1, f0.clipIndex, f1.clipIndex, by omega, x4, x5, x6, x7, x8, x9, x10, x11, x12, x13, x14, x15, ?_⟩
    intro perTrack rounding medium low hm0 hm1
    obtain ⟨z0, z1⟩ := x16 medium low (fun g => hm0 0 g (by omega)) (fun g => hm1 0 g (by omega))
    exact hopen ((Seek.seekLoads_single _ _ _ _ _ _ _ hone).trans x3) z0 z1
  · refine ⟨1, f0.segment, i0, e1.segment, j1, t0, u1, f0.clipIndex, e1.clipIndex, by omega, x4, x5, x6, y7, y8, y9, x10, x11, x12, y13, y14, y15, ?_⟩
    intro perTrack rounding medium low hm0 hm1
    obtain ⟨z0, -⟩ := x16 medium low (fun g => hm0 0 g (by omega)) (fun g => hm1 0 g (by omega))
    obtain ⟨-, z1⟩ := y16 medium low (fun g => hm0 1 g (by omega)) (fun g => hm1 1 g (by omega))
    exact hopen (Seek.seekLoads_multi _ _ _ _ _ _ _ hone rfl x3 y3) z0 z1

theorem Streamed.word {d : Tiers E} {clips : List DbClip} {loaded : Nat → Nat → Bool} {headers : List (BitVec 8)} (hst : Streamed d clips loaded headers)
    {k : Nat} {clip : DbClip} (hc : clips[k]? = some clip) {s t : Nat} (hs : s < clip.numSegments) (ht : t < 2) :
    ∃ v, load64 headers (slot clips k s t) = some v ∧ MetaIs d loaded k s t v := by
  by_cases hx : ∃ j h, d.Has t j k s h ∧ loaded t j = true
  · obtain ⟨j, h, h1, h2⟩ := hx
    exact ⟨metaOf h, hst.loaded k clip hc s hs t ht j h h1 h2, ⟨Or.inl ⟨j, h, h1, h2, rfl⟩⟩⟩
  · have hn : ∀ j h, d.Has t j k s h → loaded t j = false := fun j h h1 => by
      cases hl : loaded t j with
      | false => rfl
      | true => exact absurd ⟨j, h, h1, hl⟩ hx
    exact ⟨0, hst.out k clip hc s hs t ht hn, ⟨Or.inr ⟨hn, rfl⟩⟩⟩

/-- What the decoder reads of clip `k` of the database when nothing is written meanwhile. -/
theorem InDb.seek (hi : InDb c e s src f m k d high clips m') (hd : d.Ok clips) (hsmall : runtimeSize clips < 2 ^ 32)
    (hbulk : ∀ t, t < 2 → (d.memory t).length < 2 ^ 32) {loaded : Nat → Nat → Bool} {headers : List (BitVec 8)} (hst : Streamed d clips loaded headers)
    {medium low : Option (List (BitVec 8))} (hm0 : MemoryOk d loaded 0 medium) (hm1 : MemoryOk d loaded 1 low)
    {α : Type} (remapAlpha : α → Nat → Nat → Nat → α) (wrapping : Bool) (kf0 kf1 : Nat)
    (hkf : KeyFramePair wrapping c.numSamples kf0 kf1) (alpha : α) (perTrack : Bool) (rounding : Transform.Rounding) :
    ∃ x g0 i0 g1 i1 t0 t1 n0 n1, seekDbContext remapAlpha m' headers medium low wrapping kf0 kf1 alpha perTrack rounding =
        some (x, remapAlpha alpha kf0 n0 n1) ∧ Opened c m' g0 i0 g1 i1 perTrack rounding x ∧
      c.segments[g0]? = some t0 ∧ i0 < t0.numSamples ∧ n0 = ((c.segments.take g0).map (·.numSamples)).sum + i0 ∧
      c.segments[g1]? = some t1 ∧ i1 < t1.numSamples ∧ n1 = ((c.segments.take g1).map (·.numSamples)).sum + i1 ∧
      n0 ≤ kf0 ∧ AvailableAt d high loaded k g0 i0 ∧
      (∀ g i t, c.segments[g]? = some t → i < t.numSamples → n0 < ((c.segments.take g).map (·.numSamples)).sum + i →
        ((c.segments.take g).map (·.numSamples)).sum + i ≤ kf0 → ¬ AvailableAt d high loaded k g i) ∧
      kf1 ≤ n1 ∧ AvailableAt d high loaded k g1 i1 ∧
      (∀ g i t, c.segments[g]? = some t → i < t.numSamples → kf1 ≤ ((c.segments.take g).map (·.numSamples)).sum + i →
        ((c.segments.take g).map (·.numSamples)).sum + i < n1 → ¬ AvailableAt d high loaded k g i) := by
  obtain ⟨clip, k1, k2, k3⟩ := hi.clip
  obtain ⟨-, g0, i0, g1, i1, t0, t1, n0, n1, -, h1, h2, h3, h4, h5, h6, h7, h8, h9, h10, h11, h12, h13⟩ := hi.seekAt hd hsmall hbulk (L := fun _ _ _ => loaded)
    (headersAt := fun _ _ _ => headers) (fun _ s t _ hs ht => hst.word k1 (by omega) ht) remapAlpha wrapping kf0 kf1 hkf alpha
  obtain ⟨x, hx, ho⟩ := h13 perTrack rounding medium low (fun _ _ _ _ => hm0) (fun _ _ _ _ => hm1)
  rw [seekWhile_const] at hx
  exact ⟨x, g0, i0, g1, i1, t0, t1, n0, n1, hx, ho, h1, h2, h3, h4, h5, h6, h7, h8, h9, h10, h11, h12⟩

end

end Acl.Runtime
