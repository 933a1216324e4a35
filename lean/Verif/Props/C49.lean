import Verif.Transform.ClipPose
import Verif.Props.C18
import Verif.Props.C19
/-!
C49: a transform clip round trips. The samples the compressor has after quantization are those the decompressor interpolates,
for every track, at every time, through the bytes of the buffer.
Specification vocabulary: `Frame`, `Kept`, `sampleOf`, `expected`, `Writer`, `Value`, `Interp` (how two samples are combined),
below and in Transform/Values.lean; `ClipOk` (what the earlier stages of the compressor must have computed) in
Transform/ClipOpenLemmas.lean; `Stream.sample` (the value of a sub-track at a key frame, with its ranges).
-/
namespace Acl.C49
open Acl.Transform Acl.Headers Acl.Seek.Spec

/-- Specification: frame `n` of the clip is sample `i` of segment `g`. -/
def Frame (c : ClipSource) (n g i : Nat) : Prop :=
  ∃ s, c.segments[g]? = some s ∧ i < s.numSamples ∧ n = ((c.segments.take g).map (·.numSamples)).sum + i

/-- Specification: frame `n` of the clip was not stripped. -/
def Kept (c : ClipSource) (n : Nat) : Prop :=
  ∃ g i s, c.segments[g]? = some s ∧ i < s.numSamples ∧ n = ((c.segments.take g).map (·.numSamples)).sum + i ∧
    (c.stripped = true → s.hardKeyframes.getMsbD i = true)

/-- Specification: what a sub-track is at sample `i` of segment `g`. -/
def sampleOf (c : ClipSource) (b : Bone) (kind : Kind) (g i : Nat) : Sample :=
  (b.stream g kind).sample (c.segments.length > 1) i (b.segmentRange g kind) (b.clipRange kind)

/-- Specification: the value of a sub-track between two samples, `none` when it is a default one and defaults are skipped.
`how` says how the two are combined. -/
def expected (c : ClipSource) (w : Writer) (how : Interp) (b : Bone) (kind : Kind) (t : Nat) (s0 s1 : Sample) : Option Value :=
  if (b.flags kind).isDefault || (kind = .scale && !c.hasScale) then
    match w.mode kind with
    | .skipped => none
    | .constant => some .writerConstant
    | .variable => some (.writerVariable t)
    | .legacy => some .headerScale
  else if (b.flags kind).isConstant then
    some (match kind with
      | .rotation => .rotation (C16.asLoaded c.rotationFormat b.rotation)
      | kind => .vector (b.vector kind))
  else some (.animated (s0, s1) how)

/-- Specification: the call of the writer for a value. -/
def call (kind : Kind) (t : Nat) : Option Value → List Event
  | some v => [⟨kind, t, v⟩]
  | none => []

/-- What `decompress_tracks` and `decompress_track` write once `seek` was called, when the two frames it reads are `n0` and
`n1`. -/
structure Reads (c : ClipSource) (x : Context) (w : Writer) (perTrack : Bool) (rounding : Rounding) (n0 n1 : Nat) : Prop where
  /-- the whole pose: every sub-track of every track that the writer does not skip, once, and nothing else -/
  pose : ∃ ev, decompressTracks x w = some ev ∧ (∀ e ∈ ev, e.track < c.bones.length) ∧
    ∀ g0 i0 g1 i1, Frame c n0 g0 i0 → Frame c n1 g1 i1 → ∀ t b kind, c.bones[t]? = some b →
      (ev.filter fun e => e.kind = kind ∧ e.track = t) =
        if w.skipAll kind || w.skipTrack kind t then []
        else call kind t (expected c w (if perTrack then .slot (w.rounding rounding t) else .contextAlpha) b kind t
          (sampleOf c b kind g0 i0) (sampleOf c b kind g1 i1))
  /-- a single track: its rotation, its translation and its scale -/
  single : ∀ g0 i0 g1 i1, Frame c n0 g0 i0 → Frame c n1 g1 i1 → ∀ t b, c.bones[t]? = some b →
    decompressTrack x w t = some ([Kind.rotation, Kind.translation, Kind.scale].flatMap fun kind =>
      call kind t (expected c w (if perTrack then .roundedAlpha (w.rounding rounding t) else .contextAlpha) b kind t
        (sampleOf c b kind g0 i0) (sampleOf c b kind g1 i1)))

/-! ### Proof -/

variable {c : ClipSource} {e : Meta.Extra} {s : Meta.Settings} {src : Meta.Source} {f : ClipFlags} {m : List (BitVec 8)}

theorem sum_take_succ (l : List Nat) (i v : Nat) (h : l[i]? = some v) : (l.take (i + 1)).sum = (l.take i).sum + v := by
  obtain ⟨hlt, rfl⟩ := List.getElem?_eq_some_iff.1 h
  rw [List.take_succ_eq_append_getElem hlt, List.sum_append]
  simp

theorem sum_take_mono (l : List Nat) {i j : Nat} (h : i ≤ j) : (l.take i).sum ≤ (l.take j).sum := by
  obtain ⟨k, rfl⟩ := Nat.exists_eq_add_of_le h
  rw [List.take_add, List.sum_append]
  omega

/-- A frame is a sample of only one segment. -/
theorem frame_unique {n g i g' i' : Nat} (h : Frame c n g i) (h' : Frame c n g' i') : g = g' ∧ i = i' := by
  obtain ⟨s, hs, hi, e⟩ := h
  obtain ⟨s', hs', hi', e'⟩ := h'
  have key : ∀ {a b x y : Nat} {p : SegmentSource}, c.segments[a]? = some p → x < p.numSamples →
      ((c.segments.take a).map (·.numSamples)).sum + x = ((c.segments.take b).map (·.numSamples)).sum + y → ¬ a < b := by
    intro a b x y p hp hx he hlt
    rw [List.map_take, List.map_take] at he
    have h1 := sum_take_succ (c.segments.map (·.numSamples)) a p.numSamples (by rw [List.getElem?_map, hp]; rfl)
    have h2 := sum_take_mono (c.segments.map (·.numSamples)) (show a + 1 ≤ b by omega)
    omega
  have hg : g = g' := by
    have h1 := key hs hi (e.symm.trans e')
    have h2 := key hs' hi' (e'.symm.trans e)
    omega
  subst hg
  exact ⟨rfl, by omega⟩

theorem value_eq (hc : ClipOk c) (g0 i0 g1 i1 : Nat) (w : Writer) (how : Interp) (kind : Kind) (t : Nat) (b : Bone) (hb : c.bones[t]? = some b) :
    C14.valueOf c.hasScale (c.pose g0 i0 g1 i1) w how kind t =
      expected c w how b kind t (sampleOf c b kind g0 i0) (sampleOf c b kind g1 i1) := by
  have hd := hc.default b (List.mem_of_getElem? hb) kind
  have hsam : (c.pose g0 i0 g1 i1).samples kind t = (sampleOf c b kind g0 i0, sampleOf c b kind g1 i1) := by
    unfold ClipSource.pose sampleOf; dsimp only; rw [hb]
  have hvec : ∀ kind, (c.pose g0 i0 g1 i1).vector kind t = b.vector kind := fun kind => by
    unfold ClipSource.pose; dsimp only; rw [hb]
  have hrot : (c.pose g0 i0 g1 i1).rotation t = C16.asLoaded c.rotationFormat b.rotation := by
    unfold ClipSource.pose; dsimp only; rw [hb]
  by_cases hk : kind = .scale ∧ c.hasScale = false
  · have : (c.pose g0 i0 g1 i1).class c.hasScale kind t = .default := by unfold C14.Pose.class; rw [if_pos hk]
    have hcond : ((b.flags kind).isDefault || (decide (kind = .scale) && !c.hasScale)) = true := by rw [hk.1, hk.2]; simp
    unfold C14.valueOf expected
    rw [this, hcond]
    rfl
  · have hk' : kind = .scale → c.hasScale = true := fun h => by
      cases hs : c.hasScale with
      | true => rfl
      | false => exact absurd ⟨h, hs⟩ hk
    have hcl := pose_class g0 i0 g1 i1 kind hk' t b hb
    have hne : (decide (kind = .scale) && !c.hasScale) = false := by
      cases hs : c.hasScale with
      | true => simp
      | false => rw [decide_eq_false (fun h => hk ⟨h, hs⟩)]; rfl
    unfold C14.valueOf expected
    rw [hcl, hne, Bool.or_false, hsam, hrot, hvec]
    cases hf : b.flags kind with
    | mk d k =>
      rw [hf] at hd
      cases d <;> cases k
      · rfl
      · cases kind <;> rfl
      · simp at hd
      · rfl

theorem reads_of (hc : ClipOk c) {x : Context} {g0 i0 g1 i1 n0 n1 : Nat} {perTrack : Bool} {rounding : Rounding}
    (ho : Opened c m g0 i0 g1 i1 perTrack rounding x) (h0 : Frame c n0 g0 i0) (h1 : Frame c n1 g1 i1) (w : Writer)
    (hp : perTrack = true → ∀ t, t < c.bones.length → w.rounding rounding t ≠ .perTrack) : Reads c x w perTrack rounding n0 n1 := by
  obtain ⟨s0, hs0, hi0, e0⟩ := h0
  obtain ⟨s1, hs1, hi1, e1⟩ := h1
  have st := ho.stores hc hs0 hs1 hi0 hi1
  have hpol : C14.PolicyOk x w := by
    intro h1 t ht
    rw [ho.perTrack] at h1
    rw [ho.numTracks] at ht
    rw [ho.rounding]
    exact hp h1 t ht
  obtain ⟨ev, hev, htr, hfil⟩ := C14.C14_each_sub_track_once x _ w ho.sampled st hpol
  rw [ho.numTracks] at htr
  constructor
  · refine ⟨ev, hev, htr, ?_⟩
    intro a0 j0 a1 j1 f0 f1 t b kind hb
    obtain ⟨rfl, rfl⟩ := frame_unique f0 ⟨s0, hs0, hi0, e0⟩
    obtain ⟨rfl, rfl⟩ := frame_unique f1 ⟨s1, hs1, hi1, e1⟩
    rw [hfil kind t (by rw [ho.numTracks]; exact (List.getElem?_eq_some_iff.1 hb).1)]
    unfold C14.trackEvents C14.poseInterp
    rw [ho.hasScale, value_eq hc _ _ _ _ w _ kind t b hb, ho.perTrack, ho.rounding]
    split
    · rfl
    · unfold call; rfl
  · intro a0 j0 a1 j1 f0 f1 t b hb
    obtain ⟨rfl, rfl⟩ := frame_unique f0 ⟨s0, hs0, hi0, e0⟩
    obtain ⟨rfl, rfl⟩ := frame_unique f1 ⟨s1, hs1, hi1, e1⟩
    rw [C15.C15_single_track x _ w ho.sampled st hpol t (by rw [ho.numTracks]; exact (List.getElem?_eq_some_iff.1 hb).1)]
    unfold C15.singleEvents C15.singleInterp
    congr 1
    apply flatMap_congr_mem
    intro kind _
    rw [ho.hasScale, value_eq hc _ _ _ _ w _ kind t b hb, ho.perTrack, ho.rounding]
    unfold call; rfl

theorem map_get {sizes : List Nat} {g z : Nat} (hz : sizes[g]? = some z) (hs : c.segments.map (·.numSamples) = sizes) :
    ∃ t, c.segments[g]? = some t ∧ t.numSamples = z := by
  rw [← hs, List.getElem?_map, Option.map_eq_some_iff] at hz
  exact hz

/-- **The round trip.** Take a legal clip after quantization, the buffer `compress` makes of it, and two frames to
interpolate, with the factor between them. `seek` and the decompression functions succeed on the buffer, and the samples
that are combined are those of the two frames; of the nearest frames that were kept, when key frames were stripped. -/
theorem C49_round_trip (h : Compressed c e s src f m) {α : Type} (remapAlpha : α → Nat → Nat → Nat → α) (wrapping : Bool) (kf0 kf1 : Nat)
    (hkf : KeyFramePair wrapping c.numSamples kf0 kf1) (alpha : α) (perTrack : Bool) (rounding : Rounding) (w : Writer)
    (hp : perTrack = true → ∀ t, t < c.bones.length → w.rounding rounding t ≠ .perTrack) :
    ∃ x n0 n1, seekContext remapAlpha m wrapping kf0 kf1 alpha perTrack rounding =
        some (x, if c.stripped then remapAlpha alpha kf0 n0 n1 else alpha) ∧
      (n0 ≤ kf0 ∧ Kept c n0 ∧ ∀ n, n0 < n → n ≤ kf0 → ¬ Kept c n) ∧
      (kf1 ≤ n1 ∧ Kept c n1 ∧ ∀ n, kf1 ≤ n → n < n1 → ¬ Kept c n) ∧
      Reads c x w perTrack rounding n0 n1 := by
  obtain ⟨starts, hclip, hst⟩ := h.seekClip
  have wf := h.wellFormed hst
  obtain ⟨st, hi, hm, hsz⟩ := h.clip.split
  have hN := h.clip.numSamples
  rw [hsz] at wf
  unfold seekContext
  rw [hclip, Option.bind_some]
  have hoff : ∀ g, start (Acl.Segmenting.segmentSizes c.numSamples st) g = ((c.segments.take g).map (·.numSamples)).sum := fun g => by
    rw [← hsz]; exact offset_eq c g
  cases hs : c.stripped with
  | false =>
    rw [hs] at wf
    simp only [Bool.false_eq_true, if_false] at wf ⊢
    obtain ⟨g0, g1, z0, z1, r0, r1, hz0, hz1, hr0, hr1, e0, e1, hsk⟩ := C18.C18_finds_segments remapAlpha st hi hm _ wf rfl hN wrapping kf0 kf1 hkf alpha
    dsimp only at hz0 hz1 e0 e1
    rw [hoff] at e0 e1
    obtain ⟨t0, ht0, rfl⟩ := map_get hz0 hsz
    obtain ⟨t1, ht1, rfl⟩ := map_get hz1 hsz
    have hkeep : ∀ (t : SegmentSource) (i : Nat), c.keep t i = true := fun t i => by unfold ClipSource.keep; rw [hs]; rfl
    have hall : ∀ (t : SegmentSource) (i : Nat), i = ((List.range i).filter (c.keep t)).length := fun t i => by
      rw [List.filter_eq_self.2 (fun j _ => hkeep t j), List.length_range]
    obtain ⟨x, hx, ho⟩ := h.opened ⟨g0, kf0, .clip, r0⟩ ⟨g1, kf1, .clip, r1⟩ r0 r1 ⟨t0, ht0, hr0, hkeep _ _, hall _ _⟩ ⟨t1, ht1, hr1, hkeep _ _, hall _ _⟩
      perTrack rounding
    rw [hsk, Option.bind_some]
    dsimp only
    rw [hx]
    refine ⟨x, kf0, kf1, rfl, ⟨Nat.le_refl _, ⟨g0, r0, t0, ht0, hr0, e0, by rw [hs]; nofun⟩, fun n h1 h2 => by omega⟩,
      ⟨Nat.le_refl _, ⟨g1, r1, t1, ht1, hr1, e1, by rw [hs]; nofun⟩, fun n h1 h2 => by omega⟩, reads_of h.clip ho ⟨t0, ht0, hr0, e0⟩ ⟨t1, ht1, hr1, e1⟩ w hp⟩
  | true =>
    rw [hs] at wf
    simp only [if_true] at wf ⊢
    obtain ⟨f0, f1, hsk, a1, a2, a3, b1, b2, b3, hpl⟩ := C19.C19_nearest_retained remapAlpha st hi hm _ wf rfl rfl hN wrapping kf0 kf1 hkf alpha
    dsimp only at a1 a2 a3 b1 b2 b3 hpl
    have hret : ∀ n, C19.Retained ⟨c.numSamples, c.segments.length, starts, true, c.segments.map (·.hardKeyframes), none⟩
        (Acl.Segmenting.segmentSizes c.numSamples st) n ↔ Kept c n := by
      intro n
      constructor
      · rintro ⟨g, k, z, v, h1, h2, h3, h4, h5⟩
        obtain ⟨t, ht, rfl⟩ := map_get h1 hsz
        rw [List.getElem?_map, ht, Option.map_some, Option.some.injEq] at h4
        subst h4
        exact ⟨g, k, t, ht, h2, by rw [h3, hoff], fun _ => h5⟩
      · rintro ⟨g, i, t, h1, h2, h3, h4⟩
        refine ⟨g, i, t.numSamples, t.hardKeyframes, ?_, h2, by rw [hoff]; exact h3, ?_, h4 hs⟩
        · rw [← hsz, List.getElem?_map, h1]; rfl
        · rw [List.getElem?_map, h1]; rfl
    have place : ∀ f, f = f0 ∨ f = f1 → ∃ k, StoredAt c f.segment k f.position ∧ Frame c f.clipIndex f.segment k := by
      intro f hf
      obtain ⟨-, k, z, v, h1, h2, h3, h4, h5, h6⟩ := hpl f hf
      obtain ⟨t, ht, rfl⟩ := map_get h1 hsz
      rw [List.getElem?_map, ht, Option.map_some, Option.some.injEq] at h4
      subst h4
      refine ⟨k, ⟨t, ht, h2, ?_, ?_⟩, t, ht, h2, by rw [h3, hoff]⟩
      · unfold ClipSource.keep; rw [hs, h5]; rfl
      · rw [h6, List.countP_eq_length_filter]
        congr 1
        apply List.filter_congr
        intro i _
        unfold ClipSource.keep; rw [hs]; rfl
    obtain ⟨k0, p0, q0⟩ := place f0 (Or.inl rfl)
    obtain ⟨k1, p1, q1⟩ := place f1 (Or.inr rfl)
    obtain ⟨x, hx, ho⟩ := h.opened f0 f1 k0 k1 p0 p1 perTrack rounding
    rw [hsk, Option.bind_some]
    dsimp only
    rw [hx]
    exact ⟨x, f0.clipIndex, f1.clipIndex, rfl, ⟨a1, (hret _).1 a2, fun n h1 h2 h3 => a3 n h1 h2 ((hret n).2 h3)⟩,
      ⟨b1, (hret _).1 b2, fun n h1 h2 h3 => b3 n h1 h2 ((hret n).2 h3)⟩, reads_of h.clip ho q0 q1 w hp⟩

theorem kept_all (h : Compressed c e s src f m) (hs : c.stripped = false) (n : Nat) (hn : n < c.numSamples) : Kept c n := by
  obtain ⟨st, hi, hm, hsz⟩ := h.clip.split
  obtain ⟨starts, hclip, hst⟩ := h.seekClip
  have wf := h.wellFormed hst
  rw [hsz, hs] at wf
  obtain ⟨g0, _, z0, _, r0, _, hz0, -, hr0, -, e0, -⟩ := C18.C18_finds_segments (fun (x : Nat) _ _ _ => x) st hi hm _ wf rfl h.clip.numSamples false n n
    ⟨hn, hn, Or.inl rfl⟩ 0
  dsimp only at hz0 e0
  rw [← hsz, offset_eq] at e0
  obtain ⟨t0, ht0, rfl⟩ := map_get hz0 hsz
  exact ⟨g0, r0, t0, ht0, hr0, e0, by rw [hs]; nofun⟩

/-- Every frame of a clip that was not stripped is kept: the samples are those of the frames asked for. -/
theorem C49_unstripped (h : Compressed c e s src f m) (hs : c.stripped = false) {α : Type} (remapAlpha : α → Nat → Nat → Nat → α) (wrapping : Bool)
    (kf0 kf1 : Nat) (hkf : KeyFramePair wrapping c.numSamples kf0 kf1) (alpha : α) (perTrack : Bool) (rounding : Rounding) (w : Writer)
    (hp : perTrack = true → ∀ t, t < c.bones.length → w.rounding rounding t ≠ .perTrack) :
    ∃ x, seekContext remapAlpha m wrapping kf0 kf1 alpha perTrack rounding = some (x, alpha) ∧ Reads c x w perTrack rounding kf0 kf1 := by
  have all := kept_all h hs
  obtain ⟨x, n0, n1, hx, ⟨a1, -, a2⟩, ⟨b1, -, b2⟩, hr⟩ := C49_round_trip h remapAlpha wrapping kf0 kf1 hkf alpha perTrack rounding w hp
  have e0 : n0 = kf0 := by
    apply Classical.byContradiction
    intro hne
    exact a2 kf0 (by omega) (Nat.le_refl _) (all kf0 hkf.1)
  have e1 : n1 = kf1 := by
    apply Classical.byContradiction
    intro hne
    exact b2 kf1 (Nat.le_refl _) (by omega) (all kf1 hkf.2.1)
  subst e0; subst e1
  rw [hs] at hx
  exact ⟨x, hx, hr⟩

/-- A legal clip is compressed: no assert of the compressor fires and no write is out of bounds. -/
theorem C49_progress (e : Meta.Extra) (s : Meta.Settings) (src : Meta.Source) (f : ClipFlags) (h : ClipOk c) (hv : C29.Valid src) :
    ∃ m, c.compress e s src f = some m := compress_some h hv

/-! ### A clip that meets the hypotheses: two tracks with every class, two segments of three samples, one of them stripped -/

def exMemory (_ : Nat) : List (BitVec 8) := List.replicate 16 0xAA#8
def exQuantized (r : Nat) (_ : Nat) : Stream := ⟨some r, 16, fun i => .quantized r (BitVec.ofNat 32 (i % 3 + 1)) 2#32 1#32, exMemory⟩
def exConst : Stream := ⟨some 0, 16, fun _ => .const16 0x1234#16 0x5678#16 0x9ABC#16, exMemory⟩
def exRaw : Stream := ⟨some 24, 16, fun i => .float3 ⟨BitVec.ofNat 32 i, 0x3F800000#32, 0x40000000#32⟩, exMemory⟩

def exBone0 : Bone where
  flags := fun kind => match kind with | .rotation => ⟨false, false⟩ | .translation => ⟨false, true⟩ | .scale => ⟨true, true⟩
  rotation := ⟨1, 2, 3, 4⟩
  vector := fun _ => ⟨5, 6, 7⟩
  clipRange := fun _ => ⟨⟨1, 2, 3⟩, ⟨4, 5, 6⟩⟩
  segmentRange := fun _ _ => ⟨1, 2, 3, 4, 5, 6⟩
  stream := fun seg _ => if seg = 0 then exQuantized 3 seg else exConst

def exBone1 : Bone where
  flags := fun kind => match kind with | .rotation => ⟨false, true⟩ | .translation => ⟨false, false⟩ | .scale => ⟨false, false⟩
  rotation := ⟨8, 9, 10, 11⟩
  vector := fun _ => ⟨5, 6, 7⟩
  clipRange := fun _ => ⟨⟨7, 8, 9⟩, ⟨10, 11, 12⟩⟩
  segmentRange := fun _ _ => ⟨7, 8, 9, 10, 11, 12⟩
  stream := fun seg kind => if kind = .scale then exQuantized 5 seg else exRaw

def exClip : ClipSource where
  bones := [exBone0, exBone1]
  strippedBones := []
  hasScale := true
  rotationFormat := .dropWVariable
  translationFormat := .varBits
  scaleFormat := .varBits
  stripped := true
  segments := [⟨0, 3, 0xA0000000#32, List.replicate 64 0x55#8⟩, ⟨3, 3, 0xE0000000#32, List.replicate 64 0x55#8⟩]
  garbage := fun _ => ⟨⟨0, 0, 0⟩, ⟨0, 0, 0⟩⟩

theorem exQuantized_ok (r seg i : Nat) (h1 : 2 ≤ r) (h2 : r ≤ 23) : (exQuantized r seg).Ok i := by
  refine ⟨rfl, ?_⟩
  unfold exQuantized
  dsimp only
  rw [if_neg (by omega), if_neg (by omega)]
  have h4 : 2 ^ 2 ≤ 2 ^ r := Nat.pow_le_pow_right (by decide) h1
  refine ⟨h2, _, _, _, rfl, ?_, ?_, ?_⟩
  · rw [BitVec.toNat_ofNat, Nat.mod_eq_of_lt (by omega)]; omega
  · exact Nat.lt_of_lt_of_le (by decide) h4
  · exact Nat.lt_of_lt_of_le (by decide) h4

theorem exConst_ok (i : Nat) : exConst.Ok i := ⟨rfl, by decide, trivial⟩
theorem exRaw_ok (i : Nat) : exRaw.Ok i := ⟨rfl, _, rfl⟩

theorem exEntry {kind : Kind} {b : Bone} (h : b ∈ entries exClip.bones kind) :
    (kind = .rotation ∧ b = exBone0) ∨ (kind = .translation ∧ b = exBone1) ∨ (kind = .scale ∧ b = exBone1) := by
  cases kind with
  | rotation => exact Or.inl ⟨rfl, List.mem_singleton.1 h⟩
  | translation => exact Or.inr (Or.inl ⟨rfl, List.mem_singleton.1 h⟩)
  | scale => exact Or.inr (Or.inr ⟨rfl, List.mem_singleton.1 h⟩)

theorem exStream {kind : Kind} {b : Bone} (h : b ∈ entries exClip.bones kind) (seg : Nat) :
    b.stream seg kind = exQuantized 3 seg ∨ b.stream seg kind = exConst ∨ b.stream seg kind = exRaw ∨ b.stream seg kind = exQuantized 5 seg := by
  rcases exEntry h with ⟨rfl, rfl⟩ | ⟨rfl, rfl⟩ | ⟨rfl, rfl⟩
  · by_cases h0 : seg = 0
    · left; unfold exBone0; dsimp only; rw [if_pos h0]
    · right; left; unfold exBone0; dsimp only; rw [if_neg h0]
  · exact Or.inr (Or.inr (Or.inl rfl))
  · exact Or.inr (Or.inr (Or.inr rfl))

theorem exSegment (seg : Nat) (t : SegmentSource) (ht : exClip.segments[seg]? = some t) : SegmentOk exClip seg t where
  nonempty := by
    obtain ⟨hlt, rfl⟩ := List.getElem?_eq_some_iff.1 ht
    exact (show ∀ i (h : i < 2), 0 < (exClip.segments[i]'h).numSamples by decide) seg hlt
  garbage := by
    obtain ⟨hlt, rfl⟩ := List.getElem?_eq_some_iff.1 ht
    exact (show ∀ i (h : i < 2), (exClip.segments[i]'h).garbage.length = 64 by decide) seg hlt
  frames := fun i _ kind b hb => by
    rcases exStream hb seg with e | e | e | e <;> rw [e]
    · exact exQuantized_ok 3 seg i (by decide) (by decide)
    · exact exConst_ok i
    · exact exRaw_ok i
    · exact exQuantized_ok 5 seg i (by decide) (by decide)
  const := fun kind b hb => by
    rcases exStream hb seg with e | e | e | e <;> rw [e]
    · intro h; cases h
    · exact fun _ => ⟨rfl, _, _, _, rfl⟩
    · intro h; cases h
    · intro h; cases h
  format := fun kind b hb => by
    have : exClip.isVariable kind = true := by cases kind <;> rfl
    rw [this]
    rcases exStream hb seg with e | e | e | e <;> rw [e] <;> rfl
  ranged := fun h => by cases h
  hard := fun _ => by
    obtain ⟨hlt, rfl⟩ := List.getElem?_eq_some_iff.1 ht
    have hb : ∀ i (h : i < 2), (exClip.segments[i]'h).numSamples = 3 ∧ (exClip.segments[i]'h).hardKeyframes.getMsbD 0 = true ∧
      (exClip.segments[i]'h).hardKeyframes.getMsbD 2 = true ∧ ∀ k : Fin 32, 3 ≤ k.val → (exClip.segments[i]'h).hardKeyframes.getMsbD k = false := by decide
    obtain ⟨a, b, d, e⟩ := hb seg hlt
    rw [a]
    refine ⟨by decide, b, d, fun k hk => ?_⟩
    by_cases h32 : k < 32
    · exact e ⟨k, h32⟩ hk
    · exact BitVec.getMsbD_of_ge _ _ (by omega)
  small := by
    obtain ⟨hlt, rfl⟩ := List.getElem?_eq_some_iff.1 ht
    exact (show ∀ i (h : i < 2), frameWidth exClip.bones i * exClip.numStored (exClip.segments[i]'h) + 8 ≤ 2 ^ 32 by decide +kernel) seg hlt

theorem exClip_ok : ClipOk exClip where
  bones := by decide
  scale := fun h => by cases h
  default := fun b hb kind => by
    rcases List.mem_cons.1 hb with rfl | hb
    · cases kind <;> decide
    · rw [List.mem_singleton.1 hb]; cases kind <;> decide
  segments := exSegment
  split := ⟨⟨3, 4⟩, by decide, by decide, by decide⟩
  starts := by decide
  numSamples := by decide

def exFlags : ClipFlags := ⟨true, true, false, 0x41F00000#32⟩

/-- The clip is compressed, and frames 1 and 2 can be asked for; frame 1 was stripped. -/
example : (∃ m, Compressed exClip ⟨false, false⟩ ⟨true, true, true, true, true⟩ C29.exSource exFlags m) ∧
    KeyFramePair false exClip.numSamples 1 2 ∧ ¬ Kept exClip 1 ∧ Kept exClip 0 ∧ Kept exClip 2 := by
  refine ⟨?_, ⟨by decide, by decide, Or.inr (Or.inl rfl)⟩, ?_, ⟨0, 0, _, rfl, by decide, rfl, by decide⟩, ⟨0, 2, _, rfl, by decide, rfl, by decide⟩⟩
  · obtain ⟨m, hm⟩ := C49_progress ⟨false, false⟩ ⟨true, true, true, true, true⟩ C29.exSource exFlags exClip_ok C29.exSource_valid
    refine ⟨m, exClip_ok, C29.exSource_valid, rfl, hm, ?_⟩
    have : ((exClip.compress ⟨false, false⟩ ⟨true, true, true, true, true⟩ C29.exSource exFlags).map fun b => decide (b.length < 2 ^ 32)) = some true := by
      decide +kernel
    rw [hm, Option.map_some, Option.some.injEq] at this
    exact of_decide_eq_true this
  · rintro ⟨g, i, t, ht, hi, hn, hk⟩
    obtain ⟨hlt, rfl⟩ := List.getElem?_eq_some_iff.1 ht
    have key : ∀ g (h : g < 2), ∀ i, i < 3 → (exClip.segments[g]'h).numSamples = 3 ∧
      (1 = ((exClip.segments.take g).map (·.numSamples)).sum + i → (exClip.segments[g]'h).hardKeyframes.getMsbD i = false) := by decide
    have hi3 : i < 3 := by have := (key g hlt 0 (by decide)).1; omega
    rw [(key g hlt i hi3).2 hn] at hk
    exact absurd (hk rfl) (by decide)

/-- What the reader sees of it: the rotation of track 0 between frames 0 and 2. -/
example : ((exClip.compress ⟨false, false⟩ ⟨true, true, true, true, true⟩ C29.exSource exFlags).bind fun m =>
    (seekContext (fun (_ : Nat × Nat × Nat) k n0 n1 => (k, n0, n1)) m false 1 2 (0, 0, 0) false .none).bind fun x =>
    (decompressTrack x.1 ⟨fun _ => .constant, fun _ => false, fun _ _ => false, fun r _ => r⟩ 0).map fun ev => (x.2, ev)) =
  some ((1, 0, 2), [⟨.rotation, 0, .animated (⟨.quantized 3 1 2 1, some ⟨1, 2, 3, 4, 5, 6⟩, some ⟨⟨1, 2, 3⟩, ⟨4, 5, 6⟩⟩⟩,
      ⟨.quantized 3 3 2 1, some ⟨1, 2, 3, 4, 5, 6⟩, some ⟨⟨1, 2, 3⟩, ⟨4, 5, 6⟩⟩⟩) .contextAlpha⟩,
    ⟨.translation, 0, .vector ⟨5, 6, 7⟩⟩, ⟨.scale, 0, .writerConstant⟩]) := by
  decide +kernel

end Acl.C49
