import Verif.Memory.Proofs
import Verif.Props.C81
import Verif.Props.C17
/-!
C82: what compressing transform tracks does with the memory of the allocator.
Model: Verif/Memory/{Heap,Compress}.lean. Specification: `Needed`, `AllFull`, `segmentSamples` below and `keptSamples` (Proofs.lean).

The allocator is the contract of iallocator.h: a block is given back with the size it was asked for. `live` are the blocks not given back,
`wrong` the calls that give back something that is not a live block of that size.
-/
namespace Acl.C82
open Acl.Mem Acl.Settings Acl.F32
open Acl.C81 (StrippingOn)

/-- Specification: the error each keyframe contributes is needed: for a database, to strip keyframes, or because it was asked for. -/
def Needed (s : Settings) : Prop := s.enableDatabase = true ∨ StrippingOn s.stripping ∨ s.metadata.contributingError = true

/-- Specification: nothing is quantized. -/
def AllFull (s : Settings) : Prop := s.rotation ≠ .dropWVariable ∧ s.translation = .full ∧ s.scale = .full

/-- Specification: how many samples each segment has room for. A clip that is not split has room for the sample that was dropped too. -/
def segmentSamples (s : Settings) (ch : Choices) (wrap : Bool) (x : Source) : List Nat :=
  if keptSamples s ch wrap x ≤ 31 then [x.numSamples] else Segmenting.segmentSizes (keptSamples s ch wrap x) {}

theorem needs_iff {s : Settings} (hv : s.isValid = none) : needsError s = true ↔ Needed s := by
  have h := (C81.C81_accepted s).mp hv
  have hen : s.stripping.isEnabled = true ↔ StrippingOn s.stripping := by
    simp only [Stripping.isEnabled, Bool.or_eq_true, C81.positive_iff _ h.2.1.1, C81.positive_iff _ h.2.2.1.1, StrippingOn, or_assoc]
  unfold needsError Needed
  rw [← hen]
  split
  · rename_i h1; simp [h1]
  · rename_i h1
    split
    · rename_i h2; simp [h2]
    · rename_i h2; simp [h1, h2]

theorem variable_iff (s : Settings) : anyVariable s = false ↔ AllFull s := by
  unfold anyVariable AllFull
  cases s.rotation <;> cases s.translation <;> cases s.scale <;> decide

theorem compress_eq (sz : Sizes) (ch : Choices) (s : Settings) (w : Bool) (x : Source) (base : Option Source) (hv : s.isValid = none)
    (hn : ¬ (AllFull s ∧ Needed s)) : compress sz ch s w x base = (do
      let raw ← initClip sz x
      if !x.finite then return .notFinite
      let lossy ← initClip sz x
      let baseClip ← initBase sz base
      if (base.map (·.finite)) == some false then return .baseNotFinite
      work sz ch s w x base.isSome raw lossy baseClip) := by
  unfold compress
  rw [hv]
  dsimp only
  have h1 : (!anyVariable s && needsError s) = false := by
    rw [← Bool.not_eq_true]
    intro h
    rw [Bool.and_eq_true, Bool.not_eq_true', variable_iff, needs_iff hv] at h
    exact hn h
  have h2 : (needsError s && decide (32 < (segmenting s).max)) = false := by
    cases hs : needsError s
    · rfl
    · rw [hs, Bool.and_true, Bool.not_eq_false'] at h1
      rw [Bool.true_and, segmenting, h1]
      decide
  rw [h1, h2]
  simp

/-- What is returned: settings that are not valid and contributing errors asked of clips that are not quantized are refused, then samples that
are not finite, of the clip before those of the base; otherwise there is a result. "Cannot have more than 32 samples per segment" is never
returned. -/
theorem C82_results (sz : Sizes) (ch : Choices) (s : Settings) (w : Bool) (x : Source) (base : Option Source) (h : Heap) (ok : h.Ok) :
    (∀ e, s.isValid = some e → (compress sz ch s w x base h).1 = .settings e) ∧
      (s.isValid = none → AllFull s ∧ Needed s → (compress sz ch s w x base h).1 = .rawError) ∧
      (s.isValid = none → ¬ (AllFull s ∧ Needed s) → x.finite = false → (compress sz ch s w x base h).1 = .notFinite) ∧
      (s.isValid = none → ¬ (AllFull s ∧ Needed s) → x.finite = true → (∃ b, base = some b ∧ b.finite = false) →
        (compress sz ch s w x base h).1 = .baseNotFinite) ∧
      (s.isValid = none → ¬ (AllFull s ∧ Needed s) → x.finite = true → (∀ b, base = some b → b.finite = true) →
        ∃ p, (compress sz ch s w x base h).1 = .done p) := by
  refine ⟨fun e he => ?_, fun hv hr => ?_, fun hv hr hf => ?_, fun hv hr hf hb => ?_, fun hv hr hf hb => ?_⟩
  · unfold compress; rw [he]; rfl
  · unfold compress
    rw [hv]
    have : (!anyVariable s && needsError s) = true := by
      rw [Bool.and_eq_true, Bool.not_eq_true', variable_iff, needs_iff hv]; exact hr
    simp only [this, if_true]
    rfl
  · rw [compress_eq sz ch s w x base hv hr, hf]; rfl
  · rw [compress_eq sz ch s w x base hv hr, hf]
    obtain ⟨b, rfl, hb⟩ := hb
    simp only [Option.map_some, hb]
    rfl
  · rw [compress_eq sz ch s w x base hv hr, hf]
    have : (base.map (·.finite) == some false) = false := by
      cases base with
      | none => rfl
      | some b => rw [Option.map_some, hb b rfl]; rfl
    simp only [this]
    exact ⟨_, rfl⟩

/-- Settings that are refused cost nothing: the allocator is as before. -/
theorem C82_refused (sz : Sizes) (ch : Choices) (s : Settings) (w : Bool) (x : Source) (base : Option Source) (h : Heap)
    (hr : s.isValid ≠ none ∨ AllFull s ∧ Needed s) : (compress sz ch s w x base h).2 = h := by
  unfold compress
  cases hv : s.isValid with
  | some e => rfl
  | none =>
    rcases hr with hr | hr
    · exact absurd hv hr
    · have : (!anyVariable s && needsError s) = true := by
        rw [Bool.and_eq_true, Bool.not_eq_true', variable_iff, needs_iff hv]; exact hr
      simp only [this, if_true]
      rfl

/-- The whole of a successful compression, from what the phases own. -/
theorem run (sz : Sizes) (ch : Choices) (s : Settings) (w : Bool) (x : Source) (base : Option Source) (h : Heap) (ok : h.Ok) (p : Nat)
    (hd : (compress sz ch s w x base h).1 = .done p) :
    s.isValid = none ∧ ¬ (AllFull s ∧ Needed s) ∧ ∃ c, Shape c x.numBones (keptSamples s ch w x)
        (splitCounts (segmenting s) (keptSamples s ch w x) x.numSamples) (needsError s && decide (x.numBones ≠ 0) && decide (keptSamples s ch w x ≠ 0)) ∧
      (compress sz ch s w x base h).2.live = (p, ch.outputSize) ::ₘ (c.left sz + h.live) ∧
      (compress sz ch s w x base h).2.wrong = c.bad sz + h.wrong ∧ (compress sz ch s w x base h).2.Ok := by
  have res := C82_results sz ch s w x base h ok
  have hv : s.isValid = none := by
    cases hv : s.isValid with
    | none => rfl
    | some e => rw [res.1 e hv] at hd; cases hd
  have hn : ¬ (AllFull s ∧ Needed s) := by
    intro hn
    rw [res.2.1 hv hn] at hd; cases hd
  have hf : x.finite = true := by
    by_contra hf
    rw [res.2.2.1 hv hn (by simpa using hf)] at hd; cases hd
  have hb : ∀ b, base = some b → b.finite = true := by
    intro b hb
    by_contra hf'
    rw [res.2.2.2.1 hv hn hf ⟨b, hb, by simpa using hf'⟩] at hd; cases hd
  refine ⟨hv, hn, ?_⟩
  have e : (base.map (·.finite) == some false) = false := by
    cases base with
    | none => rfl
    | some b => rw [Option.map_some, hb b rfl]; rfl
  have prog : compress sz ch s w x base = (do
      let raw ← initClip sz x
      let lossy ← initClip sz x
      let baseClip ← initBase sz base
      work sz ch s w x base.isSome raw lossy baseClip) := by
    rw [compress_eq sz ch s w x base hv hn, hf]
    simp only [e]
    rfl
  have own : OwnX 0 (compress sz ch s w x base) (fun r F W => ∃ b c,
      r = .done b ∧ F = (b, ch.outputSize) ::ₘ Clip.left sz c ∧ W = Clip.bad sz c ∧
      Shape c x.numBones (keptSamples s ch w x) (splitCounts (segmenting s) (keptSamples s ch w x) x.numSamples)
        (needsError s && decide (x.numBones ≠ 0) && decide (keptSamples s ch w x ≠ 0))) := by
    rw [prog]
    refine ownX_step 0 (own_initClip sz x) (zero_add _).symm ?_
    rintro raw F ⟨rfl, h1, -, -⟩
    refine ownX_step (raw.foot sz) (own_initClip sz x) (by abel) ?_
    rintro lossy F ⟨rfl, h2, r2, -⟩
    refine ownX_step (raw.foot sz + lossy.foot sz) (own_initBase sz base) (by abel) ?_
    rintro baseClip F ⟨rfl, h3, -⟩
    rw [show baseFoot sz baseClip + (raw.foot sz + lossy.foot sz) = raw.foot sz + lossy.foot sz + baseFoot sz baseClip from add_comm _ _]
    exact own_work sz ch s w x base.isSome raw lossy baseClip h1 h2 r2 h3
  obtain ⟨F, W, ⟨b, c, h1, rfl, rfl, h4⟩, h5, h6, h7⟩ := own h h.live ok (zero_add _).symm
  rw [hd] at h1
  cases h1
  exact ⟨c, h4, by rw [h5, Multiset.cons_add], h6, h7⟩

/-- When the contributing error is not needed (or there is nothing to measure), a successful compression gives back every block it asked for,
with its size, except the result, which is a new block of the size of the compressed tracks. -/
theorem C82_balanced (sz : Sizes) (ch : Choices) (s : Settings) (w : Bool) (x : Source) (base : Option Source) (h : Heap) (ok : h.Ok) (p : Nat)
    (hn : ¬ Needed s ∨ x.numBones = 0 ∨ x.numSamples = 0) (hd : (compress sz ch s w x base h).1 = .done p) :
    (compress sz ch s w x base h).2.live = (p, ch.outputSize) ::ₘ h.live ∧ (compress sz ch s w x base h).2.wrong = h.wrong ∧
      ∀ y ∈ h.live, y.1 ≠ p := by
  obtain ⟨hv, hr, c, hs, hl, hw, hok⟩ := run sz ch s w x base h ok p hd
  have he : (needsError s && decide (x.numBones ≠ 0) && decide (keptSamples s ch w x ≠ 0)) = false := by
    rcases hn with hn | hn | hn
    · rw [← needs_iff hv, Bool.not_eq_true] at hn
      rw [hn]; rfl
    · simp [hn]
    · simp [keptSamples, hn]
  rw [he] at hs
  have h1 : c.left sz = 0 := sum_map_zero fun g hg => (left_none (hs.err g hg)).1
  have h2 : c.bad sz = 0 := sum_map_zero fun g hg => (left_none (hs.err g hg)).2
  rw [h1, zero_add] at hl
  rw [h2, zero_add] at hw
  refine ⟨hl, hw, ?_⟩
  have nd := hok.1
  rw [hl, Multiset.map_cons, Multiset.nodup_cons] at nd
  intro y hy e
  exact nd.1 (Multiset.mem_map.mpr ⟨y, hy, e⟩)

theorem splitCounts_eq {s : Settings} (ha : ¬ AllFull s) (ch : Choices) (w : Bool) (x : Source) :
    splitCounts (segmenting s) (keptSamples s ch w x) x.numSamples = segmentSamples s ch w x := by
  have hv : anyVariable s = true := by
    rw [← Bool.not_eq_false, variable_iff]; exact ha
  unfold splitCounts segmentSamples segmenting Segmenting.segmentSizes
  rw [hv]
  simp only [if_true]
  by_cases hk : keptSamples s ch w x ≤ 31
  · rw [if_pos hk]
    unfold Segmenting.splitSamplesPerSegment
    rw [if_pos hk]
  · rw [if_neg hk]
    cases hsp : Segmenting.splitSamplesPerSegment (keptSamples s ch w x) {} with
    | none =>
      unfold Segmenting.splitSamplesPerSegment at hsp
      rw [if_neg hk] at hsp
      dsimp only at hsp
      split at hsp <;> cases hsp
    | some counts => rfl

/-- Finding: when the contributing error is needed (database support, keyframe stripping, which the default settings ask for, or the
metadata), each segment whose number of samples is not 32 gives its keyframe array back with a size that is not the size it was allocated
with: the array is allocated for 32 keyframes (quantize.transform.h:1564) and given back with num_samples_allocated
(segment_context.h:123). Nothing else is given back wrongly. -/
theorem C82_wrong_size (sz : Sizes) (hk : 0 < sz.keyframe) (ch : Choices) (s : Settings) (w : Bool) (x : Source) (base : Option Source) (h : Heap)
    (ok : h.Ok) (p : Nat) (hn : Needed s) (hb : x.numBones ≠ 0) (hm : x.numSamples ≠ 0) (hd : (compress sz ch s w x base h).1 = .done p) :
    ∃ ps : List Nat, ps.length = ((segmentSamples s ch w x).filter (· ≠ 32)).length ∧
      (compress sz ch s w x base h).2.live = (p, ch.outputSize) ::ₘ (↑(ps.map fun q => (q, sz.keyframe * 32)) + h.live) ∧
      (compress sz ch s w x base h).2.wrong =
        ↑(ps.zip (((segmentSamples s ch w x).filter (· ≠ 32)).map (sz.keyframe * ·))) + h.wrong := by
  obtain ⟨hv, hr, c, hs, hl, hw, hok⟩ := run sz ch s w x base h ok p hd
  have hkept : keptSamples s ch w x ≠ 0 := by
    unfold keptSamples
    split <;> omega
  have he : (needsError s && decide (x.numBones ≠ 0) && decide (keptSamples s ch w x ≠ 0)) = true := by
    rw [(needs_iff hv).mpr hn]; simp [hb, hkept]
  rw [he, splitCounts_eq (fun ha => hr ⟨ha, hn⟩)] at hs
  obtain ⟨ps, h1, h2, h3⟩ := left_list hk c.segments hs.err
  rw [hs.allocs] at h1 h3
  exact ⟨ps, h1, by rw [hl, Clip.left, h2], by rw [hw, Clip.bad, h3]⟩

/-- So unless the clip has exactly 32 samples, every segment does, and there is at least one. -/
theorem C82_every_segment (sz : Sizes) (hk : 0 < sz.keyframe) (ch : Choices) (s : Settings) (w : Bool) (x : Source) (base : Option Source)
    (h : Heap) (ok : h.Ok) (p : Nat) (hn : Needed s) (hb : x.numBones ≠ 0) (hm : x.numSamples ≠ 0) (h32 : x.numSamples ≠ 32)
    (hd : (compress sz ch s w x base h).1 = .done p) :
    (compress sz ch s w x base h).2.wrong.card = h.wrong.card + (Segmenting.segmentSizes (keptSamples s ch w x) {}).length ∧
      1 ≤ (Segmenting.segmentSizes (keptSamples s ch w x) {}).length := by
  obtain ⟨ps, h1, -, h3⟩ := C82_wrong_size sz hk ch s w x base h ok p hn hb hm hd
  have hvd : ({} : Segmenting.Settings).isValid = true := by decide
  have sizes := C17.C17_sizes (keptSamples s ch w x) {} hvd
  have hall : (segmentSamples s ch w x).filter (· ≠ 32) = segmentSamples s ch w x := by
    rw [List.filter_eq_self]
    intro a ha
    unfold segmentSamples at ha
    split at ha
    · simp only [List.mem_singleton] at ha
      simp [ha, h32]
    · have := sizes.2.2.1 a ha
      have : a ≤ 31 := this
      simp only [ne_eq, decide_not, Bool.not_eq_true', decide_eq_false_iff_not]
      omega
  have hlen : (segmentSamples s ch w x).length = (Segmenting.segmentSizes (keptSamples s ch w x) {}).length := by
    unfold segmentSamples
    split
    · rename_i hle
      exact (sizes.2.2.2.mpr hle).symm
    · rfl
  rw [hall] at h1 h3
  refine ⟨?_, ?_⟩
  · rw [h3, Multiset.card_add, Multiset.coe_card, List.length_zip, List.length_map, h1, Nat.min_self, hlen, add_comm]
  · have hkept : keptSamples s ch w x ≠ 0 := by
      unfold keptSamples
      split <;> omega
    rw [← hlen]
    unfold segmentSamples
    split
    · simp
    · rename_i hle
      have := sizes.1
      cases hq : Segmenting.segmentSizes (keptSamples s ch w x) {} with
      | nil => rw [hq] at this; simp at this; omega
      | cons _ _ => simp

/-- How many blocks a clip context is made of. -/
def contextBlocks (x : Source) : Nat := 4 + 3 * x.numBones + if x.numBones = 0 then 0 else 1

/-- Finding: when a sample is not finite the error is returned without giving anything back: 4 blocks, three for each transform and one more
if there is a transform. Likewise when a sample of the additive base is not, for the clip twice and for the base. -/
theorem C82_not_finite_leaks (sz : Sizes) (ch : Choices) (s : Settings) (w : Bool) (x : Source) (base : Option Source) (h : Heap) (ok : h.Ok) :
    ((compress sz ch s w x base h).1 = .notFinite → ∃ L, (compress sz ch s w x base h).2.live = L + h.live ∧ L.card = contextBlocks x ∧
      (compress sz ch s w x base h).2.wrong = h.wrong) ∧
    ((compress sz ch s w x base h).1 = .baseNotFinite → ∃ b L, base = some b ∧ (compress sz ch s w x base h).2.live = L + h.live ∧
      L.card = 2 * contextBlocks x + contextBlocks b ∧ (compress sz ch s w x base h).2.wrong = h.wrong) := by
  have res := C82_results sz ch s w x base h ok
  have pre : (compress sz ch s w x base h).1 = .notFinite ∨ (compress sz ch s w x base h).1 = .baseNotFinite →
      s.isValid = none ∧ ¬ (AllFull s ∧ Needed s) := by
    intro hd
    have hv : s.isValid = none := by
      cases hv : s.isValid with
      | none => rfl
      | some e => rw [res.1 e hv] at hd; rcases hd with hd | hd <;> cases hd
    refine ⟨hv, fun hn => ?_⟩
    rw [res.2.1 hv hn] at hd; rcases hd with hd | hd <;> cases hd
  refine ⟨fun hd => ?_, fun hd => ?_⟩
  · obtain ⟨hv, hn⟩ := pre (Or.inl hd)
    have hf : x.finite = false := by
      by_contra hf
      have hf : x.finite = true := by simpa using hf
      by_cases hb : ∃ b, base = some b ∧ b.finite = false
      · rw [res.2.2.2.1 hv hn hf hb] at hd; cases hd
      · obtain ⟨p, hp⟩ := res.2.2.2.2 hv hn hf fun b hb' => by
          by_contra hc
          exact hb ⟨b, hb', by simpa using hc⟩
        rw [hp] at hd; cases hd
    have own : Own 0 (compress sz ch s w x base) (fun _ F => F.card = contextBlocks x) := by
      rw [compress_eq sz ch s w x base hv hn, hf]
      refine own_bind (own_initClip sz x) ?_
      rintro raw F ⟨-, -, -, h4⟩
      exact own_pure h4
    obtain ⟨F, h1, h2, h3, -⟩ := own h h.live ok (zero_add _).symm
    exact ⟨F, h2, h1, h3⟩
  · obtain ⟨hv, hn⟩ := pre (Or.inr hd)
    have hf : x.finite = true := by
      by_contra hf
      rw [res.2.2.1 hv hn (by simpa using hf)] at hd; cases hd
    have hb : ∃ b, base = some b ∧ b.finite = false := by
      by_contra hb
      obtain ⟨p, hp⟩ := res.2.2.2.2 hv hn hf fun b hb' => by
        by_contra hc
        exact hb ⟨b, hb', by simpa using hc⟩
      rw [hp] at hd; cases hd
    obtain ⟨b, rfl, hbf⟩ := hb
    have own : Own 0 (compress sz ch s w x (some b)) (fun _ F => F.card = 2 * contextBlocks x + contextBlocks b) := by
      rw [compress_eq sz ch s w x (some b) hv hn, hf]
      simp only [Option.map_some, hbf]
      refine own_bind (own_initClip sz x) ?_
      rintro raw F ⟨rfl, -, -, h4⟩
      refine own_step (raw.foot sz) (own_initClip sz x) (zero_add _).symm ?_
      rintro lossy G ⟨rfl, -, -, h5⟩
      refine own_step (lossy.foot sz + raw.foot sz) (own_initBase sz (some b)) (zero_add _).symm ?_
      rintro bc G ⟨rfl, -, h6⟩
      refine own_pure ?_
      rw [Multiset.card_add, Multiset.card_add, h6 b rfl, h4, h5]
      unfold contextBlocks
      omega
    obtain ⟨F, h1, h2, h3, -⟩ := own h h.live ok (zero_add _).symm
    exact ⟨b, F, rfl, h2, h1, h3⟩

/-- Finding: the default settings with every format changed to full precision are refused, since they strip trivial keyframes. -/
theorem C82_default_full (sz : Sizes) (ch : Choices) (metric : BitVec 32) (w : Bool) (x : Source) (base : Option Source) (h : Heap) (ok : h.Ok) :
    (compress sz ch { Settings.default with errorMetric := some metric, rotation := .full, translation := .full, scale := .full } w x base h).1
      = .rawError := by
  refine (C82_results sz ch _ w x base h ok).2.1 ?_ ⟨⟨by simp, rfl, rfl⟩, Or.inr (Or.inl (Or.inr (Or.inr rfl)))⟩
  have := (C81.C81_presets metric).2.2.1
  rw [C81.C81_accepted] at this ⊢
  exact this

/-- The sizes of the types in the example. -/
def sizes : Sizes := ⟨112, 64, 200, 64, 20, 12, 3, 48, 64⟩

def choices : Choices := ⟨false, fun b k => b == 1 && k == .scale, fun _ b k => if b = 1 ∧ k = .scale then none else some (40, 6), true, true, 2, 1000⟩

/-- The hypotheses are met: two transforms with 40 samples, an additive base, an allocator with a live block. With the default settings both
segments give back their array with a wrong size; without stripping nothing is wrong; a clip that is not finite leaves 11 blocks. -/
theorem C82_example :
    let h : Heap := ⟨5, {(4, 77)}, 0⟩
    let x : Source := ⟨2, 40, 1, true⟩
    let s := { Settings.default with errorMetric := some 7 }
    let r := compress sizes choices s false x (some ⟨2, 1, 1, true⟩) h
    let t := compress sizes choices { s with stripping := ⟨0, 0, false⟩ } false x (some ⟨2, 1, 1, true⟩) h
    let u := compress sizes choices s false { x with finite := false } none h
    h.Ok ∧ (∃ p < 1000, r.1 = .done p) ∧ r.2.wrong.map Prod.snd = {20 * 20, 20 * 20} ∧ r.2.live.map Prod.snd = {1000, 77, 20 * 32, 20 * 32} ∧
      (∃ p < 1000, t.1 = .done p) ∧ t.2.wrong = 0 ∧ t.2.live.map Prod.snd = {1000, 77} ∧ u.1 = .notFinite ∧ u.2.live.card = 1 + 11 := by
  refine ⟨⟨by decide, by decide⟩, by decide +kernel, by decide +kernel, by decide +kernel, by decide +kernel, by decide +kernel, by decide +kernel,
    by decide +kernel, by decide +kernel⟩

end Acl.C82
