import Verif.Transform.QuantizeLemmas
import Verif.Props.C49
import Verif.Props.C17
/-
A quantized clip is one the writers accept, and its samples are close to those it was quantized from.
-/
namespace Acl.Transform
open Acl.F32 Acl.Lerp Acl.ScalarPacking Acl.RangeReduction Acl.Segmenting

attribute [local irreducible] maxValue

/-- Specification: the clips the pipeline accepts. -/
structure RawOk (r : RawClip) : Prop where
  bones : 0 < r.bones.length ∧ r.bones.length < 2 ^ 32
  /-- without scale no scale is animated -/
  scale : r.hasScale = false → ∀ b ∈ r.bones, (b.flags .scale).isConstant = true
  /-- a default sub-track is constant -/
  default : ∀ b ∈ r.bones, ∀ kind, (b.flags kind).isDefault = true → (b.flags kind).isConstant = true
  samples : 0 < r.numSamples ∧ r.numSamples < 0xFFFFFFFF
  /-- the segmenting settings are valid and have slack (C18) -/
  settings : r.segmenting.isValid = true ∧ r.segmenting.ideal < r.segmenting.max
  /-- the samples of the animated sub-tracks are finite, and their range does not overflow -/
  finite : ∀ b ∈ r.bones, ∀ kind, (b.flags kind).isConstant = false → ∀ n, n < r.numSamples → ∀ lane,
    Finite32 ((b.sample kind n).xyz.lane lane) ∧ |b.value kind lane n| ≤ 2 ^ 125
  /-- the bit rates of animated sub-tracks exist, in a variable format; constant ones need segment ranges -/
  rate : ∀ b ∈ r.bones, ∀ kind, (b.flags kind).isConstant = false → r.isVariable kind = true → ∀ g, g < r.sizes.length →
    b.bitRate g kind ≤ 24 ∧ (r.sizes.length = 1 → b.bitRate g kind ≠ 0)
  memory : ∀ b ∈ r.bones, ∀ g kind i, (b.memory g kind i).length = 16
  garbage : ∀ g, (r.segmentGarbage g).length = 64
  /-- the key frames that are kept are a set of the samples of the segment, with the first and the last one -/
  hard : r.stripped = true → ∀ (g size : Nat), r.sizes[g]? = some size → size ≤ 32 ∧ (r.hardKeyframes g).getMsbD 0 = true ∧
    (r.hardKeyframes g).getMsbD (size - 1) = true ∧ ∀ k, size ≤ k → (r.hardKeyframes g).getMsbD k = false
  /-- a segment has less than 2^32 bits -/
  small : ∀ size ∈ r.sizes, 384 * r.bones.length * size + 8 ≤ 2 ^ 32

variable {r : RawClip}

theorem RawOk.sizes_facts (h : RawOk r) : r.sizes.sum = r.numSamples ∧ (∀ n ∈ r.sizes, 0 < n) ∧ 0 < r.sizes.length := by
  obtain ⟨h1, h2, -⟩ := C17.C17_sizes r.numSamples r.segmenting h.settings.1
  have hsum : r.sizes.sum = r.numSamples := h1
  refine ⟨hsum, h2 h.samples.1, ?_⟩
  cases hs : r.sizes with
  | nil =>
    rw [hs] at hsum
    have := h.samples.1
    simp at hsum
    omega
  | cons a l => simp

/-! ### One component -/

/-- Sample `i` of segment `g` is a sample of the clip. -/
theorem RawOk.inside (h : RawOk r) {g i : Nat} (hg : g < r.sizes.length) (hi : i < r.sizes.getD g 0) : r.start g + i < r.numSamples := by
  rw [← h.sizes_facts.1]
  have h1 := C49.sum_take_succ r.sizes g (r.sizes.getD g 0) (by rw [List.getD_eq_getElem?_getD, List.getElem?_eq_getElem hg]; rfl)
  have h2 := C49.sum_take_mono r.sizes (show g + 1 ≤ r.sizes.length by omega)
  rw [List.take_length] at h2
  unfold RawClip.start
  omega

theorem RawOk.size_pos (h : RawOk r) {g : Nat} (hg : g < r.sizes.length) : 0 < r.sizes.getD g 0 := by
  rw [List.getD_eq_getElem?_getD, List.getElem?_eq_getElem hg, Option.getD_some]
  exact h.sizes_facts.2.1 _ (List.getElem_mem hg)

/-- The samples of a component over the clip and a segment. -/
def samplesOf (h : RawOk r) (b : RawBone) (hb : b ∈ r.bones) (kind : Kind) (ha : (b.flags kind).isConstant = false) (g : Nat)
    (hg : g < r.sizes.length) (lane : Axis) : C38.Samples where
  clip := (List.range r.numSamples).map (b.value kind lane)
  segment := (List.range (r.sizes.getD g 0)).map fun i => b.value kind lane (r.start g + i)
  floats := by
    intro s hs
    obtain ⟨n, hn, rfl⟩ := List.mem_map.mp hs
    exact isFloat_ofBits (h.finite b hb kind ha n (List.mem_range.mp hn) lane).1
  bounded := by
    intro s hs
    obtain ⟨n, hn, rfl⟩ := List.mem_map.mp hs
    exact (h.finite b hb kind ha n (List.mem_range.mp hn) lane).2
  sub := by
    intro s hs
    obtain ⟨i, hi, rfl⟩ := List.mem_map.mp hs
    exact List.mem_map.mpr ⟨_, List.mem_range.mpr (h.inside hg (List.mem_range.mp hi)), rfl⟩
  nonempty := by
    have := h.size_pos hg
    intro hc
    rw [List.map_eq_nil_iff, List.range_eq_nil] at hc
    omega

section
variable (h : RawOk r) {b : RawBone} (hb : b ∈ r.bones) {kind : Kind} (ha : (b.flags kind).isConstant = false) {g : Nat}
  (hg : g < r.sizes.length) (lane : Axis)

theorem clipRange_samples : C38.clipRange (samplesOf h b hb kind ha g hg lane) = b.clipRangeOf r kind lane := rfl

theorem segRange_samples : C38.segRange (samplesOf h b hb kind ha g hg lane) = b.segmentRangeOf r g kind lane := by
  unfold C38.segRange C39.segmentRange C38.normalizedSegment RawBone.segmentRangeOf
  rw [clipRange_samples]
  unfold samplesOf
  dsimp only
  rw [List.map_map]
  rfl

include h hb ha hg

/-- What is packed is in [0, 1]. -/
theorem clipNormalized_unit {i : Nat} (hi : i < r.sizes.getD g 0) :
    0 ≤ b.clipNormalized r kind lane (r.start g + i) ∧ b.clipNormalized r kind lane (r.start g + i) ≤ 1 := by
  have hN := C38.normalizedSegment_ok (samplesOf h b hb kind ha g hg lane)
  refine (hN.2 (b.clipNormalized r kind lane (r.start g + i)) ?_).2
  exact List.mem_map.mpr ⟨b.value kind lane (r.start g + i), List.mem_map.mpr ⟨i, List.mem_range.mpr hi, rfl⟩, rfl⟩

theorem normalized_unit {i : Nat} (hi : i < r.sizes.getD g 0) :
    0 ≤ b.normalized r g kind lane i ∧ b.normalized r g kind lane i ≤ 1 := by
  unfold RawBone.normalized
  split
  · have hN := C38.normalizedSegment_ok (samplesOf h b hb kind ha g hg lane)
    have := (C39.C39_normalized _ hN (b.clipNormalized r kind lane (r.start g + i))
      (List.mem_map.mpr ⟨b.value kind lane (r.start g + i), List.mem_map.mpr ⟨i, List.mem_range.mpr hi, rfl⟩, rfl⟩)).1
    have e : C39.segmentRange (C38.normalizedSegment (samplesOf h b hb kind ha g hg lane)) = b.segmentRangeOf r g kind lane :=
      segRange_samples h hb ha hg lane
    rwa [e] at this
  · exact clipNormalized_unit h hb ha hg lane hi

end

theorem pack_spec {x : ℚ} {n : Nat} (h0 : 0 ≤ x) (h1 : x ≤ 1) (hn : n ≤ 23) : packUnsigned x n = some (RawBone.pack x n) ∧ RawBone.pack x n < 2 ^ n := by
  obtain ⟨q, hq, hlt⟩ := C07.C07_pack_fits x n h0 h1 hn
  unfold RawBone.pack
  rw [hq]
  exact ⟨rfl, hlt⟩

theorem numBits_small {n : Nat} (h : n ≤ 23) : getNumBitsAtBitRate n = some n := by
  have : ∀ k, k ≤ 23 → getNumBitsAtBitRate k = some k := by decide
  exact this n h

/-! ### The writers accept the quantized clip -/

theorem variableSample_rate {b : RawBone} {g : Nat} {kind : Kind} (i : Nat) (h : b.bitRate g kind ≤ 24) :
    (b.bitRate g kind = 0 → ∃ x y z, b.variableSample r g kind i = .const16 x y z) ∧
    (b.bitRate g kind = 24 → b.variableSample r g kind i = .float3 (b.sample kind (r.start g + i)).xyz) ∧
    (b.bitRate g kind ≠ 0 → b.bitRate g kind ≠ 24 → b.variableSample r g kind i = .quantized (b.bitRate g kind)
      (BitVec.ofNat 32 (RawBone.pack (b.normalized r g kind .x i) (b.bitRate g kind)))
      (BitVec.ofNat 32 (RawBone.pack (b.normalized r g kind .y i) (b.bitRate g kind)))
      (BitVec.ofNat 32 (RawBone.pack (b.normalized r g kind .z i) (b.bitRate g kind)))) := by
  have hk : kHighestBitRate = 24 := by decide
  unfold RawBone.variableSample isConstantBitRate isRawBitRate
  rw [hk]
  refine ⟨fun e => ?_, fun e => ?_, fun e0 e1 => ?_⟩
  · rw [e]; exact ⟨_, _, _, rfl⟩
  · rw [e]; rfl
  · rw [if_neg (by simpa using e0), if_neg (by simpa using e1), numBits_small (by omega)]
    rfl

theorem streamOf_ok (h : RawOk r) {b : RawBone} (hb : b ∈ r.bones) {kind : Kind} (ha : (b.flags kind).isConstant = false) {g : Nat}
    (hg : g < r.sizes.length) {i : Nat} (hi : i < r.sizes.getD g 0) : (b.streamOf r g kind).Ok i := by
  unfold RawBone.streamOf
  split
  · rename_i hv
    obtain ⟨hr, -⟩ := h.rate b hb kind ha hv g hg
    obtain ⟨-, v1, v2⟩ := variableSample_rate (r := r) i hr
    refine ⟨h.memory b hb g kind i, ?_⟩
    dsimp only
    by_cases h24 : b.bitRate g kind = 24
    · rw [if_pos h24]; exact ⟨_, v1 h24⟩
    · rw [if_neg h24]
      refine ⟨by omega, ?_⟩
      by_cases h0 : b.bitRate g kind = 0
      · rw [if_pos h0]; trivial
      · rw [if_neg h0]
        have key : ∀ lane, (BitVec.ofNat 32 (RawBone.pack (b.normalized r g kind lane i) (b.bitRate g kind))).toNat < 2 ^ b.bitRate g kind := by
          intro lane
          obtain ⟨n0, n1⟩ := normalized_unit h hb ha hg lane hi
          have hp := (pack_spec n0 n1 (show b.bitRate g kind ≤ 23 by omega)).2
          rw [BitVec.toNat_ofNat]
          exact lt_of_le_of_lt (Nat.mod_le _ _) hp
        exact ⟨_, _, _, v2 h0 h24, key .x, key .y, key .z⟩
  · refine ⟨h.memory b hb g kind i, ?_⟩
    dsimp only
    unfold RawBone.fixedSample
    by_cases hk : kind = .rotation
    · subst hk
      rw [if_pos rfl]
      by_cases hf : r.rotationFormat = .quatfFull
      · rw [hf, if_pos (by decide), if_pos ⟨rfl, rfl⟩]; exact ⟨_, rfl⟩
      · have : packedRotationSize r.rotationFormat = 12 := by unfold packedRotationSize; rw [if_neg hf]
        rw [this, if_neg (by decide), if_neg (fun hc => hf hc.2)]; exact ⟨rfl, _, rfl⟩
    · rw [if_neg hk, if_neg (by decide), if_neg (fun hc => hk hc.1)]; exact ⟨rfl, _, rfl⟩

theorem entries_quantize (kind : Kind) : entries r.quantize.bones kind =
    (r.bones.filter fun b => !(b.flags kind).isConstant).map fun b => b.quantize r := by
  unfold entries RawClip.quantize
  dsimp only
  rw [List.filter_map]
  rfl

theorem mem_entries {kind : Kind} {b' : Bone} (h : b' ∈ entries r.quantize.bones kind) :
    ∃ b, b ∈ r.bones ∧ (b.flags kind).isConstant = false ∧ b' = b.quantize r := by
  rw [entries_quantize] at h
  obtain ⟨b, hb, rfl⟩ := List.mem_map.mp h
  obtain ⟨h1, h2⟩ := List.mem_filter.mp hb
  exact ⟨b, h1, by simpa using h2, rfl⟩

theorem kindWidth_le (h : RawOk r) {g : Nat} (hg : g < r.sizes.length) (kind : Kind) : kindWidth r.quantize.bones g kind ≤ 128 * r.bones.length := by
  unfold kindWidth
  have h1 : ∀ l : List Bone, (∀ b ∈ l, (b.stream g kind).width ≤ 128) → (l.map fun b => (b.stream g kind).width).sum ≤ 128 * l.length := by
    intro l
    induction l with
    | nil => simp
    | cons a l ih =>
      intro hl
      rw [List.map_cons, List.sum_cons, List.length_cons]
      have := hl a List.mem_cons_self
      have := ih fun b hb => hl b (List.mem_cons_of_mem _ hb)
      omega
  refine (h1 _ ?_).trans ?_
  · intro b' hb'
    obtain ⟨b, hb, ha, rfl⟩ := mem_entries hb'
    exact Stream.width_le (streamOf_ok h hb ha hg (h.size_pos hg))
  · rw [entries_quantize, List.length_map]
    exact Nat.mul_le_mul_left _ (List.length_filter_le _ _)

theorem segments_get {g : Nat} {s : SegmentSource} (hs : r.quantize.segments[g]? = some s) :
    g < r.sizes.length ∧ s = ⟨r.start g, r.sizes.getD g 0, r.hardKeyframes g, r.segmentGarbage g⟩ := by
  unfold RawClip.quantize at hs
  dsimp only at hs
  rw [List.getElem?_map, Option.map_eq_some_iff] at hs
  obtain ⟨k, hk, rfl⟩ := hs
  obtain ⟨hlt, e⟩ := List.getElem?_eq_some_iff.1 hk
  rw [List.length_range] at hlt
  rw [List.getElem_range] at e
  subst e
  exact ⟨hlt, rfl⟩

theorem isVariable_quantize (kind : Kind) : r.quantize.isVariable kind = r.isVariable kind := by cases kind <;> rfl

theorem segments_length : r.quantize.segments.length = r.sizes.length := by
  unfold RawClip.quantize; dsimp only; rw [List.length_map, List.length_range]

theorem segments_sizes : r.quantize.segments.map (·.numSamples) = r.sizes := by
  unfold RawClip.quantize
  dsimp only
  rw [List.map_map]
  apply List.ext_getElem?
  intro k
  rw [List.getElem?_map]
  by_cases hk : k < r.sizes.length
  · rw [List.getElem?_range hk, Option.map_some, List.getElem?_eq_getElem hk]
    show some (r.sizes.getD k 0) = _
    rw [List.getD_eq_getElem?_getD, List.getElem?_eq_getElem hk]
    rfl
  · rw [List.getElem?_eq_none (by rw [List.length_range]; omega), List.getElem?_eq_none (by omega)]
    rfl

theorem numSamples_quantize (h : RawOk r) : r.quantize.numSamples = r.numSamples := by
  unfold ClipSource.numSamples
  rw [segments_sizes]
  exact h.sizes_facts.1

theorem quantize_segment_ok (h : RawOk r) (g : Nat) (s : SegmentSource) (hs : r.quantize.segments[g]? = some s) : SegmentOk r.quantize g s := by
  obtain ⟨hg, rfl⟩ := segments_get hs
  have hget : r.sizes[g]? = some (r.sizes.getD g 0) := by
    rw [List.getD_eq_getElem?_getD, List.getElem?_eq_getElem hg]; rfl
  have hhard : r.stripped = true → r.sizes.getD g 0 ≤ 32 ∧ (r.hardKeyframes g).getMsbD 0 = true ∧
    (r.hardKeyframes g).getMsbD (r.sizes.getD g 0 - 1) = true ∧ ∀ k, r.sizes.getD g 0 ≤ k → (r.hardKeyframes g).getMsbD k = false :=
    fun hst => h.hard hst g _ hget
  refine ⟨h.size_pos hg, h.garbage g, ?_, ?_, ?_, ?_, hhard, ?_⟩
  · intro i hi kind b' hb'
    obtain ⟨b, hb, ha, rfl⟩ := mem_entries hb'
    exact streamOf_ok h hb ha hg hi
  · intro kind b' hb'
    obtain ⟨b, hb, ha, rfl⟩ := mem_entries hb'
    show (b.streamOf r g kind).ConstOk
    unfold RawBone.streamOf
    split
    · rename_i hv
      intro h0
      have h0' : b.bitRate g kind = 0 := by simpa using h0
      exact ⟨h.memory b hb g kind 0, (variableSample_rate 0 (h.rate b hb kind ha hv g hg).1).1 h0'⟩
    · intro h0; simp at h0
  · intro kind b' hb'
    obtain ⟨b, hb, ha, rfl⟩ := mem_entries hb'
    rw [isVariable_quantize]
    show FormatOk (r.isVariable kind) (r.quantize.packedSize kind) (b.streamOf r g kind)
    unfold FormatOk RawBone.streamOf
    split
    · rfl
    · refine ⟨rfl, ?_⟩
      cases kind <;> rfl
  · intro h1 kind b' hb'
    obtain ⟨b, hb, ha, rfl⟩ := mem_entries hb'
    rw [segments_length] at h1
    show (b.streamOf r g kind).bitRate ≠ some 0
    unfold RawBone.streamOf
    split
    · rename_i hv
      intro hc
      exact (h.rate b hb kind ha hv g hg).2 h1 (by simpa using hc)
    · simp
  · have hk := fun kind => kindWidth_le h hg kind
    have hw : frameWidth r.quantize.bones g ≤ 384 * r.bones.length := by
      unfold frameWidth
      have := hk .rotation; have := hk .translation; have := hk .scale
      omega
    have hst : r.quantize.numStored ⟨r.start g, r.sizes.getD g 0, r.hardKeyframes g, r.segmentGarbage g⟩ ≤ r.sizes.getD g 0 := by
      unfold ClipSource.numStored
      split
      · next hst =>
        obtain ⟨h1, -, -, h2⟩ := hhard hst
        dsimp only
        rw [popCount_prefix _ _ h1 h2]
        refine (List.length_filter_le _ _).trans ?_
        rw [List.length_range]
      · exact Nat.le_refl _
    have hm := h.small (r.sizes.getD g 0) (List.mem_of_getElem? hget)
    exact (Nat.add_le_add_right (Nat.mul_le_mul hw hst) 8).trans hm

theorem quantize_ok (h : RawOk r) : ClipOk r.quantize where
  bones := by unfold RawClip.quantize; dsimp only; rw [List.length_map]; exact h.bones
  scale := by
    intro hs
    rw [entries_quantize, List.map_eq_nil_iff, List.filter_eq_nil_iff]
    intro b hb
    rw [h.scale hs b hb]; decide
  default := by
    intro b' hb' kind
    obtain ⟨b, hb, rfl⟩ := List.mem_map.mp hb'
    exact h.default b hb kind
  segments := quantize_segment_ok h
  split := by
    refine ⟨r.segmenting, ?_, h.settings.2, ?_⟩
    · have hv := h.settings.1
      unfold Settings.isValid at hv
      simp only [Bool.and_eq_true, Bool.not_eq_true', decide_eq_false_iff_not] at hv
      omega
    · rw [segments_sizes, numSamples_quantize h]; rfl
  starts := by
    rw [segments_sizes]
    apply List.ext_getElem
    · rw [List.length_map, segments_length, clipSampleOffsets_length]
    · intro k h1 h2
      rw [clipSampleOffsets_get, List.getElem_map]
      rw [List.length_map] at h1
      obtain ⟨-, e⟩ := segments_get (List.getElem?_eq_getElem h1)
      rw [e, Nat.zero_add]
      rfl
  numSamples := by rw [numSamples_quantize h]; exact h.samples.2

end Acl.Transform
