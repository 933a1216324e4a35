import Verif.Transform.ReconstructLemmas
import Verif.Props.C39
/-
C38: range reduction reconstruction is bounded.
A component of a sample is normalized with the range of its clip, then with the 8 bit range of its segment, quantized
on n bits (1 to 23), and reconstructed by the decoder. The reconstruction is within half a quantization step times
both extents of the original, plus the rounding of binary32 arithmetic, and inside the padded range up to that rounding.
-/
namespace Acl.C38
open Acl.F32 Acl.Lerp Acl.ScalarPacking Acl.RangeReduction Acl.C39

attribute [local irreducible] maxValue

/-- Specification: half a quantization step on `n` bits. -/
def halfStep (n : Nat) : ℚ := (1 / 2) / (2 ^ n - 1)

/-- Specification: the samples of one component over a clip, and the ones of a segment. -/
structure Samples where
  clip : List ℚ
  segment : List ℚ
  floats : ∀ s ∈ clip, IsFloat s
  bounded : ∀ s ∈ clip, |s| ≤ 2 ^ 125
  sub : ∀ s ∈ segment, s ∈ clip
  nonempty : segment ≠ []

/-- The range of the clip, and the normalized samples and the range of the segment, as the compressor computes them. -/
def clipRange (S : Samples) : Range := trackRange S.clip
def normalizedSegment (S : Samples) : List ℚ := S.segment.map fun s => normalizeSample s (clipRange S)
def segRange (S : Samples) : Range := segmentRange (normalizedSegment S)

theorem halfStep_bounds {n : Nat} (h1 : 1 ≤ n) : 0 ≤ halfStep n ∧ halfStep n ≤ 1 / 2 := by
  unfold halfStep
  have : (2 : ℚ) ^ 1 ≤ 2 ^ n := pow_le_pow_right₀ (by norm_num) h1
  have h : (1 : ℚ) ≤ 2 ^ n - 1 := by linarith
  constructor
  · positivity
  · exact div_le_self (by norm_num) h

/-- The clip range: bounds that contain the samples, an extent that is the rounded difference, all floats. -/
theorem clipRange_spec (S : Samples) :
    ∃ mn mx, clipRange S = Range.mk mn mx (rnd (mx - mn)) ∧ (∀ s ∈ S.clip, mn ≤ s ∧ s ≤ mx) ∧ IsFloat mn ∧
      |mx - mn| < pow2 127 := by
  obtain ⟨s0, hs0⟩ := List.exists_mem_of_ne_nil _ S.nonempty
  have hne : S.clip ≠ [] := List.ne_nil_of_mem (S.sub s0 hs0)
  obtain ⟨mn, mx, e, hb, h1, h2⟩ := trackRange_spec hne
  have f10 : IsFloat 10000000000 := ⟨9765625, 10, by decide +kernel, by decide, by decide, by decide⟩
  have b10 : (10000000000 : ℚ) ≤ 2 ^ 125 := by norm_num
  have e127 : pow2 127 = 4 * 2 ^ 125 := by decide +kernel
  have bmn : |mn| ≤ 2 ^ 125 := by
    rcases h1 with rfl | h
    · rw [abs_of_pos (by norm_num)]; exact b10
    · exact S.bounded mn h
  have bmx : |mx| ≤ 2 ^ 125 := by
    rcases h2 with rfl | h
    · rw [abs_neg, abs_of_pos (by norm_num)]; exact b10
    · exact S.bounded mx h
  refine ⟨mn, mx, e, hb, ?_, ?_⟩
  · rcases h1 with rfl | h
    · exact f10
    · exact S.floats mn h
  · have := abs_sub mx mn
    have p : (0 : ℚ) < 2 ^ 125 := by positivity
    rw [e127]; linarith

/-- Normalizing with the clip range gives floats in [0,1]. -/
theorem normalizedSegment_ok (S : Samples) : Normalized (normalizedSegment S) := by
  obtain ⟨mn, mx, e, hb, hf, hov⟩ := clipRange_spec S
  refine ⟨by unfold normalizedSegment; simpa using S.nonempty, ?_⟩
  intro x hx
  unfold normalizedSegment at hx
  obtain ⟨s, hs, rfl⟩ := List.mem_map.mp hx
  rw [e]
  obtain ⟨h1, h2⟩ := hb s (S.sub s hs)
  by_cases hz : rnd (mx - mn) < zeroExtent
  · unfold normalizeSample; simp only []; rw [if_pos hz]
    exact ⟨⟨0, 0, by simp, by decide, by decide, by decide⟩, le_rfl, by norm_num⟩
  · push Not at hz
    obtain ⟨a, b, c, d⟩ := normalize_err (v := s) (mn := mn) (mx := mx) hz h1 (rnd_mono (by linarith))
    exact ⟨d, a, b⟩

/-- The main bound, for a clip range that is not degenerate. `d` is what the decoder returns out of the stored
segment range and the stored sample. -/
theorem C38_error (fused : Bool) (S : Samples) (n : Nat) (h1 : 1 ≤ n) (hn : n ≤ 23)
    (hE : zeroExtent ≤ (clipRange S).extent) (v : ℚ) (hv : v ∈ S.segment) :
    ∃ range q, storeSegmentRange (segRange S) = some range ∧ encode (clipRange S) (segRange S) n v = some q ∧
      q < 2 ^ n ∧
      let E := (clipRange S).extent
      let m := |(clipRange S).min|
      let d := decode fused (clipRange S) (loadSegmentRange range) n q
      |d - v| ≤ E * (segRange S).extent * halfStep n + E / 2 ^ 19 + m / 2 ^ 24 ∧
      (clipRange S).min - (E / 2 ^ 19 + m / 2 ^ 24) ≤ d ∧
      d ≤ (clipRange S).min + E * ((segRange S).min + (segRange S).extent) + (E / 2 ^ 19 + m / 2 ^ 24) := by
  have hN := normalizedSegment_ok S
  obtain ⟨range, hst, -, -, hload⟩ := C39_stored _ hN
  obtain ⟨mn, mx, e, hb, hf, hov⟩ := clipRange_spec S
  have hmem : normalizeSample v (clipRange S) ∈ normalizedSegment S := List.mem_map_of_mem hv
  set n1 := normalizeSample v (clipRange S) with hn1
  obtain ⟨hn2, -, hzero⟩ := C39_normalized _ hN n1 hmem
  obtain ⟨a, ha, b, hb', e1, e2, hcont, -⟩ := segmentRange_spec hN
  obtain ⟨g1, g2⟩ := hcont n1 hmem
  obtain ⟨q, hq, hqerr⟩ := Acl.C07.C07_error (normalizeSample n1 (segRange S)) n h1 hn hn2.1 hn2.2
  obtain ⟨q', hq', hlt⟩ := Acl.C07.C07_pack_fits (normalizeSample n1 (segRange S)) n hn2.1 hn2.2 hn
  have hqq : q' = q := by rw [hq] at hq'; exact (Option.some.inj hq').symm
  subst hqq
  refine ⟨range, q', hst, hq, hlt, ?_⟩
  have hload' : loadSegmentRange range = ((segRange S).min, (segRange S).extent) := hload
  simp only [decode, hload']
  have hu := Acl.C07.C07_unpack_unit q' n h1 hn hlt
  rw [e] at hE ⊢
  simp only [] at hE ⊢
  have hclip := normalize_err (v := v) (mn := mn) (mx := mx) hE (hb v (S.sub v hv)).1
    (rnd_mono (by linarith [(hb v (S.sub v hv)).2]))
  rw [← e, ← hn1] at hclip
  obtain ⟨c0, c1, c2, -⟩ := hclip
  have hseg : |normalizeSample n1 (segRange S) * (segRange S).extent - (n1 - (segRange S).min)| ≤
      (segRange S).extent / 2 ^ 22 := by
    have e1' : (segRange S).min = p8 a := e1
    have e2' : (segRange S).extent = p8 b := e2
    by_cases hz : (segRange S).extent < zeroExtent
    · obtain ⟨z1, z2⟩ := hzero hz
      have z1' : n1 = (segRange S).min := z1
      have z2' : (segRange S).extent = 0 := z2
      rw [z2', ← z1']; simp
    · push Not at hz
      have hF : rnd (n1 - (segRange S).min) ≤ (segRange S).extent := by
        rw [e1', e2']
        have := rnd_mono (show n1 - p8 a ≤ p8 b by linarith)
        rwa [rnd_of_isFloat (p8_float hb')] at this
      exact (normalize_err (v := n1) (mn := (segRange S).min) (mx := (segRange S).max) hz
        (by rw [e1']; exact g1) hF).2.2.1
  have hpu : 0 ≤ (segRange S).min ∧ (segRange S).min ≤ 1 := by
    show 0 ≤ (segmentRange _).min ∧ (segmentRange _).min ≤ 1
    rw [e1]; exact p8_unit ha
  have hxu : 0 ≤ (segRange S).extent ∧ (segRange S).extent ≤ 1 := by
    show 0 ≤ (segmentRange _).extent ∧ (segmentRange _).extent ≤ 1
    rw [e2]; exact p8_unit hb'
  exact reconstruct_err fused hE ⟨hu.1, hu.2.1⟩ ⟨c0, c1⟩ hpu hxu c2 hseg hqerr (halfStep_bounds h1)

/-- A degenerate clip range (extent below 1e-9): the reconstruction is the minimum of the clip, within 1e-9 (as a
float) of every sample. -/
theorem C38_degenerate (fused : Bool) (S : Samples) (n : Nat) (h1 : 1 ≤ n) (hn : n ≤ 23)
    (hE : (clipRange S).extent < zeroExtent) (v : ℚ) (hv : v ∈ S.segment) :
    ∃ range q, storeSegmentRange (segRange S) = some range ∧ encode (clipRange S) (segRange S) n v = some q ∧
      decode fused (clipRange S) (loadSegmentRange range) n q = (clipRange S).min ∧
      |decode fused (clipRange S) (loadSegmentRange range) n q - v| ≤ zeroExtent := by
  have hN := normalizedSegment_ok S
  obtain ⟨range, hst, -, -, hload⟩ := C39_stored _ hN
  obtain ⟨mn, mx, e, hb, hf, hov⟩ := clipRange_spec S
  have hall : ∀ x, normalizeSample x (clipRange S) = 0 := by
    intro x; unfold normalizeSample; rw [if_pos hE]
  -- the segment range is [0, 0]
  have hN' : normalizedSegment S = S.segment.map fun _ => (0 : ℚ) := by
    unfold normalizedSegment; exact List.map_congr_left fun x _ => hall x
  obtain ⟨a, ha, b, hb', e1, e2, hcont, -⟩ := segmentRange_spec hN
  have hmem : (0 : ℚ) ∈ normalizedSegment S := by
    rw [hN']; exact List.mem_map.mpr ⟨v, hv, rfl⟩
  obtain ⟨g1, -⟩ := hcont 0 hmem
  have hpa : p8 a = 0 := le_antisymm g1 (p8_unit ha).1
  have hrange : trackRange (normalizedSegment S) = fromMinMax 0 0 := by
    obtain ⟨mn', mx', e', -, m1, m2⟩ := trackRange_unit hN.1 (fun s hs => (hN.2 s hs).2)
    rw [hN'] at m1 m2
    obtain ⟨_, -, r1⟩ := List.mem_map.mp m1
    obtain ⟨_, -, r2⟩ := List.mem_map.mp m2
    rw [e', ← r1, ← r2]
  have hext : (segRange S).extent = 0 := by
    show (fixupRange (trackRange (normalizedSegment S))).extent = 0
    rw [hrange]; decide +kernel
  have hmin : (segRange S).min = 0 := by
    show (fixupRange (trackRange (normalizedSegment S))).min = 0
    rw [hrange]; decide +kernel
  have hq : encode (clipRange S) (segRange S) n v = some 0 := by
    unfold encode
    rw [hall v]
    have : normalizeSample 0 (segRange S) = 0 := by
      unfold normalizeSample; rw [hext, if_pos zeroExtent_pos]
    rw [this]
    have := Acl.C07.C07_round_trip 0 n h1 hn (Nat.pow_pos (by norm_num))
    rwa [(Acl.C07.C07_unpack_unit 0 n h1 hn (Nat.pow_pos (by norm_num))).2.2.1] at this
  have hload' : loadSegmentRange range = (0, 0) := by
    have : loadSegmentRange range = ((segRange S).min, (segRange S).extent) := hload
    rw [this, hmin, hext]
  have hd : decode fused (clipRange S) (loadSegmentRange range) n 0 = (clipRange S).min := by
    have hm : rnd mn = mn := rnd_of_isFloat hf
    unfold decode
    rw [hload', e]
    cases fused <;> simp [mulAdd, fadd, fmul, rnd_zero, hm]
  refine ⟨range, 0, hst, hq, hd, ?_⟩
  rw [hd, e]
  rw [e] at hE
  simp only [] at hE ⊢
  obtain ⟨v1, v2⟩ := hb v (S.sub v hv)
  have hle : mx - mn ≤ zeroExtent := by
    by_contra hc
    push Not at hc
    have := rnd_mono hc.le
    rw [zeroExtent_float] at this
    linarith
  rw [abs_le]; constructor <;> linarith

/-- A clip with a single segment has no segment range. -/
theorem C38_single_segment (fused : Bool) (S : Samples) (n : Nat) (h1 : 1 ≤ n) (hn : n ≤ 23)
    (hE : zeroExtent ≤ (clipRange S).extent) (v : ℚ) (hv : v ∈ S.clip) :
    ∃ q, encodeClipOnly (clipRange S) n v = some q ∧ q < 2 ^ n ∧
      |decodeClipOnly fused (clipRange S) n q - v| ≤
        (clipRange S).extent * halfStep n + (clipRange S).extent / 2 ^ 20 + |(clipRange S).min| / 2 ^ 24 := by
  obtain ⟨mn, mx, e, hb, hf, hov⟩ := clipRange_spec S
  rw [e] at hE ⊢
  simp only [] at hE ⊢
  have hpos : 0 < rnd (mx - mn) := lt_of_lt_of_le zeroExtent_pos hE
  obtain ⟨c0, c1, c2, -⟩ := normalize_err (v := v) (mn := mn) (mx := mx) hE (hb v hv).1
    (rnd_mono (by linarith [(hb v hv).2]))
  set n1 := normalizeSample v (Range.mk mn mx (rnd (mx - mn)))
  obtain ⟨q, hq, hqerr⟩ := Acl.C07.C07_error n1 n h1 hn c0 c1
  obtain ⟨q', hq', hlt⟩ := Acl.C07.C07_pack_fits n1 n c0 c1 hn
  have hqq : q' = q := by rw [hq] at hq'; exact (Option.some.inj hq').symm
  subst hqq
  refine ⟨q', hq, hlt, ?_⟩
  obtain ⟨u0, u1, -⟩ := Acl.C07.C07_unpack_unit q' n h1 hn hlt
  unfold decodeClipOnly
  simp only []
  set u := unpackUnsigned q' n
  set E := rnd (mx - mn)
  have hh := halfStep_bounds h1
  obtain ⟨t1, -⟩ := tiny_le hE
  have hP : |u * E| ≤ E := by rw [abs_of_nonneg (mul_nonneg u0 hpos.le)]; nlinarith
  have hQ : |u * E + mn| ≤ E + |mn| := (abs_add_le _ _).trans (by linarith)
  obtain ⟨m1, m2⟩ := abs_le.mp (mulAdd_err fused hP hQ)
  obtain ⟨k1, k2⟩ := abs_le.mp hqerr
  have hk : halfStep n = (1 / 2) / (2 ^ n - 1) := rfl
  rw [← hk] at k1 k2
  obtain ⟨c2a, c2b⟩ := abs_le.mp c2
  have j1 : (u - n1) * E ≤ (halfStep n + 1 / 2 ^ 21) * E := mul_le_mul_of_nonneg_right k2 hpos.le
  have j2 : -(halfStep n + 1 / 2 ^ 21) * E ≤ (u - n1) * E := mul_le_mul_of_nonneg_right k1 hpos.le
  rw [abs_le]; constructor <;> linarith

/-- The hypotheses are met: a clip of three samples, a segment of two, and a range that is not degenerate. -/
def sampleClip : Samples where
  clip := [1, 5, 2]
  segment := [5, 2]
  floats := by
    intro s hs
    simp only [List.mem_cons, List.not_mem_nil, or_false] at hs
    rcases hs with rfl | rfl | rfl
    · exact ⟨1, 0, by decide +kernel, by decide, by decide, by decide⟩
    · exact ⟨5, 0, by decide +kernel, by decide, by decide, by decide⟩
    · exact ⟨2, 0, by decide +kernel, by decide, by decide, by decide⟩
  bounded := by
    intro s hs
    simp only [List.mem_cons, List.not_mem_nil, or_false] at hs
    rcases hs with rfl | rfl | rfl <;> norm_num
  sub := by simp
  nonempty := by simp

example : zeroExtent ≤ (clipRange sampleClip).extent := by decide +kernel
example : encode (clipRange sampleClip) (segRange sampleClip) 8 2 = some 1 := by decide +kernel

end Acl.C38
