import Verif.Transform.RangeReductionLemmas
/-
C39: segment range quantization always contains the samples.
For any non-empty list of (clip normalized) samples of a segment, floats in [0,1]: the range the compressor keeps
for the segment is stored on 2 bytes and the decoder loads back exactly that range; every sample lies in it; its
normalized value is in [0,1] before any clamping; and the range is tight to within 4/255.
-/
namespace Acl.C39
open Acl.F32 Acl.Lerp Acl.ScalarPacking Acl.RangeReduction

/-- The range kept for a segment: normalize.transform.h:169-190. -/
def segmentRange (samples : List ℚ) : Range := fixupRange (trackRange samples)

/-- Specification: the samples of a segment, normalized within the clip. -/
def Normalized (samples : List ℚ) : Prop := samples ≠ [] ∧ ∀ s ∈ samples, IsFloat s ∧ 0 ≤ s ∧ s ≤ 1

/-- Both components are bytes, and cover the samples. -/
theorem segmentRange_spec {l : List ℚ} (h : Normalized l) :
    ∃ a ≤ 255, ∃ b ≤ 255, (segmentRange l).min = p8 a ∧ (segmentRange l).extent = p8 b ∧
      (∀ s ∈ l, p8 a ≤ s ∧ s ≤ p8 a + p8 b) ∧
      (∃ lo ∈ l, lo ≤ p8 a + 2 / 255 + 1 / 2 ^ 20) ∧
      (∃ hi ∈ l, p8 a + p8 b ≤ hi + 2 / 255 + 1 / 2 ^ 20) := by
  obtain ⟨hne, hl⟩ := h
  obtain ⟨mn, mx, e, hb, hmn, hmx⟩ := trackRange_unit hne (fun s hs => (hl s hs).2)
  have hle : mn ≤ mx := (hb mn hmn).2
  unfold segmentRange
  rw [e]
  unfold fromMinMax
  obtain ⟨a, ha, e1, h1, h2⟩ := paddedMin_spec (hl mn hmn).2.1 (hl mn hmn).2.2 mx (fsub mx mn)
  obtain ⟨b, hb', e2, h3, h4⟩ := paddedExtent_spec (hl mn hmn).2.1 hle (hl mx hmx).2.2 (fsub mx mn)
  rw [e1] at h3 h4
  exact ⟨a, ha, b, hb', e1, e2, fun s hs => ⟨h1.trans (hb s hs).1, (hb s hs).2.trans h3⟩, ⟨mn, hmn, h2⟩, ⟨mx, hmx, h4⟩⟩

/-- The stored bytes decode to the very range the samples were normalized with. -/
theorem C39_stored (l : List ℚ) (h : Normalized l) :
    ∃ stored, storeSegmentRange (segmentRange l) = some stored ∧ stored.1 < 256 ∧ stored.2 < 256 ∧
      loadSegmentRange stored = ((segmentRange l).min, (segmentRange l).extent) := by
  obtain ⟨a, ha, b, hb, e1, e2, -⟩ := segmentRange_spec h
  refine ⟨(a, b), ?_, by simpa using Nat.lt_succ_of_le ha, by simpa using Nat.lt_succ_of_le hb, ?_⟩
  · unfold storeSegmentRange
    rw [e1, e2]
    unfold p8
    rw [Acl.C07.C07_round_trip a 8 (by decide) (by decide) (by omega),
      Acl.C07.C07_round_trip b 8 (by decide) (by decide) (by omega)]
    rfl
  · unfold loadSegmentRange; rw [e1, e2]; rfl

/-- Every sample is in the quantized range. -/
theorem C39_contains (l : List ℚ) (h : Normalized l) :
    ∀ s ∈ l, (segmentRange l).min ≤ s ∧ s ≤ (segmentRange l).min + (segmentRange l).extent := by
  obtain ⟨a, ha, b, hb, e1, e2, h1, -⟩ := segmentRange_spec h
  rw [e1, e2]; exact h1

/-- The range is tight: at most 2/255 (and a rounding) beyond the smallest and the largest sample. -/
theorem C39_tight (l : List ℚ) (h : Normalized l) :
    (∃ lo ∈ l, lo ≤ (segmentRange l).min + 2 / 255 + 1 / 2 ^ 20) ∧
    (∃ hi ∈ l, (segmentRange l).min + (segmentRange l).extent ≤ hi + 2 / 255 + 1 / 2 ^ 20) := by
  obtain ⟨a, ha, b, hb, e1, e2, -, h1, h2⟩ := segmentRange_spec h
  rw [e1, e2]; exact ⟨h1, h2⟩

theorem p8_small {b : Nat} (hb : b ≤ 255) (h : p8 b < zeroExtent) : b = 0 := by
  by_contra hc
  have h1 : p8 1 ≤ p8 b := p8_mono (by omega) hb
  have : zeroExtent ≤ p8 1 := by decide +kernel
  linarith

/-- The normalized samples are in [0,1] by themselves: the clamp of the code changes nothing, and when the extent
is too small to divide by, every sample is exactly the minimum of the range. -/
theorem C39_normalized (l : List ℚ) (h : Normalized l) : ∀ s ∈ l,
    (0 ≤ normalizeSample s (segmentRange l) ∧ normalizeSample s (segmentRange l) ≤ 1) ∧
    (zeroExtent ≤ (segmentRange l).extent →
      normalizeSample s (segmentRange l) = fdiv (fsub s (segmentRange l).min) (segmentRange l).extent) ∧
    ((segmentRange l).extent < zeroExtent → s = (segmentRange l).min ∧ (segmentRange l).extent = 0) := by
  intro s hs
  obtain ⟨a, ha, b, hb, e1, e2, h1, -⟩ := segmentRange_spec h
  obtain ⟨g1, g2⟩ := h1 s hs
  unfold normalizeSample
  rw [e1, e2]
  by_cases hz : p8 b < zeroExtent
  · rw [if_pos hz]
    have hb0 := p8_small hb hz
    subst hb0
    refine ⟨⟨le_rfl, by norm_num⟩, fun hc => absurd hc (not_le.mpr hz), fun _ => ⟨?_, p8_zero⟩⟩
    rw [p8_zero] at g2
    linarith
  · rw [if_neg hz]
    push Not at hz
    have hpos : 0 < p8 b := lt_of_lt_of_le (by decide +kernel) hz
    have n0 : 0 ≤ fsub s (p8 a) := rnd_nonneg (by linarith)
    have n1 : fsub s (p8 a) ≤ p8 b := by
      have := rnd_mono (show s - p8 a ≤ p8 b by linarith)
      rwa [rnd_of_isFloat (p8_float hb)] at this
    have q0 : 0 ≤ fdiv (fsub s (p8 a)) (p8 b) := rnd_nonneg (div_nonneg n0 hpos.le)
    have q1 : fdiv (fsub s (p8 a)) (p8 b) ≤ 1 := by
      have := rnd_mono (show fsub s (p8 a) / p8 b ≤ 1 by rw [div_le_one hpos]; exact n1)
      rwa [rnd_one] at this
    rw [min_eq_left q1]
    exact ⟨⟨q0, q1⟩, fun _ => rfl, fun hc => absurd hc (not_lt.mpr hz)⟩

/-- The hypotheses are met: three samples. -/
example : Normalized [1 / 4, 1 / 2, 3 / 8] ∧ ∃ stored, storeSegmentRange (segmentRange [1 / 4, 1 / 2, 3 / 8]) = some stored ∧
    stored = (63, 66) := by
  refine ⟨⟨by simp, ?_⟩, _, by decide +kernel, rfl⟩
  intro s hs
  simp only [List.mem_cons, List.not_mem_nil, or_false] at hs
  rcases hs with rfl | rfl | rfl
  · exact ⟨⟨1, -2, by decide +kernel, by decide, by decide, by decide⟩, by norm_num, by norm_num⟩
  · exact ⟨⟨1, -1, by decide +kernel, by decide, by decide, by decide⟩, by norm_num, by norm_num⟩
  · exact ⟨⟨3, -3, by decide +kernel, by decide, by decide, by decide⟩, by norm_num, by norm_num⟩

/-- Finding: the extent is compared with the maximum instead of the extent, so it may be one step larger than
needed: for the samples 1/4 and 1/2 an extent of 65/255 already covers the range. -/
theorem C39_wide_extent_finding :
    (segmentRange [1 / 4, 1 / 2]).extent = p8 66 ∧ (1 / 2 : ℚ) ≤ (segmentRange [1 / 4, 1 / 2]).min + p8 65 := by
  constructor <;> decide +kernel

end Acl.C39
