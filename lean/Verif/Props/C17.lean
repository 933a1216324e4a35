import Verif.Transform.SegmentSearch
/-! C17: segmenting partitions the clip. -/
namespace Acl.C17
open Acl.Segmenting Acl.Seek

theorem split_facts (N : Nat) (s : Settings) (hv : s.isValid = true) (sizes : List Nat)
    (hs : splitSamplesPerSegment N s = some sizes) :
    2 ≤ sizes.length ∧ sizes.sum = N ∧ ∀ n ∈ sizes, 0 < n ∧ n ≤ s.max := by
  have hv' : 8 ≤ s.ideal ∧ s.ideal ≤ s.max := by
    simp [Settings.isValid] at hv; omega
  have hN : s.max < N := by
    apply Classical.byContradiction
    intro h
    simp [splitSamplesPerSegment, show N ≤ s.max by omega] at hs
  obtain ⟨E, last, hE, hl1, hl2, hNe, hc⟩ := split_cases N s (by omega) (by omega) hN
  rcases hc with ⟨hsl, sz, hsz, hlen, hsum, hget⟩ | ⟨hsl, hsz⟩
  · rw [hs] at hsz
    cases hsz
    refine ⟨?_, hsum, ?_⟩
    · rw [hlen]
      apply Classical.byContradiction
      intro h
      have : E = 1 := by omega
      subst this
      omega
    · intro n hn
      obtain ⟨i, hi, rfl⟩ := List.getElem_of_mem hn
      rw [hget i hi]
      have hdm := Nat.div_add_mod last E
      generalize hq : last / E = q at *
      refine ⟨by omega, ?_⟩
      generalize hr : last % E = r at *
      have hq1 : q ≤ s.max - s.ideal := by
        rw [← hq]; exact Nat.div_le_of_le_mul hsl
      split
      · -- r > 0, so the quotient is not at the bound
        have : q ≠ s.max - s.ideal := by
          intro h; rw [h] at hdm; omega
        omega
      · omega
  · rw [hs] at hsz
    cases hsz
    refine ⟨by simp; omega, by simp [List.sum_replicate_nat]; omega, ?_⟩
    intro n hn
    simp only [List.mem_append, List.mem_replicate, List.mem_singleton] at hn
    omega

theorem sizes_sum (N : Nat) (s : Settings) (hv : s.isValid = true) : (segmentSizes N s).sum = N := by
  unfold segmentSizes
  split
  · simp
  · rename_i xs hx; exact (split_facts N s hv xs hx).2.1

/-- The segments cover the clip: their sizes add up to the number of samples, none is empty (unless the
clip itself has no samples) and none exceeds the maximum. A clip is split only when it does not fit in one segment, and then
into at least two. -/
theorem C17_sizes (N : Nat) (s : Settings) (hv : s.isValid = true) :
    (segmentSizes N s).sum = N ∧
    (0 < N → ∀ n ∈ segmentSizes N s, 0 < n) ∧
    (∀ n ∈ segmentSizes N s, n ≤ s.max) ∧
    ((segmentSizes N s).length = 1 ↔ N ≤ s.max) := by
  refine ⟨sizes_sum N s hv, ?_, ?_, ?_⟩
  · intro hN n hn
    unfold segmentSizes at hn
    split at hn
    · simp at hn; omega
    · rename_i xs hx; exact ((split_facts N s hv xs hx).2.2 n hn).1
  · intro n hn
    unfold segmentSizes at hn
    split at hn
    · rename_i hx
      simp at hn
      subst hn
      apply Classical.byContradiction
      intro h
      simp [splitSamplesPerSegment, h] at hx
      split at hx <;> simp at hx
    · rename_i xs hx; exact ((split_facts N s hv xs hx).2.2 n hn).2
  · unfold segmentSizes
    split
    · rename_i hx
      simp only [List.length_singleton, true_iff]
      apply Classical.byContradiction
      intro h
      simp [splitSamplesPerSegment, h] at hx
      split at hx <;> simp at hx
    · rename_i xs hx
      have := split_facts N s hv xs hx
      constructor
      · omega
      · intro h; simp [splitSamplesPerSegment, h] at hx

/-- Every sample of the clip is in exactly one segment, as delimited by the stored start indices. -/
theorem C17_each_sample_in_one_segment (N : Nat) (s : Settings) (hv : s.isValid = true) (k : Nat) (hk : k < N) :
    ∃ g : Nat, (∃ start n, (segmentStartIndices (segmentSizes N s))[g]? = some start ∧ (segmentSizes N s)[g]? = some n ∧
        start ≤ k ∧ k < start + n) ∧
      ∀ g' : Nat, (∃ start n, (segmentStartIndices (segmentSizes N s))[g']? = some start ∧
        (segmentSizes N s)[g']? = some n ∧ start ≤ k ∧ k < start + n) → g' = g := by
  have hsum := sizes_sum N s hv
  generalize segmentSizes N s = sizes at *
  obtain ⟨g, hg, h1, h2⟩ := exists_segment sizes k (by omega)
  rw [prefixSum_succ _ _ hg] at h2
  refine ⟨g, ⟨_, _, starts_get _ _ hg, List.getElem?_eq_getElem hg, h1, h2⟩, ?_⟩
  rintro g' ⟨start, n, hs, hn, h3, h4⟩
  obtain ⟨hg', hn'⟩ := List.getElem?_eq_some_iff.1 hn
  rw [starts_get _ _ hg'] at hs
  cases hs
  apply segment_unique sizes k g' g ⟨h3, ?_⟩ ⟨h1, ?_⟩
  · rw [prefixSum_succ _ _ hg', hn']; exact h4
  · rw [prefixSum_succ _ _ hg]; exact h2

/-- The stored start indices begin at 0, increase strictly (each by the size of its segment) and end with
the sentinel 0xFFFFFFFF. -/
theorem C17_start_indices (N : Nat) (s : Settings) (hv : s.isValid = true) (hN : N < 0xFFFFFFFF) :
    (segmentStartIndices (segmentSizes N s)).length = (segmentSizes N s).length + 1 ∧
    (segmentStartIndices (segmentSizes N s))[0]? = some 0 ∧
    (segmentStartIndices (segmentSizes N s))[(segmentSizes N s).length]? = some 0xFFFFFFFF ∧
    ∀ g n a b : Nat, g + 1 < (segmentSizes N s).length → (segmentSizes N s)[g]? = some n →
      (segmentStartIndices (segmentSizes N s))[g]? = some a →
      (segmentStartIndices (segmentSizes N s))[g + 1]? = some b → b = a + n ∧ a < b ∧ b < N := by
  have h := C17_sizes N s hv
  have hne : 0 < (segmentSizes N s).length := by
    rcases Nat.eq_zero_or_pos (segmentSizes N s).length with h0 | h0
    · have h1 := List.eq_nil_of_length_eq_zero h0
      unfold segmentSizes at h1
      split at h1
      · simp at h1
      · rename_i xs hx
        have := (split_facts N s hv xs hx).1
        simp [h1] at this
    · exact h0
  generalize segmentSizes N s = sizes at *
  obtain ⟨hsum, hpos, hmax, hone⟩ := h
  refine ⟨?_, ?_, starts_sentinel sizes, ?_⟩
  · simp [segmentStartIndices, clipSampleOffsets_length]
  · rw [starts_get _ _ hne, prefixSum_zero]
  · intro g n a b hg hn ha hb
    rw [starts_get _ _ (by omega)] at ha
    rw [starts_get _ _ hg] at hb
    cases ha; cases hb
    obtain ⟨hg1, hn1⟩ := List.getElem?_eq_some_iff.1 hn
    have e1 := prefixSum_succ sizes g (by omega)
    have e2 := prefixSum_succ sizes (g + 1) hg
    have hp := prefixSum_mono sizes (show g + 1 + 1 ≤ sizes.length by omega)
    rw [prefixSum_all] at hp
    have hN0 : 0 < N := by
      rcases Nat.eq_zero_or_pos N with h0 | h0
      · subst h0
        have := hone.2 (Nat.zero_le _)
        omega
      · exact h0
    have h1 := hpos hN0 _ (List.getElem_mem (show g < sizes.length by omega))
    have h2 := hpos hN0 _ (List.getElem_mem (show g + 1 < sizes.length by omega))
    omega

theorem segmentSamples_flatten {α : Type} (samples : List α) (off : Nat) (sizes : List Nat)
    (h : off + sizes.sum = samples.length) :
    (segmentSamples samples off sizes).flatten = samples.drop off := by
  induction sizes generalizing off with
  | nil =>
    simp at h
    simp [segmentSamples, List.drop_of_length_le (show samples.length ≤ off by omega)]
  | cons n ns ih =>
    simp only [List.sum_cons] at h
    simp only [segmentSamples, List.flatten_cons]
    rw [ih (off + n) (by omega), ← List.drop_drop]
    exact List.take_append_drop _ _

/-- No sample is lost, duplicated or reordered: putting the segments back together gives the clip. -/
theorem C17_samples_preserved {α : Type} (samples : List α) (s : Settings) (hv : s.isValid = true) :
    (segmentSamples samples 0 (segmentSizes samples.length s)).flatten = samples := by
  rw [segmentSamples_flatten _ _ _ (by rw [sizes_sum _ _ hv]; simp)]
  simp

/-- The default settings are valid, and a clip of 37 samples is split in two. -/
example : ({} : Settings).isValid = true ∧ segmentSizes 37 {} = [19, 18] := by decide

end Acl.C17
