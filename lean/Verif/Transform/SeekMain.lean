import Verif.Transform.SeekLemmas
/-! Seeking picks the nearest key frames in memory: main lemmas. -/
namespace Acl.Seek
open Acl.Segmenting Acl.Seek.Spec

/-- Masks and metadata of segment `g`. -/
theorem segment_data {c : Clip} {sizes : List Nat} (wf : WellFormed c sizes) (hst : c.hasStrippedKeyframes = true)
    (g : Nat) (hg : g < sizes.length) :
    ∃ w md, c.sampleIndices[g]? = some w ∧ segmentMetadata c.db g = some md ∧
      (∀ k, w.getMsbD k = true ↔ InClip c g k) ∧
      (md = none → c.db = none) ∧
      (∀ m, md = some m → (∃ ms, c.db = some ms ∧ ms[g]? = some m) ∧
        (∀ k, (m.medium.extractLsb' 0 32).getMsbD k = true ↔ InMedium c g k) ∧
        (∀ k, (m.low.extractLsb' 0 32).getMsbD k = true ↔ InLow c g k)) := by
  have hl := wf.masks hst
  have hw : c.sampleIndices[g]? = some (c.sampleIndices[g]) := List.getElem?_eq_getElem (by omega)
  refine ⟨c.sampleIndices[g], ?_⟩
  have hclip : ∀ k, (c.sampleIndices[g]).getMsbD k = true ↔ InClip c g k := by
    intro k
    constructor
    · intro h; exact ⟨_, hw, h⟩
    · rintro ⟨w, h1, h2⟩; rw [hw] at h1; cases h1; exact h2
  cases hdb : c.db with
  | none => exact ⟨none, hw, rfl, hclip, fun _ => rfl, fun m h => by cases h⟩
  | some ms =>
    have hml := wf.db ms hdb
    have hm : ms[g]? = some ms[g] := List.getElem?_eq_getElem (by omega)
    refine ⟨some ms[g], hw, by simp [segmentMetadata, hm], hclip, by simp, ?_⟩
    rintro m ⟨⟩
    refine ⟨⟨ms, rfl, hm⟩, ?_, ?_⟩
    · intro k
      constructor
      · intro h; exact ⟨ms, _, hdb, hm, h⟩
      · rintro ⟨ms', m, h1, h2, h3⟩
        rw [hdb] at h1; cases h1; rw [hm] at h2; cases h2; exact h3
    · intro k
      constructor
      · intro h; exact ⟨ms, _, hdb, hm, h⟩
      · rintro ⟨ms', m, h1, h2, h3⟩
        rw [hdb] at h1; cases h1; rw [hm] at h2; cases h2; exact h3

theorem getMsbD_or (a b : BitVec 32) (k : Nat) : (a ||| b).getMsbD k = (a.getMsbD k || b.getMsbD k) := by
  simp [BitVec.getMsbD]
  by_cases h : k < 32 <;> simp [h]

theorem not_inMedium_of_none {c : Clip} (h : c.db = none) (g k : Nat) : ¬ InMedium c g k := by
  rintro ⟨ms, m, h1, _⟩; rw [h] at h1; cases h1

theorem not_inLow_of_none {c : Clip} (h : c.db = none) (g k : Nat) : ¬ InLow c g k := by
  rintro ⟨ms, m, h1, _⟩; rw [h] at h1; cases h1

theorem combined_iff {c : Clip} {g : Nat} {w : BitVec 32} {md : Option TierMetadata}
    (hclip : ∀ k, w.getMsbD k = true ↔ InClip c g k) (hnone : md = none → c.db = none)
    (hsome : ∀ m, md = some m → (∃ ms, c.db = some ms ∧ ms[g]? = some m) ∧
        (∀ k, (m.medium.extractLsb' 0 32).getMsbD k = true ↔ InMedium c g k) ∧
        (∀ k, (m.low.extractLsb' 0 32).getMsbD k = true ↔ InLow c g k)) (k : Nat) :
    (combinedIndices w md).getMsbD k = true ↔ InMemory c g k := by
  unfold InMemory
  cases md with
  | none =>
    have := not_inMedium_of_none (hnone rfl) g k
    have := not_inLow_of_none (hnone rfl) g k
    simp [combinedIndices, *]
  | some m =>
    obtain ⟨-, h1, h2⟩ := hsome m rfl
    simp only [combinedIndices, getMsbD_or, lo32_eq, Bool.or_eq_true, hclip, h1, h2, or_assoc]

/-- A key frame in memory is read from where it is. -/
theorem locate_placed {c : Clip} {sizes : List Nat} {g size k : Nat} {w : BitVec 32} {md : Option TierMetadata}
    (hsz : sizes[g]? = some size) (hk : k < size) (hk32 : k < 32)
    (hw : c.sampleIndices[g]? = some w)
    (hnone : md = none → c.db = none)
    (hsome : ∀ m, md = some m → (∃ ms, c.db = some ms ∧ ms[g]? = some m) ∧
        (∀ k, (m.medium.extractLsb' 0 32).getMsbD k = true ↔ InMedium c g k) ∧
        (∀ k, (m.low.extractLsb' 0 32).getMsbD k = true ↔ InLow c g k))
    (hmem : InMemory c g k) :
    ∃ s l p, locate w k md = some (s, l) ∧ storedPosition k s = some p ∧
      Placed c sizes ⟨g, start sizes g + k, l, p⟩ := by
  cases md with
  | none =>
    have h1 := not_inMedium_of_none (hnone rfl) g k
    have h2 := not_inLow_of_none (hnone rfl) g k
    refine ⟨w, .clip, _, rfl, storedPosition_spec w k hk32, k, size, hsz, hk, rfl, ?_, h1, h2, w, hw, rfl⟩
    rcases hmem with h | h | h
    · exact h
    · exact absurd h h1
    · exact absurd h h2
  | some m =>
    obtain ⟨⟨ms, hdb, hms⟩, hmed, hlow⟩ := hsome m rfl
    have hs : sub31 k < 64 := by rw [sub31_eq _ (by omega)]; omega
    unfold locate
    simp only [hs, if_true]
    by_cases hb1 : m.medium &&& (1#64 <<< (sub31 k)) ≠ 0
    · rw [if_pos hb1]
      have hin := (hmed k).1 ((meta_bit _ _ hk32).1 hb1)
      exact ⟨_, _, _, rfl, storedPosition_spec _ k hk32, k, size, hsz, hk, rfl, hin, ms, m, hdb, hms,
        hi32_eq _, by simp [lo32_eq, countBelow]⟩
    · rw [if_neg hb1]
      have hn1 : ¬ InMedium c g k := fun h => hb1 ((meta_bit _ _ hk32).2 ((hmed k).2 h))
      by_cases hb2 : m.low &&& (1#64 <<< (sub31 k)) ≠ 0
      · rw [if_pos hb2]
        have hin := (hlow k).1 ((meta_bit _ _ hk32).1 hb2)
        exact ⟨_, _, _, rfl, storedPosition_spec _ k hk32, k, size, hsz, hk, rfl, hin, ms, m, hdb, hms,
          hi32_eq _, by simp [lo32_eq, countBelow]⟩
      · rw [if_neg hb2]
        have hn2 : ¬ InLow c g k := fun h => hb2 ((meta_bit _ _ hk32).2 ((hlow k).2 h))
        refine ⟨w, .clip, _, rfl, storedPosition_spec w k hk32, k, size, hsz, hk, rfl, ?_, hn1, hn2, w, hw, rfl⟩
        rcases hmem with h | h | h
        · exact h
        · exact absurd h hn1
        · exact absurd h hn2

theorem start_eq (sizes : List Nat) (g : Nat) : start sizes g = prefixSum sizes g := rfl

/-- Usability of a frame of segment `g` depends only on that segment. -/
theorem usable_iff {c : Clip} {sizes : List Nat} {g size k : Nat} (hsz : sizes[g]? = some size) (hk : k < size) :
    Usable c sizes (start sizes g + k) ↔ InMemory c g k := by
  constructor
  · rintro ⟨g', k', size', h1, h2, h3, h4⟩
    obtain ⟨hg, hs⟩ := List.getElem?_eq_some_iff.1 hsz
    obtain ⟨hg', hs'⟩ := List.getElem?_eq_some_iff.1 h1
    have e : g' = g := by
      apply segment_unique sizes (start sizes g + k)
      · rw [prefixSum_succ _ _ hg', hs', h3]; simp [start_eq]; omega
      · rw [prefixSum_succ _ _ hg, hs]; simp [start_eq]; omega
    subst e
    have : k' = k := by omega
    subst this
    exact h4
  · intro h; exact ⟨g, k, size, hsz, hk, rfl, h⟩

/-- Both key frames, once their segments are known. -/
theorem pick_frames {c : Clip} {sizes : List Nat} (wf : WellFormed c sizes) (hst : c.hasStrippedKeyframes = true)
    (g0 g1 size0 size1 r0 r1 : Nat) (hz0 : sizes[g0]? = some size0) (hz1 : sizes[g1]? = some size1)
    (hr0 : r0 < size0) (hr1 : r1 < size1) :
    ∃ w0 w1 md0 md1 k0 k1 s0 l0 s1 l1 p0 p1,
      c.sampleIndices[g0]? = some w0 ∧ c.sampleIndices[g1]? = some w1 ∧
      segmentMetadata c.db g0 = some md0 ∧ segmentMetadata c.db g1 = some md1 ∧
      nearestBefore (combinedIndices w0 md0) r0 = some k0 ∧ nearestAfter (combinedIndices w1 md1) r1 = some k1 ∧
      locate w0 k0 md0 = some (s0, l0) ∧ locate w1 k1 md1 = some (s1, l1) ∧
      storedPosition k0 s0 = some p0 ∧ storedPosition k1 s1 = some p1 ∧
      k0 ≤ r0 ∧ InMemory c g0 k0 ∧ (∀ j, k0 < j → j ≤ r0 → ¬ InMemory c g0 j) ∧
      r1 ≤ k1 ∧ k1 < size1 ∧ InMemory c g1 k1 ∧ (∀ j, r1 ≤ j → j < k1 → ¬ InMemory c g1 j) ∧
      Placed c sizes ⟨g0, start sizes g0 + k0, l0, p0⟩ ∧ Placed c sizes ⟨g1, start sizes g1 + k1, l1, p1⟩ := by
  obtain ⟨hg0, -⟩ := List.getElem?_eq_some_iff.1 hz0
  obtain ⟨hg1, -⟩ := List.getElem?_eq_some_iff.1 hz1
  obtain ⟨w0, md0, hw0, hmd0, hc0, hn0, hs0⟩ := segment_data wf hst g0 hg0
  obtain ⟨w1, md1, hw1, hmd1, hc1, hn1, hs1⟩ := segment_data wf hst g1 hg1
  obtain ⟨-, hle0, hb0, -⟩ := wf.boundaries hst g0 size0 hz0
  obtain ⟨hpos1, hle1, -, hb1⟩ := wf.boundaries hst g1 size1 hz1
  have hcomb0 := combined_iff hc0 hn0 hs0
  have hcomb1 := combined_iff hc1 hn1 hs1
  obtain ⟨k0, hk0, hk0le, hk0b, hk0n⟩ := nearestBefore_spec (combinedIndices w0 md0) r0 (by omega)
    ⟨0, by omega, (hcomb0 0).2 (Or.inl hb0)⟩
  obtain ⟨k1, hk1, hk1le, hk1lt, hk1b, hk1n⟩ := nearestAfter_spec (combinedIndices w1 md1) r1
    ⟨size1 - 1, by omega, by omega, (hcomb1 _).2 (Or.inl hb1)⟩
  have hk1s : k1 < size1 := by
    apply Classical.byContradiction
    intro h
    have := hk1n (size1 - 1) (by omega) (by omega)
    rw [(hcomb1 _).2 (Or.inl hb1)] at this
    cases this
  have hm0 := (hcomb0 _).1 hk0b
  have hm1 := (hcomb1 _).1 hk1b
  obtain ⟨s0, l0, p0, hl0, hp0, hpl0⟩ := locate_placed hz0 (by omega : k0 < size0) (by omega) hw0 hn0 hs0 hm0
  obtain ⟨s1, l1, p1, hl1, hp1, hpl1⟩ := locate_placed hz1 hk1s (by omega) hw1 hn1 hs1 hm1
  refine ⟨w0, w1, md0, md1, k0, k1, s0, l0, s1, l1, p0, p1, hw0, hw1, hmd0, hmd1, hk0, hk1, hl0, hl1, hp0, hp1,
    hk0le, hm0, ?_, hk1le, hk1s, hm1, ?_, hpl0, hpl1⟩
  · intro j h1 h2 h3
    have := (hcomb0 j).2 h3
    rw [hk0n j h1 h2] at this; cases this
  · intro j h1 h2 h3
    have := (hcomb1 j).2 h3
    rw [hk1n j h1 h2] at this; cases this

/-- Segments used for a legal pair of key frames in a clip split with some slack. -/
theorem findSegments_spec {c : Clip} (s : Settings) (hi : 0 < s.ideal) (hm : s.ideal < s.max)
    (sizes : List Nat) (hs : splitSamplesPerSegment c.numSamples s = some sizes) (hsum : sizes.sum = c.numSamples)
    (h1 : sizes.length ≠ 1) (wf : WellFormed c sizes) (hN : c.numSamples < 0xFFFFFFFF)
    (wrapping : Bool) (kf0 kf1 : Nat) (hkf : KeyFramePair wrapping c.numSamples kf0 kf1) :
    ∃ g0 g1 size0 size1 r0 r1, findSegments wrapping c kf0 kf1 = some (g0, g1) ∧
      sizes[g0]? = some size0 ∧ sizes[g1]? = some size1 ∧ r0 < size0 ∧ r1 < size1 ∧
      kf0 = start sizes g0 + r0 ∧ kf1 = start sizes g1 + r1 := by
  obtain ⟨hk0, hk1, hpair⟩ := hkf
  have hmax : s.max < c.numSamples := by
    apply Classical.byContradiction
    intro h
    simp [splitSamplesPerSegment, show c.numSamples ≤ s.max by omega] at hs
  obtain ⟨g, hg, hlo, hhi⟩ := exists_segment sizes kf0 (by omega)
  obtain ⟨hq, ha1, ha2⟩ := approx_bounds _ s hi hm hmax sizes hs g kf0 hg hlo hhi
  have hfind : findSegments wrapping c kf0 kf1 =
      some (g, if wrapping && kf1 = 0 then 0 else
        if kf1 < prefixSum sizes (g + 1) ∨ g + 1 = sizes.length ∧ kf1 < 0xFFFFFFFF then g else g + 1) := by
    unfold findSegments
    rw [wf.numSegments, if_neg (by omega)]
    simp only
    rw [if_neg (by omega), wf.starts h1]
    apply searchLoop_spec wrapping sizes (by omega) kf0 kf1 g hg hlo hhi
    · split <;> omega
    · split <;> omega
  have hgs := prefixSum_succ sizes g hg
  have hsz0 : sizes[g]? = some sizes[g] := List.getElem?_eq_getElem hg
  by_cases hw : wrapping = true ∧ kf1 = 0
  · have h00 : sizes[0]? = some sizes[0] := List.getElem?_eq_getElem (by omega)
    rw [hfind]
    refine ⟨g, 0, sizes[g], sizes[0], kf0 - prefixSum sizes g, 0, by simp [hw], hsz0, h00, by omega, ?_,
      by rw [start_eq]; omega, by rw [start_eq, prefixSum_zero]; omega⟩
    -- the first segment is not empty
    rcases Nat.eq_zero_or_pos (sizes[0]) with hz | hz
    · exfalso
      have hf := split_cases c.numSamples s hi (by omega) hmax
      obtain ⟨E, last, hE, hl1, hl2, hNe, hc⟩ := hf
      rcases hc with ⟨-, sz, hsz, hlen, -, hget⟩ | ⟨-, hsz⟩
      · rw [hs] at hsz; cases hsz
        have := hget 0 (by omega)
        have : 0 < sizes[0] := by
          rw [this]
          exact Nat.lt_of_lt_of_le hi (by rw [Nat.add_assoc]; exact Nat.le_add_right _ _)
        omega
      · rw [hs] at hsz; cases hsz
        rw [List.getElem_append_left (by simp; omega)] at hz
        simp at hz
        omega
    · exact hz
  · have hne : (wrapping && decide (kf1 = 0)) = false := by
      cases wrapping
      · rfl
      · simp at hw; simp [hw]
    rw [hne] at hfind
    simp only [Bool.false_eq_true, if_false] at hfind
    by_cases hin : kf1 < prefixSum sizes (g + 1)
    · rw [if_pos (Or.inl hin)] at hfind
      refine ⟨g, g, sizes[g], sizes[g], kf0 - prefixSum sizes g, kf1 - prefixSum sizes g, hfind, hsz0, hsz0,
        by omega, ?_, by rw [start_eq]; omega, ?_⟩
      · have : prefixSum sizes g ≤ kf1 := by
          rcases hpair with h | h | h
          · omega
          · omega
          · exact absurd h hw
        omega
      · have : prefixSum sizes g ≤ kf1 := by
          rcases hpair with h | h | h
          · omega
          · omega
          · exact absurd h hw
        rw [start_eq]; omega
    · have hkk : kf1 = prefixSum sizes (g + 1) := by
        rcases hpair with h | h | h
        · omega
        · omega
        · exact absurd h hw
      have hg1 : g + 1 < sizes.length := by
        apply Classical.byContradiction
        intro h
        have : g + 1 = sizes.length := by omega
        rw [this, prefixSum_all] at hkk
        omega
      rw [if_neg (by omega)] at hfind
      refine ⟨g, g + 1, sizes[g], sizes[g + 1], kf0 - prefixSum sizes g, 0, hfind, hsz0,
        List.getElem?_eq_getElem hg1, by omega, ?_, by rw [start_eq]; omega, by rw [start_eq]; omega⟩
      rcases Nat.eq_zero_or_pos (sizes[g + 1]) with hz | hz
      · exfalso
        obtain ⟨E, last, hE, hl1, hl2, hNe, hc⟩ := split_cases c.numSamples s hi (by omega) hmax
        rcases hc with ⟨-, sz, hsz, hlen, -, hget⟩ | ⟨-, hsz⟩
        · rw [hs] at hsz; cases hsz
          have := hget (g + 1) (by omega)
          have : 0 < sizes[g + 1] := by
            rw [this]
            exact Nat.lt_of_lt_of_le hi (by rw [Nat.add_assoc]; exact Nat.le_add_right _ _)
          omega
        · rw [hs] at hsz; cases hsz
          rw [List.getElem_append] at hz
          split at hz
          · simp at hz; omega
          · simp at hz; omega
      · exact hz

/-- Either one segment with everything, or a proper split. -/
theorem segmentSizes_cases (N : Nat) (s : Settings) (hv : 0 < s.ideal ∧ s.ideal ≤ s.max) :
    (segmentSizes N s = [N] ∧ splitSamplesPerSegment N s = none) ∨
    (splitSamplesPerSegment N s = some (segmentSizes N s) ∧ (segmentSizes N s).length ≠ 1 ∧
      (segmentSizes N s).sum = N) := by
  unfold segmentSizes
  cases h : splitSamplesPerSegment N s with
  | none => left; simp
  | some xs =>
    right
    have hN : s.max < N := by
      apply Classical.byContradiction
      intro hc
      simp [splitSamplesPerSegment, show N ≤ s.max by omega] at h
    obtain ⟨E, last, hE, hl1, hl2, hNe, hc⟩ := split_cases N s hv.1 hv.2 hN
    rcases hc with ⟨hsl, sz, hsz, hlen, hsum, -⟩ | ⟨-, hsz⟩
    · rw [h] at hsz; cases hsz
      refine ⟨rfl, ?_, hsum⟩
      simp only
      rw [hlen]
      intro hE1
      subst hE1
      omega
    · rw [h] at hsz; cases hsz
      refine ⟨rfl, by simp; omega, by simp [List.sum_replicate_nat]; omega⟩

/-- Seeking in a clip without stripped key frames. -/
theorem seek_plain {α : Type} (remapAlpha : α → Nat → Nat → Nat → α) (s : Settings) (hi : 0 < s.ideal)
    (hm : s.ideal < s.max) {c : Clip} (wf : WellFormed c (segmentSizes c.numSamples s))
    (hst : c.hasStrippedKeyframes = false) (hN : c.numSamples < 0xFFFFFFFF) (wrapping : Bool) (kf0 kf1 : Nat)
    (hkf : KeyFramePair wrapping c.numSamples kf0 kf1) (alpha : α) :
    ∃ g0 g1 size0 size1 r0 r1, (segmentSizes c.numSamples s)[g0]? = some size0 ∧
      (segmentSizes c.numSamples s)[g1]? = some size1 ∧ r0 < size0 ∧ r1 < size1 ∧
      kf0 = start (segmentSizes c.numSamples s) g0 + r0 ∧ kf1 = start (segmentSizes c.numSamples s) g1 + r1 ∧
      seekKeyFrames remapAlpha wrapping c kf0 kf1 alpha = some (⟨g0, kf0, .clip, r0⟩, ⟨g1, kf1, .clip, r1⟩, alpha) := by
  rcases segmentSizes_cases c.numSamples s ⟨hi, by omega⟩ with ⟨h1, h2⟩ | ⟨hsp, hlen, hsum⟩
  · rw [h1] at wf ⊢
    obtain ⟨h3, h4, -⟩ := hkf
    have hn := wf.numSegments
    simp at hn
    refine ⟨0, 0, c.numSamples, c.numSamples, kf0, kf1, rfl, rfl, h3, h4, by simp [start], by simp [start], ?_⟩
    simp [seekKeyFrames, hn, seekSingle, hst]
  · obtain ⟨g0, g1, size0, size1, r0, r1, hf, hz0, hz1, hr0, hr1, e0, e1⟩ :=
      findSegments_spec s hi hm _ hsp hsum hlen wf hN wrapping kf0 kf1 hkf
    refine ⟨g0, g1, size0, size1, r0, r1, hz0, hz1, hr0, hr1, e0, e1, ?_⟩
    obtain ⟨hk0, hk1, -⟩ := hkf
    obtain ⟨hg0, -⟩ := List.getElem?_eq_some_iff.1 hz0
    obtain ⟨hg1, -⟩ := List.getElem?_eq_some_iff.1 hz1
    have hne : c.numSegments ≠ 1 := by rw [wf.numSegments]; exact hlen
    have hs0 := starts_get _ _ hg0
    have hs1 := starts_get _ _ hg1
    rw [← start_eq] at hs0 hs1
    have hr0' : (kf0 + 2 ^ 32 - start (segmentSizes c.numSamples s) g0) % 2 ^ 32 = r0 := by omega
    have hr1' : (kf1 + 2 ^ 32 - start (segmentSizes c.numSamples s) g1) % 2 ^ 32 = r1 := by omega
    unfold seekKeyFrames seekMulti
    rw [if_neg hne, hf, wf.starts hlen]
    simp only [Option.bind_eq_bind, Option.bind_some, hs0, hs1, hst, Bool.false_eq_true, if_false, hr0', hr1',
      ← e0, ← e1, Option.pure_def]

/-- Seeking in a clip with stripped key frames or a database. -/
theorem seek_stripped {α : Type} (remapAlpha : α → Nat → Nat → Nat → α) (s : Settings) (hi : 0 < s.ideal)
    (hm : s.ideal < s.max) {c : Clip} (wf : WellFormed c (segmentSizes c.numSamples s))
    (hst : c.hasStrippedKeyframes = true) (hN : c.numSamples < 0xFFFFFFFF) (wrapping : Bool) (kf0 kf1 : Nat)
    (hkf : KeyFramePair wrapping c.numSamples kf0 kf1) (alpha : α) :
    ∃ f0 f1, seekKeyFrames remapAlpha wrapping c kf0 kf1 alpha =
        some (f0, f1, remapAlpha alpha kf0 f0.clipIndex f1.clipIndex) ∧
      f0.clipIndex ≤ kf0 ∧ Usable c (segmentSizes c.numSamples s) f0.clipIndex ∧
      (∀ n, f0.clipIndex < n → n ≤ kf0 → ¬ Usable c (segmentSizes c.numSamples s) n) ∧
      kf1 ≤ f1.clipIndex ∧ Usable c (segmentSizes c.numSamples s) f1.clipIndex ∧
      (∀ n, kf1 ≤ n → n < f1.clipIndex → ¬ Usable c (segmentSizes c.numSamples s) n) ∧
      Placed c (segmentSizes c.numSamples s) f0 ∧ Placed c (segmentSizes c.numSamples s) f1 := by
  have key : ∀ sizes, WellFormed c sizes → ∀ g0 g1 size0 size1 r0 r1, sizes[g0]? = some size0 →
      sizes[g1]? = some size1 → r0 < size0 → r1 < size1 → kf0 = start sizes g0 + r0 → kf1 = start sizes g1 + r1 →
      (∀ w0 w1 md0 md1 k0 k1 s0 l0 s1 l1 p0 p1,
        c.sampleIndices[g0]? = some w0 → c.sampleIndices[g1]? = some w1 →
        segmentMetadata c.db g0 = some md0 → segmentMetadata c.db g1 = some md1 →
        nearestBefore (combinedIndices w0 md0) r0 = some k0 → nearestAfter (combinedIndices w1 md1) r1 = some k1 →
        locate w0 k0 md0 = some (s0, l0) → locate w1 k1 md1 = some (s1, l1) →
        storedPosition k0 s0 = some p0 → storedPosition k1 s1 = some p1 →
        seekKeyFrames remapAlpha wrapping c kf0 kf1 alpha = some (⟨g0, start sizes g0 + k0, l0, p0⟩,
          ⟨g1, start sizes g1 + k1, l1, p1⟩, remapAlpha alpha kf0 (start sizes g0 + k0) (start sizes g1 + k1))) →
      ∃ f0 f1, seekKeyFrames remapAlpha wrapping c kf0 kf1 alpha =
        some (f0, f1, remapAlpha alpha kf0 f0.clipIndex f1.clipIndex) ∧
      f0.clipIndex ≤ kf0 ∧ Usable c sizes f0.clipIndex ∧
      (∀ n, f0.clipIndex < n → n ≤ kf0 → ¬ Usable c sizes n) ∧
      kf1 ≤ f1.clipIndex ∧ Usable c sizes f1.clipIndex ∧
      (∀ n, kf1 ≤ n → n < f1.clipIndex → ¬ Usable c sizes n) ∧
      Placed c sizes f0 ∧ Placed c sizes f1 := by
    intro sizes wf g0 g1 size0 size1 r0 r1 hz0 hz1 hr0 hr1 e0 e1 hseek
    obtain ⟨w0, w1, md0, md1, k0, k1, s0, l0, s1, l1, p0, p1, a1, a2, a3, a4, a5, a6, a7, a8, a9, a10,
      b1, b2, b3, b4, b5, b6, b7, b8, b9⟩ := pick_frames wf hst g0 g1 size0 size1 r0 r1 hz0 hz1 hr0 hr1
    refine ⟨_, _, hseek w0 w1 md0 md1 k0 k1 s0 l0 s1 l1 p0 p1 a1 a2 a3 a4 a5 a6 a7 a8 a9 a10, ?_, ?_, ?_, ?_, ?_, ?_,
      b8, b9⟩
    · simp only; omega
    · exact (usable_iff hz0 (by omega)).2 b2
    · intro n h1 h2
      simp only at h1
      obtain ⟨j, rfl⟩ : ∃ j, n = start sizes g0 + j := ⟨n - start sizes g0, by omega⟩
      rw [usable_iff hz0 (by omega)]
      exact b3 j (by omega) (by omega)
    · simp only; omega
    · exact (usable_iff hz1 b5).2 b6
    · intro n h1 h2
      simp only at h2
      obtain ⟨j, rfl⟩ : ∃ j, n = start sizes g1 + j := ⟨n - start sizes g1, by omega⟩
      rw [usable_iff hz1 (by omega)]
      exact b7 j (by omega) (by omega)
  rcases segmentSizes_cases c.numSamples s ⟨hi, by omega⟩ with ⟨h1, h2⟩ | ⟨hsp, hlen, hsum⟩
  · rw [h1] at wf ⊢
    obtain ⟨h3, h4, -⟩ := hkf
    have hn := wf.numSegments
    simp at hn
    apply key _ wf 0 0 c.numSamples c.numSamples kf0 kf1 rfl rfl h3 h4 (by simp [start]) (by simp [start])
    intro w0 w1 md0 md1 k0 k1 s0 l0 s1 l1 p0 p1 a1 a2 a3 a4 a5 a6 a7 a8 a9 a10
    rw [a1] at a2; cases a2
    rw [a3] at a4; cases a4
    simp [seekKeyFrames, hn, seekSingle, hst, a1, a3, a5, a6, a7, a8, a9, a10, start]
  · obtain ⟨g0, g1, size0, size1, r0, r1, hf, hz0, hz1, hr0, hr1, e0, e1⟩ :=
      findSegments_spec s hi hm _ hsp hsum hlen wf hN wrapping kf0 kf1 hkf
    apply key _ wf g0 g1 size0 size1 r0 r1 hz0 hz1 hr0 hr1 e0 e1
    intro w0 w1 md0 md1 k0 k1 s0 l0 s1 l1 p0 p1 a1 a2 a3 a4 a5 a6 a7 a8 a9 a10
    obtain ⟨hk0, hk1, -⟩ := hkf
    obtain ⟨hg0, -⟩ := List.getElem?_eq_some_iff.1 hz0
    obtain ⟨hg1, -⟩ := List.getElem?_eq_some_iff.1 hz1
    have hne : c.numSegments ≠ 1 := by rw [wf.numSegments]; exact hlen
    have hs0 := starts_get _ _ hg0
    have hs1 := starts_get _ _ hg1
    rw [← start_eq] at hs0 hs1
    have hr0' : (kf0 + 2 ^ 32 - start (segmentSizes c.numSamples s) g0) % 2 ^ 32 = r0 := by omega
    have hr1' : (kf1 + 2 ^ 32 - start (segmentSizes c.numSamples s) g1) % 2 ^ 32 = r1 := by omega
    unfold seekKeyFrames seekMulti
    rw [if_neg hne, hf, wf.starts hlen]
    dsimp only [Option.bind_eq_bind, Option.bind_some]
    rw [hs0]
    dsimp only [Option.bind_some]
    rw [hs1]
    dsimp only [Option.bind_some]
    rw [hr0', hr1', if_pos hst, a1]
    dsimp only [Option.bind_some]
    rw [a2]
    dsimp only [Option.bind_some]
    rw [a3]
    dsimp only [Option.bind_some]
    rw [a4]
    dsimp only [Option.bind_some]
    rw [a5]
    dsimp only [Option.bind_some]
    rw [a6]
    dsimp only [Option.bind_some]
    rw [a7]
    dsimp only [Option.bind_some]
    rw [a8]
    dsimp only [Option.bind_some]
    rw [a9]
    dsimp only [Option.bind_some]
    rw [a10]
    simp only [Option.bind_some, Option.pure_def]

end Acl.Seek
