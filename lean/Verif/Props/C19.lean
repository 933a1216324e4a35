import Verif.Transform.SeekMain
/-! C19: seeking with stripped key frames uses the nearest retained ones. -/
namespace Acl.C19
open Acl.Segmenting Acl.Seek Acl.Seek.Spec

/-- A key frame of the clip was retained: the mask of its segment has its bit. -/
def Retained (c : Clip) (sizes : List Nat) (n : Nat) : Prop :=
  ∃ g k size w, sizes[g]? = some size ∧ k < size ∧ n = start sizes g + k ∧ c.sampleIndices[g]? = some w ∧
    w.getMsbD k = true

theorem retained_iff {c : Clip} (hdb : c.db = none) (sizes : List Nat) (n : Nat) :
    Usable c sizes n ↔ Retained c sizes n := by
  constructor
  · rintro ⟨g, k, size, h1, h2, h3, h4⟩
    rcases h4 with ⟨w, h4, h5⟩ | h4 | h4
    · exact ⟨g, k, size, w, h1, h2, h3, h4, h5⟩
    · exact absurd h4 (not_inMedium_of_none hdb _ _)
    · exact absurd h4 (not_inLow_of_none hdb _ _)
  · rintro ⟨g, k, size, w, h1, h2, h3, h4, h5⟩
    exact ⟨g, k, size, h1, h2, h3, Or.inl ⟨w, h4, h5⟩⟩

/-- Without a database: the decoder uses the latest retained key frame not after the wanted one and the
earliest retained key frame not before the wanted one, reads them from the clip at the position equal to the
number of frames of their segment retained before them, and recomputes the interpolation factor for them. -/
theorem C19_nearest_retained {α : Type} (remapAlpha : α → Nat → Nat → Nat → α) (s : Settings) (hi : 0 < s.ideal)
    (hm : s.ideal < s.max) (c : Clip) (wf : WellFormed c (segmentSizes c.numSamples s))
    (hst : c.hasStrippedKeyframes = true) (hdb : c.db = none) (hN : c.numSamples < 0xFFFFFFFF) (wrapping : Bool)
    (kf0 kf1 : Nat) (hkf : KeyFramePair wrapping c.numSamples kf0 kf1) (alpha : α) :
    ∃ f0 f1, seekKeyFrames remapAlpha wrapping c kf0 kf1 alpha =
        some (f0, f1, remapAlpha alpha kf0 f0.clipIndex f1.clipIndex) ∧
      f0.clipIndex ≤ kf0 ∧ Retained c (segmentSizes c.numSamples s) f0.clipIndex ∧
      (∀ n, f0.clipIndex < n → n ≤ kf0 → ¬ Retained c (segmentSizes c.numSamples s) n) ∧
      kf1 ≤ f1.clipIndex ∧ Retained c (segmentSizes c.numSamples s) f1.clipIndex ∧
      (∀ n, kf1 ≤ n → n < f1.clipIndex → ¬ Retained c (segmentSizes c.numSamples s) n) ∧
      ∀ f, f = f0 ∨ f = f1 → f.location = .clip ∧
        ∃ k size w, (segmentSizes c.numSamples s)[f.segment]? = some size ∧ k < size ∧
          f.clipIndex = start (segmentSizes c.numSamples s) f.segment + k ∧
          c.sampleIndices[f.segment]? = some w ∧ w.getMsbD k = true ∧
          f.position = (List.range k).countP (fun j => w.getMsbD j) := by
  obtain ⟨f0, f1, h1, h2, h3, h4, h5, h6, h7, h8, h9⟩ :=
    seek_stripped remapAlpha s hi hm wf hst hN wrapping kf0 kf1 hkf alpha
  simp only [retained_iff hdb] at h3 h4 h6 h7
  refine ⟨f0, f1, h1, h2, h3, h4, h5, h6, h7, ?_⟩
  have place : ∀ f, Placed c (segmentSizes c.numSamples s) f → f.location = .clip ∧
        ∃ k size w, (segmentSizes c.numSamples s)[f.segment]? = some size ∧ k < size ∧
          f.clipIndex = start (segmentSizes c.numSamples s) f.segment + k ∧
          c.sampleIndices[f.segment]? = some w ∧ w.getMsbD k = true ∧
          f.position = (List.range k).countP (fun j => w.getMsbD j) := by
    rintro f ⟨k, size, a1, a2, a3, a4⟩
    split at a4
    · rename_i hl
      obtain ⟨⟨w', b1, b2⟩, -, -, w, b3, b4⟩ := a4
      rw [b1] at b3; cases b3
      exact ⟨hl, k, size, w', a1, a2, a3, b1, b2, b4⟩
    · exact absurd a4.1 (not_inMedium_of_none hdb _ _)
    · exact absurd a4.1 (not_inLow_of_none hdb _ _)
  rintro f (rfl | rfl)
  · exact place _ h8
  · exact place _ h9

/-- When both wanted key frames are retained they are the ones used. -/
theorem C19_retained_unchanged {α : Type} (remapAlpha : α → Nat → Nat → Nat → α) (s : Settings) (hi : 0 < s.ideal)
    (hm : s.ideal < s.max) (c : Clip) (wf : WellFormed c (segmentSizes c.numSamples s))
    (hst : c.hasStrippedKeyframes = true) (hdb : c.db = none) (hN : c.numSamples < 0xFFFFFFFF) (wrapping : Bool)
    (kf0 kf1 : Nat) (hkf : KeyFramePair wrapping c.numSamples kf0 kf1) (alpha : α)
    (h0 : Retained c (segmentSizes c.numSamples s) kf0) (h1 : Retained c (segmentSizes c.numSamples s) kf1) :
    ∃ f0 f1, seekKeyFrames remapAlpha wrapping c kf0 kf1 alpha = some (f0, f1, remapAlpha alpha kf0 kf0 kf1) ∧
      f0.clipIndex = kf0 ∧ f1.clipIndex = kf1 := by
  obtain ⟨f0, f1, a1, a2, a3, a4, a5, a6, a7, -⟩ :=
    C19_nearest_retained remapAlpha s hi hm c wf hst hdb hN wrapping kf0 kf1 hkf alpha
  have e0 : f0.clipIndex = kf0 := by
    apply Classical.byContradiction
    intro h
    exact a4 kf0 (by omega) (Nat.le_refl _) h0
  have e1 : f1.clipIndex = kf1 := by
    apply Classical.byContradiction
    intro h
    exact a7 kf1 (Nat.le_refl _) (by omega) h1
  refine ⟨f0, f1, ?_, e0, e1⟩
  rw [a1, e0, e1]

/-- Non vacuity: 6 frames of which 0, 3 and 5 are retained; seeking between 1 and 2 uses 0 and 3. -/
def sampleClip : Clip where
  numSamples := 6
  numSegments := 1
  startIndices := []
  hasStrippedKeyframes := true
  sampleIndices := [0x94000000#32]
  db := none

example : WellFormed sampleClip (segmentSizes 6 {}) ∧ KeyFramePair false 6 1 2 ∧
    seekKeyFrames (fun _ k c0 c1 => (k, c0, c1)) false sampleClip 1 2 (0, 0, 0) =
      some (⟨0, 0, .clip, 0⟩, ⟨0, 3, .clip, 1⟩, (1, 0, 3)) := by
  refine ⟨⟨by decide, by decide, by decide, by decide, ?_, fun ms h => by simp [sampleClip] at h⟩,
    ⟨by decide, by decide, Or.inr (Or.inl rfl)⟩, by decide +kernel⟩
  intro _ g size h
  obtain ⟨hg, hs⟩ := List.getElem?_eq_some_iff.1 h
  have : g = 0 := by simpa [show segmentSizes 6 {} = [6] by decide] using hg
  subst this
  have : size = 6 := by rw [← hs]; simp [show segmentSizes 6 {} = [6] by decide]
  subst this
  exact ⟨by decide, by decide, ⟨0x94000000#32, by decide, by decide⟩, ⟨0x94000000#32, by decide, by decide⟩⟩

end Acl.C19
