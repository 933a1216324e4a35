import Verif.Transform.SeekMain
/-! C27: with a database, seeking uses exactly the key frames in memory. -/
namespace Acl.C27
open Acl.Segmenting Acl.Seek Acl.Seek.Spec

/-- Whatever has been streamed in: the decoder uses the latest key frame in memory (in the clip, or in a
streamed in tier) not after the wanted one, the earliest not before the wanted one, and reads each from the
place that holds it, at the position equal to the number of frames of that segment stored there before it.
Tiers that are not streamed in have no metadata, so their frames are never used. -/
theorem C27_nearest_in_memory {α : Type} (remapAlpha : α → Nat → Nat → Nat → α) (s : Settings) (hi : 0 < s.ideal)
    (hm : s.ideal < s.max) (c : Clip) (wf : WellFormed c (segmentSizes c.numSamples s))
    (hst : c.hasStrippedKeyframes = true) (hN : c.numSamples < 0xFFFFFFFF) (wrapping : Bool) (kf0 kf1 : Nat)
    (hkf : KeyFramePair wrapping c.numSamples kf0 kf1) (alpha : α) :
    ∃ f0 f1, seekKeyFrames remapAlpha wrapping c kf0 kf1 alpha =
        some (f0, f1, remapAlpha alpha kf0 f0.clipIndex f1.clipIndex) ∧
      f0.clipIndex ≤ kf0 ∧ Usable c (segmentSizes c.numSamples s) f0.clipIndex ∧
      (∀ n, f0.clipIndex < n → n ≤ kf0 → ¬ Usable c (segmentSizes c.numSamples s) n) ∧
      kf1 ≤ f1.clipIndex ∧ Usable c (segmentSizes c.numSamples s) f1.clipIndex ∧
      (∀ n, kf1 ≤ n → n < f1.clipIndex → ¬ Usable c (segmentSizes c.numSamples s) n) ∧
      Placed c (segmentSizes c.numSamples s) f0 ∧ Placed c (segmentSizes c.numSamples s) f1 :=
  seek_stripped remapAlpha s hi hm wf hst hN wrapping kf0 kf1 hkf alpha

/-- When everything is streamed in (every frame is in the clip or in a tier), the wanted key frames
themselves are used: a fully streamed database loses nothing. -/
theorem C27_fully_streamed {α : Type} (remapAlpha : α → Nat → Nat → Nat → α) (s : Settings) (hi : 0 < s.ideal)
    (hm : s.ideal < s.max) (c : Clip) (wf : WellFormed c (segmentSizes c.numSamples s))
    (hst : c.hasStrippedKeyframes = true) (hN : c.numSamples < 0xFFFFFFFF) (wrapping : Bool) (kf0 kf1 : Nat)
    (hkf : KeyFramePair wrapping c.numSamples kf0 kf1) (alpha : α)
    (hall : ∀ n, n < c.numSamples → Usable c (segmentSizes c.numSamples s) n) :
    ∃ f0 f1, seekKeyFrames remapAlpha wrapping c kf0 kf1 alpha = some (f0, f1, remapAlpha alpha kf0 kf0 kf1) ∧
      f0.clipIndex = kf0 ∧ f1.clipIndex = kf1 := by
  obtain ⟨f0, f1, a1, a2, a3, a4, a5, a6, a7, -⟩ :=
    C27_nearest_in_memory remapAlpha s hi hm c wf hst hN wrapping kf0 kf1 hkf alpha
  have e0 : f0.clipIndex = kf0 := by
    apply Classical.byContradiction
    intro h
    exact a4 kf0 (by omega) (Nat.le_refl _) (hall _ hkf.1)
  have e1 : f1.clipIndex = kf1 := by
    apply Classical.byContradiction
    intro h
    exact a7 kf1 (Nat.le_refl _) (by omega) (hall _ hkf.2.1)
  exact ⟨f0, f1, by rw [a1, e0, e1], e0, e1⟩

/-- Non vacuity: 6 frames, 0 and 5 in the clip, 2 in the medium tier (at offset 7), 3 in the low tier which
is not streamed in: between 2 and 3 the decoder uses 2 from the tier and 5 from the clip. -/
def sampleClip : Clip where
  numSamples := 6
  numSegments := 1
  startIndices := []
  hasStrippedKeyframes := true
  sampleIndices := [0x84000000#32]
  db := some [⟨0x0000000720000000#64, 0#64⟩]

example : WellFormed sampleClip (segmentSizes 6 {}) ∧ KeyFramePair false 6 2 3 ∧
    seekKeyFrames (fun _ k c0 c1 => (k, c0, c1)) false sampleClip 2 3 (0, 0, 0) =
      some (⟨0, 2, .medium 7, 0⟩, ⟨0, 5, .clip, 1⟩, (2, 2, 5)) := by
  refine ⟨⟨by decide, by decide, by decide, by decide, ?_, ?_⟩,
    ⟨by decide, by decide, Or.inr (Or.inl rfl)⟩, by decide +kernel⟩
  · intro _ g size h
    obtain ⟨hg, hs⟩ := List.getElem?_eq_some_iff.1 h
    have : g = 0 := by simpa [show segmentSizes 6 {} = [6] by decide] using hg
    subst this
    have : size = 6 := by rw [← hs]; simp [show segmentSizes 6 {} = [6] by decide]
    subst this
    exact ⟨by decide, by decide, ⟨0x84000000#32, by decide, by decide⟩, ⟨0x84000000#32, by decide, by decide⟩⟩
  · intro ms h
    simp [sampleClip] at h
    subst h; decide

end Acl.C27
