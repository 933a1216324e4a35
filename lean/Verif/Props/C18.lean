import Verif.Transform.SeekMain
/-! C18: seeking finds the segment that holds each key frame. -/
namespace Acl.C18
open Acl.Segmenting Acl.Seek Acl.Seek.Spec

/-- In a clip split with settings that leave some slack (the library only uses the default 16/31, or no
splitting), for every legal pair of key frames, the decompressor finds for each the segment that holds it,
reads it from the clip, at its position within that segment, and keeps the interpolation factor. -/
theorem C18_finds_segments {α : Type} (remapAlpha : α → Nat → Nat → Nat → α) (s : Settings) (hi : 0 < s.ideal)
    (hm : s.ideal < s.max) (c : Clip) (wf : WellFormed c (segmentSizes c.numSamples s))
    (hst : c.hasStrippedKeyframes = false) (hN : c.numSamples < 0xFFFFFFFF) (wrapping : Bool) (kf0 kf1 : Nat)
    (hkf : KeyFramePair wrapping c.numSamples kf0 kf1) (alpha : α) :
    ∃ g0 g1 size0 size1 r0 r1, (segmentSizes c.numSamples s)[g0]? = some size0 ∧
      (segmentSizes c.numSamples s)[g1]? = some size1 ∧ r0 < size0 ∧ r1 < size1 ∧
      kf0 = start (segmentSizes c.numSamples s) g0 + r0 ∧ kf1 = start (segmentSizes c.numSamples s) g1 + r1 ∧
      seekKeyFrames remapAlpha wrapping c kf0 kf1 alpha =
        some (⟨g0, kf0, .clip, r0⟩, ⟨g1, kf1, .clip, r1⟩, alpha) :=
  seek_plain remapAlpha s hi hm wf hst hN wrapping kf0 kf1 hkf alpha

/-- The default settings have slack. -/
theorem C18_default_settings {α : Type} (remapAlpha : α → Nat → Nat → Nat → α) (c : Clip)
    (wf : WellFormed c (segmentSizes c.numSamples {})) (hst : c.hasStrippedKeyframes = false)
    (hN : c.numSamples < 0xFFFFFFFF) (wrapping : Bool) (kf0 kf1 : Nat)
    (hkf : KeyFramePair wrapping c.numSamples kf0 kf1) (alpha : α) :
    ∃ g0 g1 size0 size1 r0 r1, (segmentSizes c.numSamples {})[g0]? = some size0 ∧
      (segmentSizes c.numSamples {})[g1]? = some size1 ∧ r0 < size0 ∧ r1 < size1 ∧
      kf0 = start (segmentSizes c.numSamples {}) g0 + r0 ∧ kf1 = start (segmentSizes c.numSamples {}) g1 + r1 ∧
      seekKeyFrames remapAlpha wrapping c kf0 kf1 alpha =
        some (⟨g0, kf0, .clip, r0⟩, ⟨g1, kf1, .clip, r1⟩, alpha) :=
  C18_finds_segments remapAlpha {} (by decide) (by decide) c wf hst hN wrapping kf0 kf1 hkf alpha

/-- A clip that is split, as the compressor writes it. -/
def plainClip (n : Nat) (s : Settings) : Clip where
  numSamples := n
  numSegments := (segmentSizes n s).length
  startIndices := segmentStartIndices (segmentSizes n s)
  hasStrippedKeyframes := false
  sampleIndices := []
  db := none

theorem plainClip_wf (n : Nat) (s : Settings) (hi : 0 < s.ideal) (hm : s.ideal ≤ s.max) :
    WellFormed (plainClip n s) (segmentSizes n s) where
  numSamples := by
    rcases segmentSizes_cases n s ⟨hi, hm⟩ with ⟨h, -⟩ | ⟨-, -, h⟩
    · rw [h]; simp [plainClip]
    · rw [h]; rfl
  numSegments := rfl
  starts := fun _ => rfl
  masks := fun h => by simp [plainClip] at h
  boundaries := fun h => by simp [plainClip] at h
  db := fun ms h => by simp [plainClip] at h

/-- Slack is needed: with ideal = max = 16 (accepted by `is_valid`), 1585 samples make 100 segments and the
search for sample 1583 starts beyond the end of the start indices. -/
theorem C18_needs_slack : ({ ideal := 16, max := 16 } : Settings).isValid = true ∧
    (segmentSizes 1585 { ideal := 16, max := 16 }).length = 100 ∧
    findSegments false (plainClip 1585 { ideal := 16, max := 16 }) 1583 1584 = none := by
  decide +kernel

/-- Non vacuity: a clip of 100 samples (6 segments), key frames 50 and 51 straddle segments 2 and 3. -/
example : (segmentSizes 100 {}) = [17, 17, 17, 17, 16, 16] ∧
    KeyFramePair false 100 50 51 ∧ WellFormed (plainClip 100 {}) (segmentSizes 100 {}) ∧
    seekKeyFrames (fun a _ _ _ => a) false (plainClip 100 {}) 50 51 () =
      some (⟨2, 50, .clip, 16⟩, ⟨3, 51, .clip, 0⟩, ()) := by
  refine ⟨by decide, ⟨by decide, by decide, Or.inr (Or.inl rfl)⟩, plainClip_wf _ _ (by decide) (by decide), ?_⟩
  decide +kernel

end Acl.C18
