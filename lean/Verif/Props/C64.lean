import Verif.Props.C55
import Verif.Transform.SampleStreamsLemmas
import Verif.Transform.SampleKey
/-!
C64: while it searches for bit rates, the compressor measures the samples that will be decoded: it samples every key frame of the
segment, and for each the very floats that the decoder computes from the compressed bytes.
Specification vocabulary: `RawClip`, `RawOk` (Transform/QuantizeClip.lean), `Kept` (C49), `InSegment` (C55).
-/
namespace Acl.C64
open Acl.F32 Acl.Lerp Acl.Transform Acl.Quantize Acl.C49 Acl.Seek.Spec

variable {r : RawClip} {e : Meta.Extra} {s : Meta.Settings} {src : Meta.Source} {f : ClipFlags} {m : List (BitVec 8)}

/-- Specification: `d` is a decoded key frame of the sub-track, sample `n` of the clip, and every component is the float that is
measured for that sample at the bit rate of the sub-track in the segment. -/
def AsMeasured (fused : Bool) (r : RawClip) (b : RawBone) (kind : Kind) (n : Nat) (d : Sample) : Prop :=
  ∀ g, g < r.sizes.length → ∀ i, i < r.sizes.getD g 0 → n = r.start g + i →
    ∀ lane, evalSample fused lane d = b.measured fused r g kind i (b.bitRate g kind) lane

theorem asMeasured_of_frame (fused : Bool) (hr : RawOk r) {n g i : Nat} (hf : Frame r.quantize n g i) {b : RawBone} (hb : b ∈ r.bones) {kind : Kind}
    (ha : (b.flags kind).isConstant = false) : AsMeasured fused r b kind n (sampleOf r.quantize (b.quantize r) kind g i) := by
  obtain ⟨hg, hi, hn⟩ := C55.frame_inside hr hf
  intro g' hg' i' hi' hn' lane
  obtain ⟨rfl, rfl⟩ := frame_unique hf (C55.frame_of_inside hg' hi' hn')
  exact sample_measured hr hb ha hg lane fused hi

/-- **C64.** Take the buffer of a legal clip and any two frames to interpolate. `seek` and the decompression functions succeed;
there are two frames, the ones asked for or the nearest ones kept when key frames were stripped, such that the decoded samples of
these frames that are combined for an animated sub-track are the ones that were measured, component by component: whether
multiply-add is fused or not, provided it is the same in the compressor and the decoder. -/
theorem C64_decoded (hr : RawOk r) (h : Compressed r.quantize e s src f m) {α : Type} (remapAlpha : α → Nat → Nat → Nat → α) (wrapping : Bool)
    (kf0 kf1 : Nat) (hkf : KeyFramePair wrapping r.numSamples kf0 kf1) (alpha : α) (perTrack : Bool) (rounding : Rounding) (w : Writer)
    (hp : perTrack = true → ∀ t, t < r.bones.length → w.rounding rounding t ≠ .perTrack) :
    ∃ x n0 n1 ev, seekContext remapAlpha m wrapping kf0 kf1 alpha perTrack rounding =
        some (x, if r.stripped then remapAlpha alpha kf0 n0 n1 else alpha) ∧
      (n0 ≤ kf0 ∧ Kept r.quantize n0 ∧ ∀ n, n0 < n → n ≤ kf0 → ¬ Kept r.quantize n) ∧
      (kf1 ≤ n1 ∧ Kept r.quantize n1 ∧ ∀ n, kf1 ≤ n → n < n1 → ¬ Kept r.quantize n) ∧
      decompressTracks x w = some ev ∧
      ∀ t b kind, r.bones[t]? = some b → (b.flags kind).isConstant = false →
        ∃ d0 d1, (∀ fused, AsMeasured fused r b kind n0 d0 ∧ AsMeasured fused r b kind n1 d1) ∧
          (ev.filter fun e => e.kind = kind ∧ e.track = t) =
            (if w.skipAll kind || w.skipTrack kind t then []
             else [⟨kind, t, .animated (d0, d1) (if perTrack then .slot (w.rounding rounding t) else .contextAlpha)⟩]) ∧
          ∃ one, decompressTrack x w t = some one ∧
            one.filter (fun e => e.kind = kind) =
              [⟨kind, t, .animated (d0, d1) (if perTrack then .roundedAlpha (w.rounding rounding t) else .contextAlpha)⟩] := by
  obtain ⟨x, n0, n1, ev, hx, k0, k1, hev, g0, i0, g1, i1, f0, f1, hall⟩ := C55.decoded_frames hr h remapAlpha wrapping kf0 kf1 hkf alpha perTrack rounding w hp
  refine ⟨x, n0, n1, ev, hx, k0, k1, hev, ?_⟩
  intro t b kind hb ha
  obtain ⟨d0, d1, ⟨rfl, rfl⟩, h1, h2⟩ := hall t b kind hb ha
  have hmem := List.mem_of_getElem? hb
  exact ⟨_, _, fun fused => ⟨asMeasured_of_frame fused hr f0 hmem ha, asMeasured_of_frame fused hr f1 hmem ha⟩, h1, h2⟩

theorem isFloat_of_small {x : ℚ} (h : |rnd x| ≤ 2 ^ 120) : IsFloat (rnd x) := by
  have e := rnd_err x
  have h1 : pow2 (-24) ≤ 1 / 2 := by decide +kernel
  have h2 : pow2 (-150) ≤ 1 := by decide +kernel
  have h3 : (2 : ℚ) ^ 121 + 2 < pow2 127 := by decide +kernel
  have h4 : |x| ≤ |rnd x| + |rnd x - x| := by
    have := abs_sub_abs_le_abs_sub x (rnd x)
    rw [abs_sub_comm] at this; linarith
  have h5 : pow2 (-24) * |x| ≤ 1 / 2 * |x| := mul_le_mul_of_nonneg_right h1 (abs_nonneg _)
  refine isFloat_rnd (lt_of_le_of_lt ?_ h3)
  have h6 : (2 : ℚ) ^ 121 = 2 * 2 ^ 120 := by rw [← pow_succ']
  rw [h6]
  linarith

theorem isFloat_measured (hr : RawOk r) {b : RawBone} (hb : b ∈ r.bones) {kind : Kind} (ha : (b.flags kind).isConstant = false) (fused : Bool)
    {g i : Nat} (hg : g < r.sizes.length) (hi : i < r.sizes.getD g 0) (rate : Nat) (lane : Axis)
    (h : |b.measured fused r g kind i rate lane| ≤ 2 ^ 120) : IsFloat (b.measured fused r g kind i rate lane) := by
  have hv : IsFloat (b.value kind lane (r.start g + i)) := isFloat_ofBits (hr.finite b hb kind ha _ (hr.inside hg hi) lane).1
  unfold RawBone.measured at h ⊢
  by_cases h1 : r.isVariable kind = false
  · rw [if_pos h1]; exact hv
  · rw [if_neg h1] at h ⊢
    by_cases h2 : isRawBitRate rate = true
    · rw [if_pos h2]; exact hv
    · rw [if_neg h2] at h ⊢
      unfold RawBone.undoClip mulAdd at h ⊢
      by_cases h3 : fused = true
      · rw [if_pos h3] at h ⊢; exact isFloat_of_small h
      · rw [if_neg h3] at h ⊢; exact isFloat_of_small h

/-- **C64.** At a key frame the value of a translation or of a scale that is given to the writer is the measured one, whatever the
other key frame is: when the interpolation factor is 0, or is rounded to 0. -/
theorem C64_key_frame (hr : RawOk r) {b : RawBone} (hb : b ∈ r.bones) {kind : Kind} (ha : (b.flags kind).isConstant = false) (fused : Bool)
    {g i : Nat} (hg : g < r.sizes.length) (hi : i < r.sizes.getD g 0) {d0 : Sample} (hd : AsMeasured fused r b kind (r.start g + i) d0)
    (lane : Axis) (hsmall : |b.measured fused r g kind i (b.bitRate g kind) lane| ≤ 2 ^ 120) (d1 t : ℚ) (how : Interp) (ht : C55.weight t how = 0) :
    evalVector fused t (evalSample fused lane d0) d1 how = b.measured fused r g kind i (b.bitRate g kind) lane := by
  rw [hd g hg i hi rfl lane]
  have hf := isFloat_measured hr hb ha fused hg hi _ lane hsmall
  generalize b.measured fused r g kind i (b.bitRate g kind) lane = v at hf
  cases how with
  | contextAlpha => unfold C55.weight at ht; unfold evalVector; dsimp only at ht ⊢; rw [ht]; exact lerp_zero fused hf
  | roundedAlpha p => unfold C55.weight at ht; unfold evalVector; dsimp only at ht ⊢; rw [ht]; exact lerp_zero fused hf
  | slot p =>
    cases p with
    | none => unfold C55.weight at ht; unfold evalVector; dsimp only at ht ⊢; rw [ht]; exact lerp_zero fused hf
    | perTrack => unfold C55.weight at ht; unfold evalVector; dsimp only at ht ⊢; rw [ht]; exact lerp_zero fused hf
    | floor => rfl
    | ceil => unfold C55.weight at ht; norm_num at ht
    | nearest =>
      unfold C55.weight at ht; unfold evalVector; dsimp only at ht ⊢
      by_cases hh : t < 1 / 2
      · rw [if_pos hh]
      · rw [if_neg hh] at ht; norm_num at ht

/-- **C64.** Every key frame of a segment is measured: for the `i`-th sample of a segment the compressor computes a time, and the
key frame nearest to that time in the segment is the `i`-th; for clips of up to 2^21 samples whose duration is a float. -/
theorem C64_key (hr : RawOk r) {rate duration : ℚ} (hrate : 0 < rate ∧ rate < pow2 128) (hn : r.numSamples ≤ 2 ^ 21)
    (hd : Acl.Interp.calculateFiniteDuration r.numSamples rate = .fin duration ∨
      Acl.Interp.calculateFiniteDuration (r.numSamples + 1) rate = .fin duration)
    {g i : Nat} (hg : g < r.sizes.length) (hi : i < r.sizes.getD g 0) :
    uniformSampleKey r.numSamples rate (r.start g) (r.sizes.getD g 0) (sampleTime rate duration (r.start g) i) = some i := by
  have hpos := hr.samples.1
  refine uniformSampleKey_eq hrate hi ?_ hn ?_
  · have := hr.inside hg (show r.sizes.getD g 0 - 1 < r.sizes.getD g 0 by omega)
    omega
  · have hdur : ∀ k, r.numSamples ≤ k → k ≤ r.numSamples + 1 → Acl.Interp.calculateFiniteDuration k rate = .fin duration →
        fdiv ((r.numSamples - 1 : Nat) : ℚ) rate ≤ duration := by
      intro k k1 k2 hk
      unfold Acl.Interp.calculateFiniteDuration at hk
      split at hk
      · have h0 : duration = 0 := by cases hk; rfl
        have : r.numSamples - 1 = 0 := by omega
        rw [h0, this]
        unfold fdiv
        rw [Nat.cast_zero, zero_div, rnd_zero]
      · unfold Acl.Interp.fdivInf at hk
        split at hk
        · cases hk
          rw [ofNat_eq (by omega)]
          unfold fdiv
          refine rnd_mono (div_le_div_of_nonneg_right ?_ hrate.1.le)
          exact_mod_cast (show r.numSamples - 1 ≤ k - 1 by omega)
        · cases hk
    rcases hd with hd | hd
    · exact hdur _ le_rfl (by omega) hd
    · exact hdur _ (by omega) le_rfl hd

/-- **C64.** What is measured at a bit rate does not depend on the bit rates that were selected before, for this bone or any other:
only on the samples, the formats and the segments. -/
theorem C64_independent (fused : Bool) (b b' : RawBone) (r' : RawClip) (hs : b'.sample = b.sample) (h1 : r'.numSamples = r.numSamples)
    (h2 : r'.segmenting = r.segmenting) (h3 : r'.rotationFormat = r.rotationFormat) (h4 : r'.translationFormat = r.translationFormat)
    (h5 : r'.scaleFormat = r.scaleFormat) (g : Nat) (kind : Kind) (i rate : Nat) (lane : Axis) :
    b'.measured fused r' g kind i rate lane = b.measured fused r g kind i rate lane := by
  have hval : b'.value = b.value := by unfold RawBone.value; rw [hs]
  have hsz : r'.sizes = r.sizes := by unfold RawClip.sizes; rw [h1, h2]
  have hst : r'.start = r.start := by unfold RawClip.start; rw [hsz]
  have hvar : r'.isVariable kind = r.isVariable kind := by
    unfold RawClip.isVariable; cases kind <;> (dsimp only; first | rw [h3] | rw [h4] | rw [h5])
  have hc : ∀ lane, b'.clipRangeOf r' kind lane = b.clipRangeOf r kind lane := fun lane => by
    unfold RawBone.clipRangeOf; rw [hval, h1]
  have hcn : ∀ lane n, b'.clipNormalized r' kind lane n = b.clipNormalized r kind lane n := fun lane n => by
    unfold RawBone.clipNormalized; rw [hval, hc]
  have hsr : ∀ lane, b'.segmentRangeOf r' g kind lane = b.segmentRangeOf r g kind lane := fun lane => by
    unfold RawBone.segmentRangeOf; rw [hsz, hst]; simp only [hcn]
  have hno : ∀ lane i, b'.normalized r' g kind lane i = b.normalized r g kind lane i := fun lane i => by
    unfold RawBone.normalized; rw [hsz, hst, hcn, hsr]
  unfold RawBone.measured RawBone.undoClip RawBone.undoSegment RawBone.decayed
  rw [hval, hvar, hst, hsz, hc, hsr, hcn, hno]

/-! ### The hypotheses are met -/

/-- The clip of C55: the samples the search looks at, at other bit rates than the selected ones and at those. -/
example : C55.exBone.measured false C55.exClip 1 .rotation 1 9 .x ≠ C55.exBone.value .rotation .x 10 ∧
    C55.exBone.measured false C55.exClip 1 .rotation 1 9 .x ≠ C55.exBone.measured false C55.exClip 1 .rotation 1 5 .x ∧
    C55.exBone.measured true C55.exClip 1 .translation 1 24 .y = C55.exBone.value .translation .y 10 ∧
    C55.exBone.measured false C55.exClip 0 .translation 7 0 .x = C55.exBone.measured false C55.exClip 0 .translation 2 0 .x ∧
    |C55.exBone.measured false C55.exClip 1 .rotation 1 9 .x| ≤ 2 ^ 120 := by
  decide +kernel

/-- Metadata of one track. -/
def exSource : Meta.Source where
  isTransform := true
  listName := [104#8, 105#8]
  tracks := [C29.exTrack [97#8] Raw.invalidIndex 7#32]
  mapping := [0]
  errors := [⟨0, 0, 1, 2, 1⟩, ⟨1, 0, 0, 1, 0⟩]

theorem exSource_valid : C29.Valid exSource := ⟨by decide, by decide, by decide, by decide⟩

/-- It compresses, and frames 8 and 9, in different segments, can be asked for. -/
theorem exCompressed : ∃ m, Compressed C55.exClip.quantize ⟨false, false⟩ ⟨true, true, true, true, true⟩ exSource C49.exFlags m := by
  obtain ⟨m, hm⟩ := C55.C55_compresses (e := ⟨false, false⟩) (s := ⟨true, true, true, true, true⟩) (f := C49.exFlags) C55.exClip_ok exSource_valid
  refine ⟨m, quantize_ok C55.exClip_ok, exSource_valid, rfl, hm, ?_⟩
  have : ((C55.exClip.quantize.compress ⟨false, false⟩ ⟨true, true, true, true, true⟩ exSource C49.exFlags).map fun b => decide (b.length < 2 ^ 32)) = some true := by
    decide +kernel
  rw [hm, Option.map_some, Option.some.injEq] at this
  exact of_decide_eq_true this

example : KeyFramePair false C55.exClip.numSamples 8 9 := ⟨by decide, by decide, Or.inr (Or.inl rfl)⟩

/-- 18 samples at 30 frames per second: the last sample of the first segment and the first of the second. -/
example : Acl.Interp.calculateFiniteDuration C55.exClip.numSamples 30 = .fin (fdiv 17 30) ∧
    uniformSampleKey 18 30 0 9 (sampleTime 30 (fdiv 17 30) 0 8) = some 8 ∧
    uniformSampleKey 18 30 9 9 (sampleTime 30 (fdiv 17 30) 9 0) = some 0 ∧ (0 : ℚ) < 30 ∧ (30 : ℚ) < pow2 128 := by
  decide +kernel

/-- A clip where the time of a key frame is a little before it: the float of 9 / 49.7, times that rate. -/
example : uniformSampleKey 18 (rnd (497 / 10)) 9 9 (sampleTime (rnd (497 / 10)) (fdiv 17 (rnd (497 / 10))) 9 2) = some 2 := by
  decide +kernel

end Acl.C64
