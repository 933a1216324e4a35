import Verif.Transform.QuantizeClose
/-!
C55: the transform pipeline, from samples to decoded samples: normalization over the clip and over each segment, quantization
at any bit rates, the bytes of the clip, and decoding. What is interpolated is within a bound of the input that depends only
on the bit rate and on how much the input varies.
Specification vocabulary: `RawClip`, `RawOk` (Transform/QuantizeClip.lean), `Spread`, `tolerance` (Transform/QuantizeClose.lean),
`segmentError`, `clipError` (Transform/QuantizeLemmas.lean), `halfStep` (C38), `Kept` (C49).
-/
namespace Acl.C55
open Acl.F32 Acl.Lerp Acl.Transform Acl.Quantize Acl.C49 Acl.Seek.Spec

variable {r : RawClip} {e : Meta.Extra} {s : Meta.Settings} {src : Meta.Source} {f : ClipFlags} {m : List (BitVec 8)}

/-- Specification: sample `n` of the clip is in segment `g`. -/
def InSegment (r : RawClip) (n g : Nat) : Prop := ∃ i, i < r.sizes.getD g 0 ∧ n = r.start g + i

/-- Specification: `d` is a decoded sample of the sub-track at sample `n` of the clip: every component is within the
tolerance of the input, and without quantization it is the input, bit for bit. -/
structure Close (fused : Bool) (r : RawClip) (b : RawBone) (kind : Kind) (n : Nat) (d : Sample) : Prop where
  within : ∀ g, g < r.sizes.length → InSegment r n g → ∀ lane Ws Wc M, Spread r b kind lane g Ws Wc M →
    |evalSample fused lane d - b.value kind lane n| ≤ tolerance r b kind g Ws Wc M
  lossless : ∀ g, g < r.sizes.length → InSegment r n g → r.isVariable kind = false ∨ b.bitRate g kind = 24 →
    d = ⟨if kind = .rotation ∧ r.rotationFormat = .quatfFull then .float4 (b.sample kind n) else .float3 (b.sample kind n).xyz, none, none⟩

theorem frame_inside (hr : RawOk r) {n g i : Nat} (hf : Frame r.quantize n g i) :
    g < r.sizes.length ∧ i < r.sizes.getD g 0 ∧ n = r.start g + i := by
  obtain ⟨t, ht, hi, hn⟩ := hf
  obtain ⟨hg, rfl⟩ := segments_get ht
  refine ⟨hg, hi, ?_⟩
  rw [hn, List.map_take, segments_sizes]
  rfl

theorem frame_of_inside {n g i : Nat} (hg : g < r.sizes.length) (hi : i < r.sizes.getD g 0) (hn : n = r.start g + i) : Frame r.quantize n g i := by
  refine ⟨⟨r.start g, r.sizes.getD g 0, r.hardKeyframes g, r.segmentGarbage g⟩, ?_, hi, ?_⟩
  · unfold RawClip.quantize
    dsimp only
    rw [List.getElem?_map, List.getElem?_range hg]
    rfl
  · rw [List.map_take, segments_sizes, hn]; rfl

theorem close_of_frame (fused : Bool) (hr : RawOk r) {n g i : Nat} (hf : Frame r.quantize n g i) {b : RawBone} (hb : b ∈ r.bones) {kind : Kind}
    (ha : (b.flags kind).isConstant = false) : Close fused r b kind n (sampleOf r.quantize (b.quantize r) kind g i) := by
  obtain ⟨hg, hi, hn⟩ := frame_inside hr hf
  constructor
  · rintro g' hg' ⟨i', hi', hn'⟩ lane Ws Wc M hs
    obtain ⟨rfl, rfl⟩ := frame_unique hf (frame_of_inside hg' hi' hn')
    rw [hn]
    exact sample_close hr hb ha hg lane fused hi hs
  · rintro g' hg' ⟨i', hi', hn'⟩ hv
    obtain ⟨rfl, rfl⟩ := frame_unique hf (frame_of_inside hg' hi' hn')
    have hst : (b.quantize r).stream g kind = b.streamOf r g kind := rfl
    unfold sampleOf
    rw [hst]
    unfold RawBone.streamOf Stream.sample
    by_cases hvar : r.isVariable kind = true
    · rw [if_pos hvar]
      rcases hv with hv | hv
      · rw [hv] at hvar; simp at hvar
      · obtain ⟨-, v1, -⟩ := variableSample_rate (r := r) i (hr.rate b hb kind ha hvar g hg).1
        dsimp only
        have hne : ¬ (kind = .rotation ∧ r.rotationFormat = .quatfFull) := by
          rintro ⟨rfl, hq⟩
          unfold RawClip.isVariable RotationFormat.isVariable at hvar
          rw [hq] at hvar
          simp at hvar
        rw [if_neg (by omega), if_pos hv, v1 hv, if_neg hne, hn]
    · rw [if_neg hvar]
      dsimp only
      unfold RawBone.fixedSample
      rw [hn]

/-- **C55.** A legal clip goes through the whole compressor: whatever the bit rates, no assert fires, and every value that is
packed fits. -/
theorem C55_compresses (hr : RawOk r) (hv : C29.Valid src) : ∃ m, r.quantize.compress e s src f = some m :=
  C49_progress e s src f (quantize_ok hr) hv

/-- The frames that are decoded, and the samples that are combined. -/
theorem decoded_frames (hr : RawOk r) (h : Compressed r.quantize e s src f m) {α : Type} (remapAlpha : α → Nat → Nat → Nat → α) (wrapping : Bool)
    (kf0 kf1 : Nat) (hkf : KeyFramePair wrapping r.numSamples kf0 kf1) (alpha : α) (perTrack : Bool) (rounding : Rounding) (w : Writer)
    (hp : perTrack = true → ∀ t, t < r.bones.length → w.rounding rounding t ≠ .perTrack) :
    ∃ x n0 n1 ev, seekContext remapAlpha m wrapping kf0 kf1 alpha perTrack rounding =
        some (x, if r.stripped then remapAlpha alpha kf0 n0 n1 else alpha) ∧
      (n0 ≤ kf0 ∧ Kept r.quantize n0 ∧ ∀ n, n0 < n → n ≤ kf0 → ¬ Kept r.quantize n) ∧
      (kf1 ≤ n1 ∧ Kept r.quantize n1 ∧ ∀ n, kf1 ≤ n → n < n1 → ¬ Kept r.quantize n) ∧
      decompressTracks x w = some ev ∧
      ∃ g0 i0 g1 i1, Frame r.quantize n0 g0 i0 ∧ Frame r.quantize n1 g1 i1 ∧
      ∀ t b kind, r.bones[t]? = some b → (b.flags kind).isConstant = false →
        ∃ d0 d1, (d0 = sampleOf r.quantize (b.quantize r) kind g0 i0 ∧ d1 = sampleOf r.quantize (b.quantize r) kind g1 i1) ∧
          (ev.filter fun e => e.kind = kind ∧ e.track = t) =
            (if w.skipAll kind || w.skipTrack kind t then []
             else [⟨kind, t, .animated (d0, d1) (if perTrack then .slot (w.rounding rounding t) else .contextAlpha)⟩]) ∧
          ∃ one, decompressTrack x w t = some one ∧
            one.filter (fun e => e.kind = kind) =
              [⟨kind, t, .animated (d0, d1) (if perTrack then .roundedAlpha (w.rounding rounding t) else .contextAlpha)⟩] := by
  have hlen : r.quantize.bones.length = r.bones.length := by unfold RawClip.quantize; dsimp only; rw [List.length_map]
  obtain ⟨x, n0, n1, hx, k0, k1, hreads⟩ := C49_round_trip h remapAlpha wrapping kf0 kf1 (by rw [numSamples_quantize hr]; exact hkf) alpha perTrack rounding w
    (by rw [hlen]; exact hp)
  obtain ⟨ev, hev, -, hpose⟩ := hreads.pose
  refine ⟨x, n0, n1, ev, hx, k0, k1, hev, ?_⟩
  obtain ⟨-, ⟨g0, i0, t0, ht0, hi0, hn0, -⟩, -⟩ := k0
  obtain ⟨-, ⟨g1, i1, t1, ht1, hi1, hn1, -⟩, -⟩ := k1
  have f0 : Frame r.quantize n0 g0 i0 := ⟨t0, ht0, hi0, hn0⟩
  have f1 : Frame r.quantize n1 g1 i1 := ⟨t1, ht1, hi1, hn1⟩
  refine ⟨g0, i0, g1, i1, f0, f1, ?_⟩
  intro t b kind hb ha
  have hmem := List.mem_of_getElem? hb
  have hb' : r.quantize.bones[t]? = some (b.quantize r) := by
    unfold RawClip.quantize; dsimp only; rw [List.getElem?_map, hb]; rfl
  have hsc : kind = .scale → r.quantize.hasScale = true := by
    rintro rfl
    cases hh : r.quantize.hasScale with
    | true => rfl
    | false => rw [hr.scale hh b hmem] at ha; simp at ha
  have hexp : ∀ how, expected r.quantize w how (b.quantize r) kind t (sampleOf r.quantize (b.quantize r) kind g0 i0)
      (sampleOf r.quantize (b.quantize r) kind g1 i1) =
      some (.animated (sampleOf r.quantize (b.quantize r) kind g0 i0, sampleOf r.quantize (b.quantize r) kind g1 i1) how) := by
    intro how
    have hf1 : ((b.quantize r).flags kind).isConstant = false := ha
    have hf2 : ((b.quantize r).flags kind).isDefault = false := by
      cases hd : ((b.quantize r).flags kind).isDefault with
      | false => rfl
      | true =>
        have := hr.default b hmem kind hd
        rw [this] at ha; simp at ha
    unfold expected
    rw [hf1, hf2]
    have hcond : (false || (decide (kind = Kind.scale) && !r.quantize.hasScale)) = false := by
      by_cases hk : kind = .scale
      · rw [hsc hk]; simp
      · simp [hk]
    rw [hcond]
    simp
  refine ⟨sampleOf r.quantize (b.quantize r) kind g0 i0, sampleOf r.quantize (b.quantize r) kind g1 i1,
    ⟨rfl, rfl⟩, ?_, ?_⟩
  · rw [hpose g0 i0 g1 i1 f0 f1 t _ kind hb', hexp]
    rfl
  · refine ⟨_, hreads.single g0 i0 g1 i1 f0 f1 t _ hb', ?_⟩
    rw [List.filter_flatMap]
    have key : ∀ k' : Kind, (call k' t (expected r.quantize w (if perTrack then .roundedAlpha (w.rounding rounding t) else .contextAlpha)
        (b.quantize r) k' t (sampleOf r.quantize (b.quantize r) k' g0 i0) (sampleOf r.quantize (b.quantize r) k' g1 i1))).filter
        (fun e => decide (e.kind = kind)) = if k' = kind then
          [⟨kind, t, .animated (sampleOf r.quantize (b.quantize r) kind g0 i0, sampleOf r.quantize (b.quantize r) kind g1 i1)
            (if perTrack then .roundedAlpha (w.rounding rounding t) else .contextAlpha)⟩] else [] := by
      intro k'
      by_cases hk : k' = kind
      · subst hk
        rw [hexp, if_pos rfl]
        unfold call
        simp
      · rw [if_neg hk, List.filter_eq_nil_iff]
        intro ev' hev'
        unfold call at hev'
        split at hev'
        · rw [List.mem_singleton] at hev'
          subst hev'
          simpa using hk
        · simp at hev'
    simp only [List.flatMap_cons, List.flatMap_nil, key]
    cases kind <;> simp

/-- **C55.** Decoding: take the buffer of a legal clip and any two frames to interpolate. `seek` and the decompression functions
succeed; there are two frames `n0` and `n1`, the ones asked for or the nearest ones kept when key frames were stripped, such
that the two decoded samples `d0` and `d1` that are combined for an animated sub-track are within the tolerance of the input
samples of these frames, component by component. -/
theorem C55_decoded (hr : RawOk r) (h : Compressed r.quantize e s src f m) {α : Type} (remapAlpha : α → Nat → Nat → Nat → α) (wrapping : Bool)
    (kf0 kf1 : Nat) (hkf : KeyFramePair wrapping r.numSamples kf0 kf1) (alpha : α) (perTrack : Bool) (rounding : Rounding) (w : Writer)
    (hp : perTrack = true → ∀ t, t < r.bones.length → w.rounding rounding t ≠ .perTrack) :
    ∃ x n0 n1 ev, seekContext remapAlpha m wrapping kf0 kf1 alpha perTrack rounding =
        some (x, if r.stripped then remapAlpha alpha kf0 n0 n1 else alpha) ∧
      (n0 ≤ kf0 ∧ Kept r.quantize n0 ∧ ∀ n, n0 < n → n ≤ kf0 → ¬ Kept r.quantize n) ∧
      (kf1 ≤ n1 ∧ Kept r.quantize n1 ∧ ∀ n, kf1 ≤ n → n < n1 → ¬ Kept r.quantize n) ∧
      decompressTracks x w = some ev ∧
      ∀ t b kind, r.bones[t]? = some b → (b.flags kind).isConstant = false →
        ∃ d0 d1, (∀ fused, Close fused r b kind n0 d0 ∧ Close fused r b kind n1 d1) ∧
          (ev.filter fun e => e.kind = kind ∧ e.track = t) =
            (if w.skipAll kind || w.skipTrack kind t then []
             else [⟨kind, t, .animated (d0, d1) (if perTrack then .slot (w.rounding rounding t) else .contextAlpha)⟩]) ∧
          ∃ one, decompressTrack x w t = some one ∧
            one.filter (fun e => e.kind = kind) =
              [⟨kind, t, .animated (d0, d1) (if perTrack then .roundedAlpha (w.rounding rounding t) else .contextAlpha)⟩] := by
  obtain ⟨x, n0, n1, ev, hx, k0, k1, hev, g0, i0, g1, i1, f0, f1, hall⟩ := decoded_frames hr h remapAlpha wrapping kf0 kf1 hkf alpha perTrack rounding w hp
  refine ⟨x, n0, n1, ev, hx, k0, k1, hev, ?_⟩
  intro t b kind hb ha
  obtain ⟨d0, d1, ⟨rfl, rfl⟩, h1, h2⟩ := hall t b kind hb ha
  have hmem := List.mem_of_getElem? hb
  exact ⟨_, _, fun fused => ⟨close_of_frame fused hr f0 hmem ha, close_of_frame fused hr f1 hmem ha⟩, h1, h2⟩

/-- Specification: the weight of the second key frame; `t` is the interpolation factor of the context. -/
def weight (t : ℚ) : Interp → ℚ
  | .contextAlpha => t
  | .roundedAlpha p => Acl.Interp.applyRounding t p
  | .slot .none => t
  | .slot .perTrack => t
  | .slot .floor => 0
  | .slot .ceil => 1
  | .slot .nearest => if t < 1 / 2 then 0 else 1

theorem lerp_close {fused : Bool} {d0 d1 x0 x1 tol B a : ℚ} (h0 : |d0 - x0| ≤ tol) (h1 : |d1 - x1| ≤ tol)
    (hB0 : |x0| ≤ B) (hB1 : |x1| ≤ B) (a0 : 0 ≤ a) (a1 : a ≤ 1) {out : ℚ}
    (ho : out = lerp fused d0 d1 a ∨ (out = d0 ∧ a = 0) ∨ (out = d1 ∧ a = 1)) :
    |out - ((1 - a) * x0 + a * x1)| ≤ tol * (1 + 1 / 2 ^ 21) + B / 2 ^ 21 + pow2 (-146) := by
  have ht : 0 ≤ tol := (abs_nonneg _).trans h0
  have hB : 0 ≤ B := (abs_nonneg _).trans hB0
  have tiny := pow2_pos (-146)
  rcases ho with rfl | ⟨rfl, rfl⟩ | ⟨rfl, rfl⟩
  · have c0 : |d0| ≤ B + tol := by
      have := abs_add_le (d0 - x0) x0; rw [sub_add_cancel] at this; linarith
    have c1 : |d1| ≤ B + tol := by
      have := abs_add_le (d1 - x1) x1; rw [sub_add_cancel] at this; linarith
    have hl := lerp_err fused c0 c1 a0 a1
    have m0 : (1 - a) * |d0 - x0| ≤ (1 - a) * tol := mul_le_mul_of_nonneg_left h0 (by linarith)
    have m1 : a * |d1 - x1| ≤ a * tol := mul_le_mul_of_nonneg_left h1 a0
    have key : |((1 - a) * d0 + a * d1) - ((1 - a) * x0 + a * x1)| ≤ tol := by
      have e : ((1 - a) * d0 + a * d1) - ((1 - a) * x0 + a * x1) = (1 - a) * (d0 - x0) + a * (d1 - x1) := by ring
      rw [e]
      refine (abs_add_le _ _).trans ?_
      rw [abs_mul, abs_mul, abs_of_nonneg a0, abs_of_nonneg (by linarith : 0 ≤ 1 - a)]
      linarith
    have := abs_add_le (lerp fused d0 d1 a - ((1 - a) * d0 + a * d1)) (((1 - a) * d0 + a * d1) - ((1 - a) * x0 + a * x1))
    rw [sub_add_sub_cancel] at this
    linarith
  · have e : out - ((1 - 0) * x0 + 0 * x1) = out - x0 := by ring
    rw [e]
    have : 0 ≤ tol / 2 ^ 21 := by positivity
    have : 0 ≤ B / 2 ^ 21 := by positivity
    linarith
  · have e : out - ((1 - 1) * x0 + 1 * x1) = out - x1 := by ring
    rw [e]
    have : 0 ≤ tol / 2 ^ 21 := by positivity
    have : 0 ≤ B / 2 ^ 21 := by positivity
    linarith

/-- **C55.** Translations and scales: a component of the value given to the writer is within the tolerance (of the segment
where it is larger) of the interpolation of the two input samples, plus the rounding of the interpolation. -/
theorem C55_between (fused : Bool) {b : RawBone} {kind : Kind} {n0 n1 g0 g1 : Nat} {d0 d1 : Sample} (hg0 : g0 < r.sizes.length) (hg1 : g1 < r.sizes.length)
    (i0 : InSegment r n0 g0) (i1 : InSegment r n1 g1) (c0 : Close fused r b kind n0 d0) (c1 : Close fused r b kind n1 d1)
    (lane : Axis) {Ws Wc M tol : ℚ} (s0 : Spread r b kind lane g0 Ws Wc M) (s1 : Spread r b kind lane g1 Ws Wc M)
    (l0 : n0 < r.numSamples) (l1 : n1 < r.numSamples)
    (ht0 : tolerance r b kind g0 Ws Wc M ≤ tol) (ht1 : tolerance r b kind g1 Ws Wc M ≤ tol)
    (t : ℚ) (how : Interp) (w0 : 0 ≤ weight t how) (w1 : weight t how ≤ 1) :
    |evalVector fused t (evalSample fused lane d0) (evalSample fused lane d1) how -
        ((1 - weight t how) * b.value kind lane n0 + weight t how * b.value kind lane n1)| ≤
      tol * (1 + 1 / 2 ^ 21) + M / 2 ^ 21 + pow2 (-146) := by
  refine lerp_close (fused := fused) ((c0.within g0 hg0 i0 lane Ws Wc M s0).trans ht0) ((c1.within g1 hg1 i1 lane Ws Wc M s1).trans ht1)
    (s0.magnitude n0 l0) (s1.magnitude n1 l1) w0 w1 ?_
  cases how with
  | contextAlpha => exact Or.inl rfl
  | roundedAlpha p => exact Or.inl rfl
  | slot p =>
    cases p with
    | none => exact Or.inl rfl
    | floor => exact Or.inr (Or.inl ⟨rfl, rfl⟩)
    | ceil => exact Or.inr (Or.inr ⟨rfl, rfl⟩)
    | perTrack => exact Or.inl rfl
    | nearest =>
      unfold evalVector weight
      by_cases hh : t < 1 / 2
      · rw [if_pos hh, if_pos hh]; exact Or.inr (Or.inl ⟨rfl, rfl⟩)
      · rw [if_neg hh, if_neg hh]; exact Or.inr (Or.inr ⟨rfl, rfl⟩)

theorem halfStep_antitone {n n' : Nat} (h1 : 1 ≤ n) (h : n ≤ n') : C38.halfStep n' ≤ C38.halfStep n := by
  unfold C38.halfStep
  have p1 : (2 : ℚ) ^ 1 ≤ 2 ^ n := pow_le_pow_right₀ (by norm_num) h1
  have p2 : (2 : ℚ) ^ n ≤ 2 ^ n' := pow_le_pow_right₀ (by norm_num) h
  exact div_le_div_of_nonneg_left (by norm_num) (by linarith) (by linarith)

/-- **C55.** A higher bit rate has a lower tolerance: one more bit about halves the part that depends on the bit rate, and full
precision has none. -/
theorem C55_more_bits {b : RawBone} {kind : Kind} {g : Nat} {b' : RawBone} (h1 : 1 ≤ b.bitRate g kind) (h : b.bitRate g kind ≤ b'.bitRate g kind)
    (h24 : b'.bitRate g kind ≤ 24) {Ws Wc M : ℚ} (w1 : 0 ≤ Ws) (w2 : 0 ≤ Wc) (w3 : 0 ≤ M) :
    0 ≤ tolerance r b kind g Ws Wc M ∧ tolerance r b' kind g Ws Wc M ≤ tolerance r b kind g Ws Wc M := by
  have p2 : 0 ≤ Wc / 2 ^ 18 := by positivity
  have p3 : 0 ≤ M / 2 ^ 24 := by positivity
  have p4 : (0 : ℚ) ≤ 2 / 10 ^ 9 := by norm_num
  have q1 : ∀ n, 1 ≤ n → 0 ≤ segmentError n Ws Wc M := fun n hn => by
    unfold segmentError
    have := mul_nonneg (show 0 ≤ Ws + Wc / 60 by positivity) (C38.halfStep_bounds hn).1
    linarith
  have q2 : ∀ n, 1 ≤ n → 0 ≤ clipError n Wc M := fun n hn => by
    unfold clipError
    have := mul_nonneg w2 (C38.halfStep_bounds hn).1
    linarith
  have hnn : ∀ x : RawBone, 1 ≤ x.bitRate g kind → 0 ≤ tolerance r x kind g Ws Wc M := by
    intro x hx
    unfold tolerance
    split
    · exact le_rfl
    · rw [if_neg (by omega)]
      split
      · exact q2 _ hx
      · exact q1 _ hx
  refine ⟨hnn b h1, ?_⟩
  by_cases hb' : r.isVariable kind = false ∨ b'.bitRate g kind = 24
  · have : tolerance r b' kind g Ws Wc M = 0 := by unfold tolerance; rw [if_pos hb']
    rw [this]; exact hnn b h1
  · have hb : ¬ (r.isVariable kind = false ∨ b.bitRate g kind = 24) := by
      rintro (hc | hc)
      · exact hb' (Or.inl hc)
      · exact hb' (Or.inr (by omega))
    have hh := halfStep_antitone h1 h
    unfold tolerance
    rw [if_neg hb', if_neg hb, if_neg (show ¬ b'.bitRate g kind = 0 by omega), if_neg (show ¬ b.bitRate g kind = 0 by omega)]
    split
    · unfold clipError
      have := mul_le_mul_of_nonneg_left hh w2
      linarith
    · unfold segmentError
      have := mul_le_mul_of_nonneg_left hh (show 0 ≤ Ws + Wc / 60 by positivity)
      linarith

/-! ### A clip that meets the hypotheses: two segments, every kind of bit rate -/

def exBone : RawBone where
  flags := fun kind => if kind = .scale then ⟨true, true⟩ else ⟨false, false⟩
  rotation := ⟨0, 0, 0, 0x3F800000#32⟩
  vector := fun _ => ⟨0x3F800000#32, 0x3F800000#32, 0x3F800000#32⟩
  sample := fun _ n => ⟨BitVec.ofNat 32 (0x3F000000 + 65536 * n), BitVec.ofNat 32 (0xBF000000 + 65536 * n), 0x3E800000#32, 0#32⟩
  bitRate := fun g kind => if kind = .rotation then 9 else if g = 0 then 0 else 24
  memory := fun _ _ _ => List.replicate 16 0xAA#8

def exClip : RawClip where
  bones := [exBone]
  strippedBones := []
  hasScale := true
  rotationFormat := .dropWVariable
  translationFormat := .varBits
  scaleFormat := .varBits
  numSamples := 18
  segmenting := ⟨8, 9⟩
  stripped := false
  hardKeyframes := fun _ => 0
  segmentGarbage := fun _ => List.replicate 64 0x55#8
  garbage := fun _ => ⟨⟨0, 0, 0⟩, ⟨0, 0, 0⟩⟩

example : exClip.sizes = [9, 9] := by decide +kernel

theorem exClip_ok : RawOk exClip where
  bones := by decide
  scale := fun h => by cases h
  default := fun b hb kind => by rw [List.mem_singleton.1 hb]; cases kind <;> decide
  samples := by decide
  settings := by decide
  finite := by
    intro b hb kind _ n hn lane
    rw [List.mem_singleton.1 hb]
    have key : ∀ n, n < 18 → ∀ lane ∈ [Axis.x, .y, .z],
        (((exBone.sample .rotation n).xyz.lane lane).toNat % 2 ^ 31 < 255 * 2 ^ 23 ∧ |exBone.value .rotation lane n| ≤ 2 ^ 125) := by decide +kernel
    exact key n hn lane (by cases lane <;> decide)
  rate := by
    intro b hb kind _ _ g hg
    rw [List.mem_singleton.1 hb]
    have hl : exClip.sizes.length = 2 := by decide +kernel
    rw [hl]
    unfold exBone
    dsimp only
    split
    · omega
    · split <;> omega
  memory := fun b hb g kind i => by rw [List.mem_singleton.1 hb]; rfl
  garbage := fun g => rfl
  hard := fun h => by cases h
  small := by decide +kernel

/-- Values: the first component of the rotation of sample 10, decoded from 9 bits, and of its neighbours in the first segment of
the translation, which became constant. -/
example : |evalSample false .x (sampleOf exClip.quantize (exBone.quantize exClip) .rotation 1 1) - exBone.value .rotation .x 10| ≤ 1 / 2 ^ 11 ∧
    exBone.value .rotation .x 10 = 69 / 128 ∧
    evalSample false .x (sampleOf exClip.quantize (exBone.quantize exClip) .translation 0 1) =
      evalSample false .x (sampleOf exClip.quantize (exBone.quantize exClip) .translation 0 5) ∧
    evalSample true .y (sampleOf exClip.quantize (exBone.quantize exClip) .translation 1 1) = exBone.value .translation .y 10 := by
  decide +kernel

/-- The clip compresses, its samples have a spread, and the tolerance is small. -/
example : (∃ m, exClip.quantize.compress ⟨false, false⟩ ⟨true, true, true, true, true⟩ C29.exSource C49.exFlags = some m) ∧
    Spread exClip exBone .rotation .x 1 (1 / 4) (1 / 2) 1 ∧ tolerance exClip exBone .rotation 1 (1 / 4) (1 / 2) 1 ≤ 1 / 2 ^ 11 := by
  refine ⟨C55_compresses exClip_ok C29.exSource_valid, ⟨?_, ?_, ?_, by norm_num⟩, by decide +kernel⟩
  · have : ∀ i, i < 9 → ∀ j, j < 9 → exBone.value .rotation .x (exClip.start 1 + i) - exBone.value .rotation .x (exClip.start 1 + j) ≤ 1 / 4 := by
      decide +kernel
    have hs : exClip.sizes.getD 1 0 = 9 := by decide +kernel
    intro i j hi hj
    rw [hs] at hi hj
    exact this i hi j hj
  · have : ∀ i, i < 18 → ∀ j, j < 18 → exBone.value .rotation .x i - exBone.value .rotation .x j ≤ 1 / 2 := by decide +kernel
    exact fun i j hi hj => this i hi j hj
  · have : ∀ i, i < 18 → |exBone.value .rotation .x i| ≤ 1 := by decide +kernel
    exact this

end Acl.C55
