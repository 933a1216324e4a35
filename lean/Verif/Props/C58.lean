import Verif.Scalar.BufferLemmas
import Verif.Props.C41
import Verif.Props.C48
import Verif.Props.C50
/-!
C58: a scalar track list, from the raw samples to the value at a time. The list is compressed (loops, ranges, bit rates,
quantization, the buffer with its metadata), a context is initialized with the buffer, a looping policy is set, `seek` is
called with a time: the value each track gets is within its precision of the input.
Specification vocabulary: `InputOk`, `blend` below; `Within` in Props/C48.lean; `Interp.seek` is the clamping of the time and the
choice of the frames (C10, C11, C12).
-/
namespace Acl.C58
open Acl.F32 Acl.Interp Acl.Context Acl.Scalar
open Acl.LoopOptimize (optimizeLooping nearScalar)

/-- Specification: what is given to the compressor. -/
structure Input where
  fused : Bool
  /-- Scalar/Quantize.lean: what the precision is above the first lane -/
  upper : ℚ
  optimizeLoops : Bool
  settings : Meta.Settings
  source : Meta.Source
  list : RawList
  sampleRate : BitVec 32
  looping : Looping

def Input.compress (x : Input) : Option (List (BitVec 8)) :=
  compressScalar x.fused x.upper x.optimizeLoops x.settings x.source x.list x.sampleRate x.looping

/-- Specification: a list the compressor takes: finite samples, at least one track with an output, a sample rate, precisions that
are not negative, and a result below 4 GB (of bytes, and of bits of samples). -/
structure InputOk (x : Input) : Prop where
  samples : ValidSamples x.list
  source : C29.Valid x.source
  mapping : x.source.mapping = x.list.outputIndices
  outputs : x.list.outputIndices ≠ []
  count : x.list.numSamples ≤ 2 ^ 23 - 4
  rate : 0 < ofBits x.sampleRate ∧ ofBits x.sampleRate < pow2 128
  precision : ∀ i, i < x.source.tracks.length → 0 ≤ x.list.precision i ∧ x.upper ≤ x.list.precision i
  bits : x.list.numSamples * C48.maxFrameBits x.list < 2 ^ 32
  bytes : ∀ m, x.compress = some m → m.length < 2 ^ 32

/-- The list after the loop optimization. -/
def Input.kept (x : Input) : Nat := (optimized x.optimizeLoops x.list x.source.tracks.length x.sampleRate x.looping).numSamples
def Input.wraps (x : Input) : Bool :=
  (optimized x.optimizeLoops x.list x.source.tracks.length x.sampleRate x.looping).looping == .wrap

/-- Specification: what seek goes by, for the raw list and for the compressed one. -/
def Input.rawClip (x : Input) : Interp.Clip := ⟨x.list.numSamples, ofBits x.sampleRate, false, x.looping == .wrap⟩
def Input.clip (x : Input) : Interp.Clip := ⟨x.kept, ofBits x.sampleRate, false, x.wraps⟩

/-- Specification: the names of the rounding policies. -/
def roundingOf : Policy → Interp.Rounding
  | .none => .none
  | .floor => .floor
  | .ceil => .ceil
  | .nearest => .nearest
  | .perTrack => .perTrack

theorem policy_eq {pol : Policy} {r : Interp.Rounding} (h : roundingOf pol = r) : policy r = pol := by
  subst h; cases pol <;> rfl

/-- Specification: linear interpolation. -/
def blend (x0 x1 alpha : ℚ) : ℚ := (1 - alpha) * x0 + alpha * x1

/-- The compressed list has all the samples, or all but the last one, and then it wraps and every last sample is near the first
one. -/
theorem kept_cases (x : Input) : (x.kept = x.list.numSamples ∧ x.wraps = (x.looping == .wrap)) ∨
    (x.kept + 1 = x.list.numSamples ∧ x.wraps = true ∧ (x.looping == .wrap) = false ∧ 1 ≤ x.kept ∧ ∀ i, i < x.source.tracks.length →
      nearScalar (numSampleElements x.list.trackType) x.list.precision i (x.list.sample i 0) (x.list.sample i x.kept) = true) := by
  obtain ⟨h1, h2⟩ := C41.C41_optimized (nearScalar (numSampleElements x.list.trackType) x.list.precision) x.optimizeLoops false
    (loopContext x.list x.source.tracks.length x.sampleRate x.looping)
  unfold Input.kept Input.wraps optimized
  by_cases h : x.optimizeLoops = true ∧ x.looping ≠ .wrap ∧ false = false ∧ 2 ≤ x.list.numSamples ∧ 1 ≤ x.source.tracks.length ∧
      (∀ i < x.source.tracks.length, nearScalar (numSampleElements x.list.trackType) x.list.precision i (x.list.sample i 0)
        (x.list.sample i (x.list.numSamples - 1)) = true)
  · obtain ⟨a1, a2, -⟩ := h1 h
    right
    have e : (loopContext x.list x.source.tracks.length x.sampleRate x.looping).numSamples = x.list.numSamples := rfl
    rw [e] at a1
    generalize optimizeLooping _ _ _ _ = o at *
    refine ⟨a1, by rw [a2]; rfl, ?_, by omega, ?_⟩
    · rw [beq_eq_false_iff_ne]; exact h.2.1
    · have : o.numSamples = x.list.numSamples - 1 := by omega
      rw [this]; exact h.2.2.2.2.2
  · left
    rw [h2 h]
    exact ⟨rfl, rfl⟩

theorem sample_same (x : Input) : (optimized x.optimizeLoops x.list x.source.tracks.length x.sampleRate x.looping).sample = x.list.sample := by
  unfold optimized optimizeLooping
  repeat' split
  all_goals rfl

/-- The list that is quantized. -/
def Input.rest (x : Input) : RawList := { x.list with numSamples := x.kept }

theorem compress_eq (x : Input) : x.compress = writeBuffer x.settings x.source (quantizeList x.fused x.upper x.rest) x.sampleRate x.wraps := by
  unfold Input.compress compressScalar
  dsimp only
  rw [sample_same]
  rfl

theorem rest_valid {x : Input} (h : InputOk x) : ValidSamples x.rest :=
  ⟨h.samples.length, h.samples.finite, h.samples.bounded, by
    have := h.samples.nonempty
    show 1 ≤ x.kept
    rcases kept_cases x with h | h <;> omega⟩

theorem kept_le (x : Input) : x.kept ≤ x.list.numSamples := by
  rcases kept_cases x with h | h <;> omega

theorem duration_resolve (k : Interp.Clip) (p : Looping) : k.finiteDuration (resolveLooping k p) = k.finiteDuration p := by
  unfold Interp.Clip.finiteDuration loopedNumSamples
  cases p with
  | asCompressed =>
    unfold resolveLooping; dsimp only; split
    · rfl
    · split <;> rfl
  | clamp => rfl
  | wrap => rfl

theorem seek_resolve (k : Interp.Clip) (p : Looping) (t : ℚ) (r : Interp.Rounding) :
    Interp.seek k (resolveLooping k p) true t r = Interp.seek k p true t r := by
  unfold Interp.seek
  rw [duration_resolve]
  have : resolveLooping k (resolveLooping k p) = resolveLooping k p := by
    have := C11.resolve_ne k p
    generalize resolveLooping k p = l at *
    cases l <;> first | rfl | exact absurd rfl this
  rw [this]

/-- Where seek goes on a context: the frames and the factor of the compressed clip. -/
theorem seek_some (k : Interp.Clip) (p : Looping) (t : ℚ) (r : Interp.Rounding) (h1 : 1 ≤ k.numSamples) (hn : k.numSamples ≤ 2 ^ 23 - 4)
    (hr : 0 < k.sampleRate ∧ k.sampleRate < pow2 128) (ht : t < pow2 128) :
    ∃ n0 n1 al, Interp.seek k p true t r = some (n0, n1, al) ∧ n0 < k.numSamples ∧ n1 < k.numSamples ∧ 0 ≤ al ∧ al ≤ 1 := by
  obtain ⟨i0, i1, i2, i3, i4⟩ := C50.samples_at k (resolveLooping k p) (C11.resolve_ne k p) t r h1 hn hr ht _ rfl
  have e := duration_resolve k p
  unfold Interp.seek
  rw [if_pos rfl]
  rw [e] at i0 i1 i2 i3 i4
  generalize fmul (clampTime t (k.finiteDuration p)) k.sampleRate = X at *
  by_cases hX : X < k.numSamples
  · have hlt := floor_toNat_lt i0 hX
    have hu := applyRounding_unit (fract_unit (x := X)).1 (fract_unit (x := X)).2 r
    refine ⟨_, _, _, i3 hX, hlt, ?_, hu.1, hu.2⟩
    unfold C50.following; split
    · assumption
    · split <;> omega
  · push Not at hX
    have hu := applyRounding_unit (le_refl (0 : ℚ)) (by norm_num) r
    exact ⟨_, _, _, (i4 hX).2, by omega, by omega, hu.1, hu.2⟩

/-- Specification: a context was initialized with the tracks at `a`, given looping policy `p`, and seeked to `t`; `q` is what it
found, and the decompression functions work with `ctx`. -/
structure SeekedTo (cs : Context.Settings) (w : World) (a : Nat) (m : List (BitVec 8)) (p : Looping) (t : ℚ) (r : Interp.Rounding)
    (q : BitVec 32 × BitVec 32 × ℚ) (ctx : Scalar.Ctx) : Prop where
  seeks : ∃ x x', C20.Fresh scalarKind cs w a none p x ∧ Context.seek scalarKind cs w x t r = some x' ∧
    observe w x' = some (w.tracks a, some q, r)
  context : contextOf m q r = some ctx

/-- **Sampling at a time.** A scalar track list is compressed and the buffer is in memory at `a`. A context can be initialized
with it, and for every looping policy, time and rounding policy seek succeeds; decompressing output track `j` writes one value for
it, decompressing the whole list writes the values of the tracks that are not skipped, in order. The frames and the factor are
those of the compressed clip (the one with the policy that is in effect). Each component is interpolated between two values that
are within the precision of the track of the input samples at those frames. -/
theorem C58_sample_at_time (x : Input) (h : InputOk x) :
    ∃ m, x.compress = some m ∧
      ∀ (supported : Nat → Bool) (_ : supported 10 = true) (cs : Context.Settings) (_ : cs.clampTimes = true)
        (w : World) (a : Nat) (_ : Scalar.tracksOf supported m = some (w.tracks a)) (p : Looping) (t : ℚ) (_ : t < pow2 128) (r : Interp.Rounding)
        (pol : Policy) (_ : roundingOf pol = r) (writer : Scalar.Writer) (_ : writer.supported x.list.trackType = true)
        (_ : ∀ j, writer.perTrackRounding = true → writer.policyOf pol j ≠ .perTrack),
      ∃ (q : BitVec 32 × BitVec 32 × ℚ) (ctx : Scalar.Ctx) (n0 n1 : Nat) (value : Nat → Value), SeekedTo cs w a m p t r q ctx ∧
        Interp.seek x.clip (C50.effective cs x.clip p) true t r = some (n0, n1, q.2.2) ∧
        n0 < x.kept ∧ n1 < x.kept ∧ 0 ≤ q.2.2 ∧ q.2.2 ≤ 1 ∧
        (∀ j, j < x.list.outputIndices.length → decompressTrack ctx writer j = some [⟨x.list.trackType, j, value j⟩]) ∧
        decompressTracks ctx writer = some ((List.range x.list.outputIndices.length).flatMap fun j =>
          if writer.skip j then [] else [⟨x.list.trackType, j, value j⟩]) ∧
        ∀ j (hj : j < x.list.outputIndices.length), ∀ k < numSampleElements x.list.trackType,
          C48.Within x.fused (x.list.precision x.list.outputIndices[j]) (x.list.value x.list.outputIndices[j] n0 k)
            (x.list.value x.list.outputIndices[j] n1 k) (evalValue x.fused q.2.2 k (value j))
            (evalAlpha q.2.2 (C35.alphaOf writer pol j)) := by
  have V := rest_valid h
  have hk1 : 1 ≤ x.kept := V.nonempty
  have hkle := kept_le x
  have hcount := h.count
  have hsize : x.rest.numSamples * C48.maxFrameBits x.rest < 2 ^ 32 := by
    refine lt_of_le_of_lt (Nat.mul_le_mul_right _ ?_) h.bits
    exact hkle
  have hprec : ∀ i ∈ x.rest.outputIndices, 0 ≤ x.rest.precision i ∧ x.upper ≤ x.rest.precision i := fun i hi =>
    h.precision i (h.source.mapped i (by rw [h.mapping]; exact hi))
  have hex : ∃ m, x.compress = some m := by
    have hb := C48.frameBits_le x.fused x.upper V
    rw [C35.frameBits_eq] at hb
    obtain ⟨c0, an, hc0, -⟩ := C35.compress_layout (quantizeList x.fused x.upper x.rest) (List.replicate 20 0#8) []
      (C48.quantized_ok x.fused x.upper V).ok (lt_of_le_of_lt (Nat.mul_le_mul_left _ hb) hsize)
    rw [compress_eq]
    unfold writeBuffer dataOf
    rw [hc0, Option.bind_some, Option.bind_some]
    obtain ⟨b, T, he, -⟩ := Clip.build_shape ⟨false, false⟩ x.settings x.source
      (tracksHeader (quantizeList x.fused x.upper x.rest) x.sampleRate x.wraps) (floatsBytes (headerWords c0) ++ c0.bytes.drop 20) h.source
    exact ⟨_, he⟩
  obtain ⟨m, hm⟩ := hex
  refine ⟨m, hm, ?_⟩
  intro supported hsup cs hcl w a ha p t ht r pol hr writer hws hpol
  obtain rfl := policy_eq hr
  have hlen := h.bytes m hm
  rw [compress_eq] at hm
  obtain ⟨clip, o⟩ := opened x.settings x.source h.source (quantizeList x.fused x.upper x.rest) x.sampleRate x.wraps m h.mapping
    (by show x.kept < 2 ^ 32; omega) hm hlen
  obtain ⟨header, tail, -, htail, hcomp⟩ := o.same
  obtain ⟨tr, t1, t2, t3, t4, t5, t6⟩ := o.tracks supported
  rw [ha, Option.some.injEq] at t1
  subst t1
  have hclip : (w.tracks a).clip = x.clip := t6 h.outputs
  obtain ⟨n0, n1, al, s1, s2, s3, s4, s5⟩ := seek_some x.clip (C50.effective cs x.clip p) t r hk1 (by show x.kept ≤ _; omega) h.rate ht
  obtain ⟨clip', hc', hnt, hv⟩ := C48.C48_precision x.fused x.upper x.rest V hprec hsize header tail htail
  rw [hcomp, Option.some.injEq] at hc'
  subst hc'
  have hv := hv n0 n1 s2 s3 writer (policy r) hws
  choose value hval using fun (j : Fin x.list.outputIndices.length) => hv j.1 j.2 (hpol j.1)
  -- the context
  obtain ⟨y, hy, y1, y2, y3, y4, y5⟩ := C50.fresh_exists scalarKind cs w a none (Or.inr rfl) p (by unfold checks; simp [t2, t3, hsup])
  rw [hclip] at y4 y5
  have heff : C20.eff cs y = C50.effective cs x.clip p := by
    unfold C20.eff; rw [y4]
    cases hw : cs.wrapping with
    | true => rfl
    | false => unfold C50.effective; rw [hw]; rfl
  have htime : C20.usedTime cs y t = clampTime t (x.clip.finiteDuration (C50.effective cs x.clip p)) := by
    unfold C20.usedTime; rw [hcl, y5, y4]; rfl
  have hnon : 0 ≤ clampTime t (x.clip.finiteDuration (C50.effective cs x.clip p)) := C20.clampTime_nonneg _ h.rate.1 _ _
  have hres : resolveLooping x.clip (C50.effective cs x.clip p) = C50.effective cs x.clip p := by
    have := C50.effective_ne cs x.clip p
    generalize C50.effective cs x.clip p = l at *
    cases l <;> first | rfl | exact absurd rfl this
  have hq : Context.seek scalarKind cs w y t r = some { y with
      sampleTime := C20.usedTime cs y t, rounding := r,
      seen := some (BitVec.ofNat 32 n0 * BitVec.ofNat 32 clip.numBitsPerFrame, BitVec.ofNat 32 n1 * BitVec.ofNat 32 clip.numBitsPerFrame, al) } := by
    rw [C20.seek_eq y1, if_neg (by
      show ¬ ((w.tracks a).clip.numSamples == 0) = true
      rw [hclip]; show ¬ (x.kept == 0) = true
      rw [beq_iff_eq]; omega), if_neg (by rw [y3, htime]; rintro ⟨h, -⟩; linarith), heff, y2]
    have e : scalarKind.compute cs w (w.tracks a) none (C50.effective cs x.clip p) (C20.usedTime cs y t) r =
        some (BitVec.ofNat 32 n0 * BitVec.ofNat 32 clip.numBitsPerFrame, BitVec.ofNat 32 n1 * BitVec.ofNat 32 clip.numBitsPerFrame, al) := by
      show ((samplesWithRate (w.tracks a).clip.numSamples (w.tracks a).clip.sampleRate _ r _).bind _) = _
      unfold Interp.seek at s1
      rw [if_pos rfl, hres] at s1
      rw [hclip, htime, s1, Option.bind_some, t5]
      rfl
    rw [e, Option.bind_some]
  have hu : ∀ n : Nat, (BitVec.ofNat 32 n * BitVec.ofNat 32 clip.numBitsPerFrame).toNat = u32 (n * clip.numBitsPerFrame) := by
    intro n
    rw [BitVec.toNat_mul, BitVec.toNat_ofNat, BitVec.toNat_ofNat, ← Nat.mul_mod]
    rfl
  have hctx : contextOf m (BitVec.ofNat 32 n0 * BitVec.ofNat 32 clip.numBitsPerFrame, BitVec.ofNat 32 n1 * BitVec.ofNat 32 clip.numBitsPerFrame, al) r =
      some (seekTo clip (policy r) n0 n1) := by
    unfold contextOf seekTo
    rw [o.reads, Option.bind_some]
    dsimp only
    rw [hu, hu]
  have hout : x.list.outputIndices.length ≠ 0 := fun hz => h.outputs (List.length_eq_zero_iff.1 hz)
  refine ⟨_, _, n0, n1, fun j => if hj : j < x.list.outputIndices.length then value ⟨j, hj⟩ else .constant [], ⟨⟨y, _, hy, hq, ?_⟩, hctx⟩, s1,
    s2, s3, s4, s5, ?_, ?_, ?_⟩
  · unfold observe
    dsimp only
    rw [y1]
    dsimp only
    rw [if_neg]
    rintro (hz | hz)
    · rw [t4] at hz; exact hout hz
    · rw [htime] at hz; linarith
  · intro j hj
    dsimp only
    rw [dif_pos hj]
    exact (hval ⟨j, hj⟩).1
  · refine (C34.C34_pose_is_tracks _ writer _ rfl (Nat.mod_lt _ (by decide)) (Nat.mod_lt _ (by decide))).2
      ⟨fun j => [⟨x.list.trackType, j, if hj : j < x.list.outputIndices.length then value ⟨j, hj⟩ else .constant []⟩], ?_, ?_⟩
    · intro j hj
      have hj' : j < x.list.outputIndices.length := lt_of_lt_of_eq hj hnt
      dsimp only
      rw [dif_pos hj']
      exact (hval ⟨j, hj'⟩).1
    · show _ = (List.range clip.numTracks).flatMap _
      rw [hnt]
      rfl
  · intro j hj k hk
    dsimp only
    rw [dif_pos hj]
    exact (hval ⟨j, hj⟩).2 k hk al

/-- The end of the input samples at a frame, against the frame the compressed list has for it. -/
theorem frame_close {x : Input} (h : InputOk x) {i : Nat} (hi : i ∈ x.list.outputIndices) {f : Nat} (hf : f < x.list.numSamples) {k : Nat}
    (hk : k < numSampleElements x.list.trackType) :
    |x.list.value i (f % x.kept) k - x.list.value i f k| ≤
      if x.kept = x.list.numSamples then 0 else x.list.precision i * (1 + 1 / 2 ^ 23) + pow2 (-149) := by
  have hmem : i < x.source.tracks.length := h.source.mapped i (by rw [h.mapping]; exact hi)
  have t := pow2_pos (-149)
  have hp := (h.precision i hmem).1
  rcases kept_cases x with ⟨e, -⟩ | ⟨e, -, -, h1, h2⟩
  · rw [if_pos e, e, Nat.mod_eq_of_lt hf, sub_self, abs_zero]
  · rw [if_neg (by omega)]
    by_cases hl : f < x.kept
    · rw [Nat.mod_eq_of_lt hl, sub_self, abs_zero]
      have : 0 ≤ x.list.precision i * (1 + 1 / 2 ^ 23) := by positivity
      linarith
    · have hfk : f = x.kept := by omega
      rw [hfk, Nat.mod_self]
      have h3 := h2 i hmem
      unfold nearScalar at h3
      rw [List.all_eq_true] at h3
      exact C48.exact_of_fsub (of_decide_eq_true (h3 k (List.mem_range.mpr hk)))

/-- The frames of the raw list at a time, and those of the compressed list. -/
theorem same_frames {x : Input} (h : InputOk x) (t : ℚ) (ht : t < pow2 128) (r : Interp.Rounding) {n0 n1 : Nat} {al : ℚ}
    (hs : Interp.seek x.clip .asCompressed true t r = some (n0, n1, al)) :
    ∃ i0 i1 b, Interp.seek x.rawClip .asCompressed true t r = some (i0, i1, b) ∧ i0 < x.list.numSamples ∧ i1 < x.list.numSamples ∧
      n0 = i0 % x.kept ∧ n1 = i1 % x.kept ∧ (b = al ∨ i0 = i1) := by
  obtain ⟨i0, i1, b, s1, s2, s3, -, -⟩ := seek_some x.rawClip .asCompressed t r h.samples.nonempty h.count h.rate ht
  refine ⟨i0, i1, b, s1, s2, s3, ?_⟩
  have s2' : i0 < x.list.numSamples := s2
  have s3' : i1 < x.list.numSamples := s3
  rcases kept_cases x with ⟨e, e'⟩ | ⟨e, e', e'', h1, -⟩
  · have hc : x.clip = x.rawClip := by unfold Input.clip Input.rawClip; rw [e, e']
    rw [hc, s1] at hs
    injection hs with hs
    injection hs with a1 hs
    injection hs with a2 a3
    rw [e, Nat.mod_eq_of_lt s2', Nat.mod_eq_of_lt s3']
    exact ⟨a1.symm, a2.symm, Or.inl a3⟩
  · have hcount := h.count
    obtain ⟨-, -, j0, j1, a, b', c1, c2, c3⟩ := C41.C41_same_samples x.clip (ofBits x.sampleRate) t x.list.numSamples r (by omega) hcount h.rate ht
      (by unfold Input.clip; rw [e', show x.kept = x.list.numSamples - 1 by omega])
    have hc : x.rawClip = Clip.mk x.list.numSamples (ofBits x.sampleRate) false false := by unfold Input.rawClip; rw [e'']
    rw [hc, c1] at s1
    rw [c2] at hs
    injection s1 with s1
    injection s1 with a1 s1
    injection s1 with a2 a3
    injection hs with hs
    injection hs with b1 hs
    injection hs with b2 b3
    subst a1 a2 a3
    rw [show x.kept = x.list.numSamples - 1 by omega]
    exact ⟨b1.symm, b2.symm, c3.elim (fun h => Or.inl (h.trans b3)) (fun h => Or.inr (h.1.trans h.2.symm))⟩

theorem evalAlpha_unit {b : ℚ} (h0 : 0 ≤ b) (h1 : b ≤ 1) (al : Alpha) : 0 ≤ evalAlpha b al ∧ evalAlpha b al ≤ 1 := by
  cases al with
  | seek => exact ⟨h0, h1⟩
  | zero => exact applyRounding_unit h0 h1 .floor
  | one => exact applyRounding_unit h0 h1 .ceil
  | roundedNearest => exact applyRounding_unit h0 h1 .nearest

/-- **Accuracy.** Sampling the compressed list at a time, with the looping policy it was compressed with, against sampling the raw
list at that time: each component of each track differs from the linear interpolation of the input samples by at most the precision
of the track (twice the precision when the last sample was dropped because it is near the first one), plus rounding. -/
theorem C58_accuracy (x : Input) (h : InputOk x) :
    ∃ m, x.compress = some m ∧
      ∀ (supported : Nat → Bool) (_ : supported 10 = true) (cs : Context.Settings) (_ : cs.clampTimes = true) (_ : cs.wrapping = true)
        (w : World) (a : Nat) (_ : Scalar.tracksOf supported m = some (w.tracks a)) (t : ℚ) (_ : t < pow2 128) (r : Interp.Rounding)
        (pol : Policy) (_ : roundingOf pol = r) (writer : Scalar.Writer) (_ : writer.supported x.list.trackType = true)
        (_ : ∀ j, writer.perTrackRounding = true → writer.policyOf pol j ≠ .perTrack),
      ∃ (q : BitVec 32 × BitVec 32 × ℚ) (ctx : Scalar.Ctx) (i0 i1 : Nat) (b : ℚ), SeekedTo cs w a m .asCompressed t r q ctx ∧
        Interp.seek x.rawClip .asCompressed true t r = some (i0, i1, b) ∧
        ∀ j (hj : j < x.list.outputIndices.length), ∃ value, decompressTrack ctx writer j = some [⟨x.list.trackType, j, value⟩] ∧
          ∀ k < numSampleElements x.list.trackType, ∀ B : ℚ,
            (∀ f < x.list.numSamples, |x.list.value x.list.outputIndices[j] f k| ≤ B) →
            |evalValue x.fused q.2.2 k value - blend (x.list.value x.list.outputIndices[j] i0 k) (x.list.value x.list.outputIndices[j] i1 k)
                (evalAlpha b (C35.alphaOf writer pol j))| ≤
              (if x.kept = x.list.numSamples then 1 else 2) * x.list.precision x.list.outputIndices[j] * (1 + 1 / 2 ^ 20) + B / 2 ^ 21 + pow2 (-144) := by
  obtain ⟨m, hm, H⟩ := C58_sample_at_time x h
  refine ⟨m, hm, ?_⟩
  intro supported hsup cs hcl hwr w a ha t ht r pol hr writer hws hpol
  obtain ⟨q, ctx, n0, n1, value, d1, d2, d3, d4, d5, d6, d7, -, d8⟩ := H supported hsup cs hcl w a ha .asCompressed t ht r pol hr writer hws hpol
  have heff : C50.effective cs x.clip .asCompressed = resolveLooping x.clip .asCompressed := by unfold C50.effective; rw [hwr]; rfl
  rw [heff, seek_resolve] at d2
  obtain ⟨i0, i1, b, e1, e2, e3, e4, e5, e6⟩ := same_frames h t ht r d2
  refine ⟨q, ctx, i0, i1, b, d1, e1, fun j hj => ⟨value j, d7 j hj, fun k hk B hB => ?_⟩⟩
  have hi : x.list.outputIndices[j] ∈ x.list.outputIndices := List.getElem_mem hj
  have hw := d8 j hj k hk
  have hp := (h.precision _ (h.source.mapped _ (by rw [h.mapping]; exact hi))).1
  generalize x.list.outputIndices[j] = i at *
  have hkle := kept_le x
  have hu := evalAlpha_unit d5 d6 (C35.alphaOf writer pol j)
  have key := C48.C48_between hu.1 hu.2 (hB n0 (by omega)) (hB n1 (by omega)) hw
  have c0 := frame_close h hi e2 hk
  have c1 := frame_close h hi e3 hk
  rw [← e4] at c0
  rw [← e5] at c1
  have hfac : blend (x.list.value i i0 k) (x.list.value i i1 k) (evalAlpha b (C35.alphaOf writer pol j)) =
      blend (x.list.value i i0 k) (x.list.value i i1 k) (evalAlpha q.2.2 (C35.alphaOf writer pol j)) := by
    rcases e6 with e | e
    · rw [e]
    · rw [e]; unfold blend; ring
  rw [hfac]
  generalize evalAlpha q.2.2 (C35.alphaOf writer pol j) = al at *
  generalize evalValue x.fused q.2.2 k (value j) = out at *
  generalize x.list.precision i = pr at *
  unfold blend
  set D := (if x.kept = x.list.numSamples then (0 : ℚ) else pr * (1 + 1 / 2 ^ 23) + pow2 (-149)) with hD
  have m0 : (1 - al) * |x.list.value i n0 k - x.list.value i i0 k| ≤ (1 - al) * D := mul_le_mul_of_nonneg_left c0 (by linarith [hu.2])
  have m1 : al * |x.list.value i n1 k - x.list.value i i1 k| ≤ al * D := mul_le_mul_of_nonneg_left c1 hu.1
  have hmv : |((1 - al) * x.list.value i n0 k + al * x.list.value i n1 k) - ((1 - al) * x.list.value i i0 k + al * x.list.value i i1 k)| ≤ D := by
    have e : ((1 - al) * x.list.value i n0 k + al * x.list.value i n1 k) - ((1 - al) * x.list.value i i0 k + al * x.list.value i i1 k) =
        (1 - al) * (x.list.value i n0 k - x.list.value i i0 k) + al * (x.list.value i n1 k - x.list.value i i1 k) := by ring
    rw [e]
    refine (abs_add_le _ _).trans ?_
    rw [abs_mul, abs_mul, abs_of_nonneg hu.1, abs_of_nonneg (by linarith [hu.2] : 0 ≤ 1 - al)]
    linarith
  have := abs_add_le (out - ((1 - al) * x.list.value i n0 k + al * x.list.value i n1 k))
    (((1 - al) * x.list.value i n0 k + al * x.list.value i n1 k) - ((1 - al) * x.list.value i i0 k + al * x.list.value i i1 k))
  rw [sub_add_sub_cancel] at this
  have p0 : pow2 (-144) = 32 * pow2 (-149) := by decide +kernel
  have p1 : pow2 (-145) = 16 * pow2 (-149) := by decide +kernel
  have p2 := pow2_pos (-149)
  rw [p0]; rw [p1] at key
  by_cases hkk : x.kept = x.list.numSamples
  · rw [if_pos hkk] at hD ⊢
    norm_num at key ⊢
    linarith
  · rw [if_neg hkk] at hD ⊢
    norm_num at key hD ⊢
    linarith

/-! ### Example -/

/-- Three float2 tracks of four samples: track 1 has no output, track 0 comes back to its first sample within the precision,
track 2 stays within its precision. -/
def example_input : Input where
  fused := true
  upper := 1 / 100
  optimizeLoops := true
  settings := ⟨true, true, false, true, false⟩
  source := {
    isTransform := false
    listName := [0x61#8]
    tracks := List.replicate 3 ⟨[0x62#8], 0, 0x3c23d70a#32, 0, ⟨0, 0, 0, 0⟩, ⟨0, 0, 0⟩, ⟨0, 0, 0⟩⟩
    mapping := [2, 0]
    errors := [] }
  list := {
    trackType := .float2f
    numSamples := 4
    outputIndices := [2, 0]
    precision := fun _ => 1 / 100
    sample := fun i s =>
      if i = 0 then (if s = 1 then [0x3eaaaaab#32, 0x3f800000#32] else if s = 2 then [0x3f800000#32, 0x3fc00000#32] else
        if s = 3 then [0x3b800000#32, 0x3f800000#32] else [0#32, 0x3f800000#32])
      else if s = 1 then [0x3f800000#32, 0x40000001#32] else [0x3f800000#32, 0x40000000#32] }
  sampleRate := 0x41f00000#32
  looping := .clamp

/-- The last sample is dropped, the list wraps, and the buffer has 132 bytes. -/
theorem example_facts : example_input.kept = 3 ∧ example_input.wraps = true ∧ (example_input.compress.map List.length) = some 132 := by
  decide +kernel

theorem example_ok : InputOk example_input := by
  have h : ∀ i s, example_input.list.sample i s ∈ [[0#32, 0x3f800000#32], [0x3eaaaaab#32, 0x3f800000#32], [0x3f800000#32, 0x3fc00000#32],
      [0x3b800000#32, 0x3f800000#32], [0x3f800000#32, 0x40000001#32], [0x3f800000#32, 0x40000000#32]] := by
    intro i s
    show (if i = 0 then _ else _) ∈ _
    repeat' split
    all_goals simp
  have h2 : ([[0#32, 0x3f800000#32], [0x3eaaaaab#32, 0x3f800000#32], [0x3f800000#32, 0x3fc00000#32],
      [0x3b800000#32, 0x3f800000#32], [0x3f800000#32, 0x40000001#32], [0x3f800000#32, 0x40000000#32]].all fun l => decide (l.length = 2) &&
        l.all fun b => decide (b.toNat % 2 ^ 31 < 255 * 2 ^ 23) && decide (|ofBits b| ≤ 8)) = true := by decide +kernel
  rw [List.all_eq_true] at h2
  have h3 : ∀ i s, (example_input.list.sample i s).length = 2 ∧ ∀ b ∈ example_input.list.sample i s, Finite32 b ∧ |ofBits b| ≤ 8 := by
    intro i s
    have := h2 _ (h i s)
    simp only [Bool.and_eq_true, decide_eq_true_eq, List.all_eq_true] at this
    exact this
  refine ⟨⟨fun i _ s => (h3 i s).1, fun i _ s b hb => ((h3 i s).2 b hb).1, fun i _ s b hb => ((h3 i s).2 b hb).2.trans (by norm_num), by decide⟩,
    ⟨by decide, by decide, by decide, by decide⟩, rfl, by decide, by decide, by decide +kernel,
    fun _ _ => ⟨show (0 : ℚ) ≤ 1 / 100 by norm_num, le_rfl⟩, by decide, ?_⟩
  intro m hm
  have := example_facts.2.2
  rw [hm, Option.map_some, Option.some.injEq] at this
  omega

end Acl.C58
