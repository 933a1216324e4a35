import Verif.Core.LoopOptimize
import Verif.Core.InterpolationLemmas
import Verif.Props.C11
/-!
C41: looping clips repeat, and dropping the last sample of a clip that loops does not change what is sampled.
-/
namespace Acl.C41
open Acl.F32 Acl.Interp Acl.LoopOptimize

/-- With wrap the duration covers one more interval than with clamp: `n` intervals instead of `n - 1`. -/
theorem C41_duration (c : Clip) (hn1 : 1 ≤ c.numSamples) (hn : c.numSamples < 2 ^ 24) :
    c.finiteDuration .wrap = fdivInf c.numSamples c.sampleRate ∧
    c.finiteDuration .clamp = fdivInf ((c.numSamples : ℚ) - 1) c.sampleRate := by
  have e1 : (c.numSamples + 1) % 2 ^ 32 = c.numSamples + 1 := Nat.mod_eq_of_lt (by omega)
  have l1 : loopedNumSamples c .wrap = c.numSamples + 1 := by
    unfold loopedNumSamples
    rw [if_pos ⟨rfl, by omega⟩, e1]
  have l2 : loopedNumSamples c .clamp = c.numSamples := by
    unfold loopedNumSamples
    rw [if_neg (by simp [resolveLooping])]
  unfold Clip.finiteDuration
  rw [l1, l2]
  unfold calculateFiniteDuration
  constructor
  · rw [if_neg (by omega), Nat.add_sub_cancel, ofNat_eq hn]
  · by_cases h : c.numSamples ≤ 1
    · rw [if_pos h]
      have : c.numSamples = 1 := by omega
      rw [this]
      unfold fdivInf fdiv
      rw [Nat.cast_one, sub_self, zero_div, rnd_zero, if_pos (pow2_pos _)]
    · rw [if_neg h, ofNat_eq (show c.numSamples - 1 < 2 ^ 24 by omega), Nat.cast_sub hn1, Nat.cast_one]

/-- Sampling a wrapping clip at its start returns sample 0, and so does sampling at or after its end: exactly with
nearest rounding, up to a weight of n/2^23 + 2^-21 without rounding. -/
theorem C41_start_and_end (c : Clip) (p : Looping) (t d : ℚ) (r : Rounding) (hwrap : resolveLooping c p = .wrap)
    (hn1 : 1 ≤ c.numSamples) (hn : c.numSamples ≤ 2 ^ 21)
    (hr : 0 < c.sampleRate ∧ c.sampleRate < pow2 128)
    (hd : c.finiteDuration p = .fin d) (hd0 : 0 ≤ d) (ht : d ≤ t) (hrnd : r = .none ∨ r = .perTrack ∨ r = .nearest) :
    ∃ i0 i1 a j0 j1 b, seek c p true 0 r = some (i0, i1, a) ∧ seek c p true t r = some (j0, j1, b) ∧
      C11.weightOf 0 i0 i1 a = 1 ∧
      (r = .nearest → C11.weightOf 0 j0 j1 b = 1) ∧ 1 - c.numSamples / 2 ^ 23 - 1 / 2 ^ 21 ≤ C11.weightOf 0 j0 j1 b := by
  obtain ⟨j0, j1, b, h1, h2, h3⟩ := C11.C11_loop_end c p t d r hwrap hn1 hn hr hd ht
  have hn' : (2 : Nat) ^ 21 ≤ 2 ^ 24 := by norm_num
  have hs : seek c p true 0 r = some (0, (if c.numSamples ≤ 1 then 0 else 1), applyRounding 0 r) := by
    unfold seek samplesWithRate fmul
    simp only [if_true]
    rw [hd, hwrap]
    have e : clampTime 0 (.fin d) = 0 := by
      unfold clampTime; simp only []; rw [max_self, min_eq_left hd0]
    rw [e, zero_mul, rnd_zero,
      samples_wrap r (by simp) hn1 (by omega) le_rfl ⟨0, 0, by simp, by decide, by decide, by decide⟩ (by exact_mod_cast hn1)]
    norm_num
  refine ⟨_, _, _, j0, j1, b, hs, h1, ?_, fun h => h2 (Or.inr h), ?_⟩
  · have e : applyRounding 0 r = 0 := by
      rcases hrnd with rfl | rfl | rfl
      · rfl
      · rfl
      · exact nearest_below le_rfl (by norm_num)
    rw [e]; unfold C11.weightOf
    simp
  · rcases hrnd with h | h | h
    · exact h3 (Or.inl h)
    · exact h3 (Or.inr h)
    · rw [h2 (Or.inr h)]
      have : (0 : ℚ) ≤ c.numSamples := by positivity
      have h4 : (0 : ℚ) ≤ c.numSamples / 2 ^ 23 := by positivity
      linarith [show (0 : ℚ) ≤ 1 / 2 ^ 21 by positivity]

section
variable {S : Type} (near : Nat → S → S → Bool) (enabled isRaw : Bool) (c : Context S)

/-- A clip is optimized exactly when the option is on, it is not yet wrapping, it is not a raw clip, it has at least
two samples, at least one track and every last sample is near the first one; then the last sample is dropped and
nothing else changes. In every other case the clip is unchanged. -/
theorem C41_optimized :
    let o := optimizeLooping enabled isRaw near c
    (enabled = true ∧ c.looping ≠ .wrap ∧ isRaw = false ∧ 2 ≤ c.numSamples ∧ 1 ≤ c.numTracks ∧
      (∀ i < c.numTracks, near i (c.sample i 0) (c.sample i (c.numSamples - 1)) = true) →
      o.numSamples + 1 = c.numSamples ∧ o.looping = .wrap ∧ resolveLooping (headerOf o) .asCompressed = .wrap ∧
      o.numTracks = c.numTracks ∧ o.sampleRate = c.sampleRate ∧ o.sample = c.sample) ∧
    (¬ (enabled = true ∧ c.looping ≠ .wrap ∧ isRaw = false ∧ 2 ≤ c.numSamples ∧ 1 ≤ c.numTracks ∧
      (∀ i < c.numTracks, near i (c.sample i 0) (c.sample i (c.numSamples - 1)) = true)) → o = c) := by
  have hall : isLooping near c = true ↔ ∀ i < c.numTracks, near i (c.sample i 0) (c.sample i (c.numSamples - 1)) = true := by
    unfold isLooping
    rw [List.all_eq_true]
    exact ⟨fun h i hi => h i (List.mem_range.mpr hi), fun h i hi => h i (List.mem_range.mp hi)⟩
  refine ⟨?_, ?_⟩
  · rintro ⟨h1, h2, h3, h4, h5, h6⟩
    unfold optimizeLooping
    rw [if_neg (by simp [h1]), if_neg h2, if_neg (by simp [h3]), if_neg (by omega), if_neg (by omega), if_pos (hall.mpr h6)]
    exact ⟨Nat.sub_add_cancel (by omega), rfl, rfl, rfl, rfl, rfl⟩
  · intro h
    unfold optimizeLooping
    split
    · rfl
    · next h1 =>
      split
      · rfl
      · next h2 =>
        split
        · rfl
        · next h3 =>
          split
          · rfl
          · next h4 =>
            split
            · rfl
            · next h5 =>
              split
              · next h6 => exact absurd ⟨by simpa using h1, h2, by simpa using h3, by omega, by omega, hall.mp h6⟩ h
              · rfl

end

/-- The clip with its last sample dropped, wrapping, against the clip with all its samples, clamping: the durations are
the same, and at every time the two samples found are the same ones, the dropped sample being replaced by the first
one. The factor is the same too, unless both samples are the same one (and it does not matter). -/
theorem C41_same_samples (c : Clip) (rate t : ℚ) (n : Nat) (r : Rounding) (hn2 : 2 ≤ n) (hn : n ≤ 2 ^ 23 - 4)
    (hr : 0 < rate ∧ rate < pow2 128) (ht : t < pow2 128)
    (hc : c = Clip.mk (n - 1) rate false true) :
    c.finiteDuration .asCompressed = (Clip.mk n rate false false).finiteDuration .asCompressed ∧
    c.duration .asCompressed = (Clip.mk n rate false false).duration .asCompressed ∧
    ∃ i0 i1 a b, seek (Clip.mk n rate false false) .asCompressed true t r = some (i0, i1, a) ∧
      seek c .asCompressed true t r = some (i0 % (n - 1), i1 % (n - 1), b) ∧
      (a = b ∨ (i0 = n - 1 ∧ i1 = n - 1)) := by
  subst hc
  have e1 : (n - 1 + 1) % 2 ^ 32 = n := by rw [Nat.sub_add_cancel (by omega)]; exact Nat.mod_eq_of_lt (by omega)
  have l1 : loopedNumSamples (Clip.mk (n - 1) rate false true) .asCompressed = n := by
    unfold loopedNumSamples
    rw [if_pos ⟨rfl, by show n - 1 ≠ 0; omega⟩]; exact e1
  have l2 : loopedNumSamples (Clip.mk n rate false false) .asCompressed = n := by
    unfold loopedNumSamples
    rw [if_neg (by simp [resolveLooping])]
  have d1 : (Clip.mk (n - 1) rate false true).finiteDuration .asCompressed = calculateFiniteDuration n rate := by
    unfold Clip.finiteDuration; rw [l1]
  have d2 : (Clip.mk n rate false false).finiteDuration .asCompressed = calculateFiniteDuration n rate := by
    unfold Clip.finiteDuration; rw [l2]
  refine ⟨by rw [d1, d2], by unfold Clip.duration; rw [l1, l2], ?_⟩
  unfold seek
  simp only [if_true]
  rw [d1, d2]
  obtain ⟨b0, b1⟩ := time_rate_le (m := n - 1) (by omega) hr.1 hr.2 ht
  rw [Nat.sub_add_cancel (by omega : 1 ≤ n)] at b0 b1
  unfold samplesWithRate fmul
  show ∃ i0 i1 a b, samplesOfIndex n (rnd (_ * rate)) r .clamp = _ ∧ samplesOfIndex (n - 1) (rnd (_ * rate)) r .wrap = _ ∧ _
  generalize clampTime t (calculateFiniteDuration n rate) * rate = p at *
  have hx1 := idx_lt (m := n - 1) (by omega) b1
  have hx0 := rnd_nonneg b0
  have hnq : ((n - 1 : Nat) : ℚ) + 1 = n := by
    rw [Nat.cast_sub (by omega)]; norm_num
  have hnb : ((n - 1 : Nat) : ℚ) ≤ 2 ^ 23 := by
    have : n - 1 ≤ 2 ^ 23 := by omega
    exact_mod_cast this
  have hf : IsFloat (rnd p) := isFloat_idx b0 (by generalize ((n - 1 : Nat) : ℚ) = M at hnb b1; norm_num at hnb b1 ⊢; linarith)
  generalize rnd p = x at *
  have hxn : x < n := by linarith
  rw [samples_clamp r (by omega) (by omega) hx0 hf hxn]
  by_cases hlt : x < ((n - 1 : Nat) : ℚ)
  · rw [samples_wrap r (by simp) (by omega) (by omega) hx0 hf hlt]
    have hk := floor_toNat_lt hx0 hlt
    refine ⟨_, _, _, _, rfl, ?_, Or.inl rfl⟩
    generalize ⌊x⌋.toNat = k at *
    rw [Nat.mod_eq_of_lt hk]
    have : min (k + 1) (n - 1) % (n - 1) = if n - 1 ≤ k + 1 then 0 else k + 1 := by
      rw [Nat.min_eq_left (by omega)]
      split
      · rw [show k + 1 = n - 1 by omega, Nat.mod_self]
      · exact Nat.mod_eq_of_lt (by omega)
    rw [this]
  · push Not at hlt
    have hk1 := floor_toNat_lt hx0 hxn
    have hge : ((n - 1 : Nat) : Int) ≤ ⌊x⌋ := by rw [Int.le_floor]; exact_mod_cast hlt
    have hk : ⌊x⌋.toNat = n - 1 := by omega
    rw [samples_wrap_end r (by simp) (by omega) (by omega) hlt (by generalize ((n - 1 : Nat) : ℚ) = M at hnb hx1; norm_num at hnb hx1 ⊢; linarith), hk]
    refine ⟨_, _, _, applyRounding 0 r, rfl, ?_, Or.inr ⟨rfl, ?_⟩⟩
    · rw [Nat.min_eq_right (by omega), Nat.mod_self]
    · exact Nat.min_eq_right (by omega)

/-- The loop optimization of scalar tracks moves the samples by at most the precision: the sample that stands for time
`f` in the optimized list differs from the input sample by at most the precision of the track, component by component;
and only the last sample moves. -/
theorem C41_scalar_precision (enabled : Bool) (components : Nat) (precision : Nat → ℚ) (c : Context (List (BitVec 32)))
    (hp : ∀ i < c.numTracks, 0 ≤ precision i) (i f k : Nat) (hi : i < c.numTracks) (hf : f < c.numSamples) (hk : k < components) :
    let o := optimizeLooping enabled false (nearScalar components precision) c
    |fsub (ofBits ((o.sample i (f % o.numSamples)).getD k 0)) (ofBits ((c.sample i f).getD k 0))| ≤ precision i ∧
      (f + 1 < c.numSamples → o.sample i (f % o.numSamples) = c.sample i f) := by
  obtain ⟨h1, h2⟩ := C41_optimized (nearScalar components precision) enabled false c
  have same : |fsub (ofBits ((c.sample i f).getD k 0)) (ofBits ((c.sample i f).getD k 0))| ≤ precision i := by
    unfold fsub; rw [sub_self, rnd_zero, abs_zero]; exact hp i hi
  by_cases h : enabled = true ∧ c.looping ≠ .wrap ∧ false = false ∧ 2 ≤ c.numSamples ∧ 1 ≤ c.numTracks ∧
      (∀ i < c.numTracks, nearScalar components precision i (c.sample i 0) (c.sample i (c.numSamples - 1)) = true)
  · obtain ⟨a1, -, -, -, -, a2⟩ := h1 h
    simp only []
    generalize optimizeLooping enabled false (nearScalar components precision) c = o at *
    rw [a2]
    by_cases hl : f + 1 < c.numSamples
    · rw [Nat.mod_eq_of_lt (by omega)]
      exact ⟨same, fun _ => rfl⟩
    · have e : f = c.numSamples - 1 := by omega
      have e2 : o.numSamples = c.numSamples - 1 := by omega
      refine ⟨?_, fun h => absurd h hl⟩
      rw [e, e2, Nat.mod_self]
      have := h.2.2.2.2.2 i hi
      unfold nearScalar at this
      rw [List.all_eq_true] at this
      exact of_decide_eq_true (this k (List.mem_range.mpr hk))
  · simp only []
    rw [h2 h, Nat.mod_eq_of_lt hf]
    exact ⟨same, fun _ => rfl⟩

/-- The loop optimization of transform tracks: the error the metric measures between the sample that stands for time `f`
and the input sample is at most the precision. -/
theorem C41_transform_precision {S : Type} (enabled isRaw : Bool) (error : Nat → S → S → ℚ) (precision : Nat → ℚ)
    (hself : ∀ i s, error i s s ≤ precision i) (c : Context S) (i f : Nat) (hi : i < c.numTracks) (hf : f < c.numSamples) :
    let o := optimizeLooping enabled isRaw (nearTransform error precision) c
    error i (o.sample i (f % o.numSamples)) (c.sample i f) ≤ precision i ∧
      (f + 1 < c.numSamples → o.sample i (f % o.numSamples) = c.sample i f) ∧
      (isRaw = true → o.sample i (f % o.numSamples) = c.sample i f) := by
  obtain ⟨h1, h2⟩ := C41_optimized (nearTransform error precision) enabled isRaw c
  by_cases h : enabled = true ∧ c.looping ≠ .wrap ∧ isRaw = false ∧ 2 ≤ c.numSamples ∧ 1 ≤ c.numTracks ∧
      (∀ i < c.numTracks, nearTransform error precision i (c.sample i 0) (c.sample i (c.numSamples - 1)) = true)
  · obtain ⟨a1, -, -, -, -, a2⟩ := h1 h
    simp only []
    generalize optimizeLooping enabled isRaw (nearTransform error precision) c = o at *
    rw [a2]
    by_cases hl : f + 1 < c.numSamples
    · rw [Nat.mod_eq_of_lt (by omega)]
      exact ⟨hself i _, fun _ => rfl, fun _ => rfl⟩
    · have e : f = c.numSamples - 1 := by omega
      have e2 : o.numSamples = c.numSamples - 1 := by omega
      refine ⟨?_, fun h => absurd h hl, fun hr => absurd (h.2.2.1.symm.trans hr) (by simp)⟩
      rw [e, e2, Nat.mod_self]
      have := h.2.2.2.2.2 i hi
      unfold nearTransform at this
      simpa using this
  · simp only []
    rw [h2 h, Nat.mod_eq_of_lt hf]
    exact ⟨hself i _, fun _ => rfl, fun _ => rfl⟩

/-- A float1 list of one track with samples 0, 1, 0: it is optimized. -/
def example_context : Context (List (BitVec 32)) where
  numTracks := 1
  numSamples := 3
  sampleRate := 30
  looping := .clamp
  sample := fun _ s => if s = 1 then [0x3f800000#32] else [0#32]

example : (optimizeLooping true false (nearScalar 1 fun _ => 1 / 1000) example_context).numSamples = 2 ∧
    (headerOf (optimizeLooping true false (nearScalar 1 fun _ => 1 / 1000) example_context)).isWrapOptimized = true := by
  decide +kernel

/-- The middle of its last interval, and its end. -/
example : seek (Clip.mk 3 30 false false) .asCompressed true (1 / 20) .none = some (1, 2, 1 / 2) ∧
    seek (Clip.mk 2 30 false true) .asCompressed true (1 / 20) .none = some (1, 0, 1 / 2) ∧
    seek (Clip.mk 2 30 false true) .asCompressed true 1 .none = some (0, 0, 0) := by
  decide +kernel

end Acl.C41
