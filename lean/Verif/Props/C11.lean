import Verif.Core.InterpolationLemmas
/-!
# C11: seeking yields valid neighbouring samples

`seek` is what a decompression context computes when it seeks: the time is clamped to the duration of the clip
for its looping policy, then two samples and a factor are found.
-/
namespace Acl.C11
open Acl.F32 Acl.Interp

/-- Specification: both samples exist and the second one is the same as the first one or follows it; with the
wrap policy sample 0 follows the last one. The blend factor is in [0, 1]. -/
structure ValidSamples (wrap : Bool) (n i0 i1 : Nat) (a : ℚ) : Prop where
  in_range0 : i0 < n
  in_range1 : i1 < n
  factor : 0 ≤ a ∧ a ≤ 1
  clamp : wrap = false → i1 = i0 + 1 ∨ (i0 = n - 1 ∧ i1 = n - 1)
  wrap : wrap = true → i1 = i0 + 1 ∨ (i0 = n - 1 ∧ i1 = 0) ∨ (i0 = 0 ∧ i1 = 0)

theorem valid_of_neighbours {l : Looping} (hl : l ≠ .asCompressed) {n : Nat} {s : Nat × Nat × ℚ} (h : Neighbours l n s) :
    ValidSamples (l == .wrap) n s.1 s.2.1 s.2.2 := by
  obtain ⟨h1, h2, h3, h4, h5, h6⟩ := h
  refine ⟨h1, h2, ⟨h3, h4⟩, fun hw => ?_, fun hw => ?_⟩
  · have : l = .clamp := by cases l <;> simp_all
    rcases h5 this with h | ⟨h, h'⟩
    · exact Or.inl h
    · exact Or.inr ⟨h', h ▸ h'⟩
  · have : l ≠ .clamp := by rintro rfl; simp at hw
    rcases h6 this with h | ⟨h, h'⟩ | ⟨h, h'⟩
    · exact Or.inl h
    · exact Or.inr (Or.inl ⟨h', h⟩)
    · exact Or.inr (Or.inr ⟨h', h⟩)

theorem resolve_ne (c : Clip) (p : Looping) : resolveLooping c p ≠ .asCompressed := by
  cases p <;> simp only [resolveLooping]
  · simp
  · simp
  · split <;> [simp; (split <;> simp)]

theorem looped_eq {c : Clip} {p : Looping} (h1 : 1 ≤ c.numSamples) (hn : c.numSamples + 4 ≤ 2 ^ 23) :
    loopedNumSamples c p = (if resolveLooping c p = .clamp then c.numSamples - 1 else c.numSamples) + 1 := by
  unfold loopedNumSamples
  have hr := resolve_ne c p
  generalize resolveLooping c p = q at *
  have e : (c.numSamples + 1) % 2 ^ 32 = c.numSamples + 1 := Nat.mod_eq_of_lt (by omega)
  rw [e]
  cases q
  · simp; omega
  · simp; omega
  · exact absurd rfl hr

/-- Seeking at any time, on any clip of 1 to 2^23 - 4 samples at any positive rate, finds valid samples, with
every rounding and looping policy. -/
theorem C11_seek (c : Clip) (p : Looping) (t : ℚ) (r : Rounding)
    (hn1 : 1 ≤ c.numSamples) (hn : c.numSamples ≤ 2 ^ 23 - 4)
    (hr : 0 < c.sampleRate ∧ c.sampleRate < pow2 128) (ht : t < pow2 128) :
    ∃ i0 i1 a, seek c p true t r = some (i0, i1, a) ∧
      ValidSamples (resolveLooping c p == .wrap) c.numSamples i0 i1 a := by
  have hn' : c.numSamples + 4 ≤ 2 ^ 23 := by omega
  unfold seek samplesWithRate fmul Clip.finiteDuration
  rw [looped_eq hn1 hn']
  simp only [if_true]
  obtain ⟨b0, b1⟩ := time_rate_le (m := if resolveLooping c p = .clamp then c.numSamples - 1 else c.numSamples)
    (by split <;> omega) hr.1 hr.2 ht
  obtain ⟨s, hs, hv⟩ := samplesOfIndex_neighbours r (resolveLooping c p) hn1 hn' b0 b1
  exact ⟨s.1, s.2.1, s.2.2, hs, valid_of_neighbours (resolve_ne c p) hv⟩

/-- The variant that takes the duration of the clip instead of its rate. -/
theorem C11_with_duration (n : Nat) (duration t : ℚ) (r : Rounding) (l : Looping) (hl : l ≠ .asCompressed)
    (hn1 : 1 ≤ n) (hn : n ≤ 2 ^ 23 - 4) (hd : duration < pow2 128) (ht : 0 ≤ t ∧ t ≤ duration) :
    ∃ i0 i1 a, samplesWithDuration n duration t r l = some (i0, i1, a) ∧ ValidSamples (l == .wrap) n i0 i1 a := by
  have hn' : n + 4 ≤ 2 ^ 23 := by omega
  unfold samplesWithDuration fmul
  rw [last_eq hn1 (by omega)]
  simp only []
  rw [ofNat_eq (show n - 1 < 2 ^ 24 by omega), ofNat_eq (show n < 2 ^ 24 by omega)]
  set m := if l = .clamp then n - 1 else n with hm
  have key : ∃ s, samplesOfIndex n (rnd (t * (if duration = 0 then 0 else fdiv (m : ℚ) duration))) r l = some s ∧
      Neighbours l n s := by
    by_cases h0 : duration = 0
    · rw [if_pos h0, mul_zero]
      exact samplesOfIndex_neighbours r l hn1 hn' le_rfl (by positivity)
    · rw [if_neg h0]
      have hdp : 0 < duration := lt_of_le_of_ne (ht.1.trans ht.2) (Ne.symm h0)
      have hrate : 0 ≤ fdiv (m : ℚ) duration := rnd_nonneg (by positivity)
      have herr := (abs_le.mp (div_mul_err (m := m) hdp hd)).2
      have h2 : t * fdiv (m : ℚ) duration ≤ duration * fdiv (m : ℚ) duration :=
        mul_le_mul_of_nonneg_right ht.2 hrate
      refine samplesOfIndex_neighbours r l hn1 hn' (mul_nonneg ht.1 hrate) ?_
      rw [mul_comm duration] at h2
      rw [← hm]; linarith
  obtain ⟨s, hs, hv⟩ := key
  refine ⟨s.1, s.2.1, s.2.2, ?_, valid_of_neighbours hl hv⟩
  rw [← hs]
  congr 3
  rw [hm]
  by_cases hc : l = .clamp <;> simp [hc]

/-- The samples are those around the requested time: for a time within the clip, without rounding, sample `i0`
plus the factor is the position `t * rate` up to one float rounding, except at the end of a looping clip, where
sample 0 is returned. -/
theorem C11_position (c : Clip) (p : Looping) (t d : ℚ)
    (hn1 : 1 ≤ c.numSamples) (hn : c.numSamples ≤ 2 ^ 23 - 4)
    (hr : 0 < c.sampleRate ∧ c.sampleRate < pow2 128)
    (hd : c.finiteDuration p = .fin d) (ht : 0 ≤ t ∧ t ≤ d) (hd2 : d < pow2 128) :
    ∃ i0 i1 a, seek c p true t .none = some (i0, i1, a) ∧
      (|((i0 : ℚ) + a) - t * c.sampleRate| ≤ t * c.sampleRate / 2 ^ 24 + pow2 (-150) ∨
        (resolveLooping c p = .wrap ∧ i0 = 0 ∧ i1 = 0 ∧
          |(c.numSamples : ℚ) - t * c.sampleRate| ≤ (c.numSamples + 1) / 2 ^ 23 + 1 / 2 ^ 21)) := by
  have hn' : c.numSamples + 4 ≤ 2 ^ 23 := by omega
  have hb := time_rate_le (m := if resolveLooping c p = .clamp then c.numSamples - 1 else c.numSamples) (t := t)
    (by split <;> omega) hr.1 hr.2 (lt_of_le_of_lt ht.2 hd2)
  rw [← looped_eq (p := p) hn1 hn'] at hb
  change 0 ≤ clampTime t (c.finiteDuration p) * _ ∧ clampTime t (c.finiteDuration p) * _ ≤ _ at hb
  have hcl : clampTime t (.fin d) = t := by
    simp only [clampTime]; rw [max_eq_left ht.1]; exact min_eq_left ht.2
  unfold seek samplesWithRate fmul
  simp only [if_true]
  rw [hd, hcl] at hb ⊢
  generalize hP : t * c.sampleRate = q at *
  obtain ⟨h0, hle⟩ := hb
  have hx0 := rnd_nonneg h0
  have herr := rnd_err q
  rw [abs_of_nonneg h0, show pow2 (-24) * q = q / 2 ^ 24 by
    rw [show pow2 (-24) = 1 / 2 ^ 24 by decide +kernel]; ring] at herr
  have hnq : (c.numSamples : ℚ) + 4 ≤ 2 ^ 23 := by exact_mod_cast hn'
  have hsum : ∀ r : ℚ, ((⌊rnd q⌋.toNat : Nat) : ℚ) + (rnd q - ⌊rnd q⌋) = rnd q := by
    intro _; rw [floor_toNat_cast hx0]; ring
  by_cases hlc : resolveLooping c p = .clamp
  · rw [hlc] at hle ⊢
    rw [if_pos rfl] at hle
    have hx := idx_lt (by omega) hle
    have hc : ((c.numSamples - 1 : Nat) : ℚ) = c.numSamples - 1 := by rw [Nat.cast_sub hn1]; simp
    rw [hc] at hx hle
    have hf := isFloat_idx h0 (by linarith)
    refine ⟨_, _, _, samples_clamp .none hn1 (by omega) hx0 hf (by linarith), Or.inl ?_⟩
    simp only [applyRounding]
    rw [hsum 0]; exact herr
  · have hwrap : resolveLooping c p = .wrap := by
      have := resolve_ne c p
      generalize resolveLooping c p = l at *
      cases l <;> simp_all
    rw [if_neg hlc] at hle
    have hx := idx_lt (by omega) hle
    have hf := isFloat_idx h0 (by linarith)
    by_cases hend : (c.numSamples : ℚ) ≤ rnd q
    · refine ⟨_, _, _, samples_wrap_end .none hlc hn1 (by omega) hend (by linarith), Or.inr ⟨hwrap, rfl, rfl, ?_⟩⟩
      have h150 : pow2 (-150) ≤ 1 / 2 ^ 22 := by decide +kernel
      have h1 := (abs_le.mp herr).2
      rw [abs_le]
      constructor <;> linarith
    · push Not at hend
      refine ⟨_, _, _, samples_wrap .none hlc hn1 (by omega) hx0 hf hend, Or.inl ?_⟩
      simp only [applyRounding]
      rw [hsum 0]; exact herr

/-- Specification: the weight of sample `i` in a blend of samples `i0` and `i1` with factor `a`. -/
def weightOf (i i0 i1 : Nat) (a : ℚ) : ℚ := (if i0 = i then 1 - a else 0) + (if i1 = i then a else 0)

/-- Sampling a looping clip at or after its end: with ceil and nearest rounding sample 0 is returned, without
rounding its weight is at least 1 - n/2^23 - 2^-21. With floor rounding the last sample may be returned: see
`C11_floor_at_end_finding`. -/
theorem C11_loop_end (c : Clip) (p : Looping) (t d : ℚ) (r : Rounding) (hwrap : resolveLooping c p = .wrap)
    (hn1 : 1 ≤ c.numSamples) (hn : c.numSamples ≤ 2 ^ 21)
    (hr : 0 < c.sampleRate ∧ c.sampleRate < pow2 128)
    (hd : c.finiteDuration p = .fin d) (ht : d ≤ t) :
    ∃ i0 i1 a, seek c p true t r = some (i0, i1, a) ∧
      (r = .ceil ∨ r = .nearest → weightOf 0 i0 i1 a = 1) ∧
      (r = .none ∨ r = .perTrack → 1 - c.numSamples / 2 ^ 23 - 1 / 2 ^ 21 ≤ weightOf 0 i0 i1 a) := by
  have hn' : c.numSamples + 4 ≤ 2 ^ 23 := by
    have : (2 : Nat) ^ 23 = 4 * 2 ^ 21 := by norm_num
    omega
  unfold seek samplesWithRate fmul
  simp only [if_true]
  rw [hd, hwrap]
  unfold Clip.finiteDuration at hd
  rw [looped_eq hn1 hn', hwrap] at hd
  generalize hN : c.numSamples = n at *
  have hnn : (n : ℚ) ≤ 2 ^ 21 := by exact_mod_cast hn
  have hn1q : (1 : ℚ) ≤ n := by exact_mod_cast hn1
  rw [if_neg (by simp)] at hd
  unfold calculateFiniteDuration fdivInf at hd
  rw [if_neg (by omega), Nat.add_sub_cancel, ofNat_eq (by omega)] at hd
  have hdd : fdiv (n : ℚ) c.sampleRate = d := by
    split at hd
    · exact FInf.fin.inj hd
    · exact absurd hd (by simp)
  have hd0 : 0 ≤ d := by rw [← hdd]; exact rnd_nonneg (by have := hr.1; positivity)
  have hcl : clampTime t (.fin d) = d := by
    simp only [clampTime]; rw [max_eq_left (hd0.trans ht)]; exact min_eq_right ht
  rw [hcl]
  have herr := div_mul_err (m := n) hr.1 hr.2
  rw [hdd] at herr
  obtain ⟨e1, e2⟩ := abs_le.mp herr
  generalize hP : d * c.sampleRate = q at *
  have hq0 : 0 ≤ q := by rw [← hP]; exact mul_nonneg hd0 hr.1.le
  have hx := idx_lt (m := n) hn' (p := q) (by linarith)
  have hx0 := rnd_nonneg hq0
  have hq1 : q ≤ n + 1 := by linarith
  have hf := isFloat_idx hq0 (by linarith)
  -- lower bound of the rounded index
  have hlow : (n : ℚ) - n / 2 ^ 23 - 1 / 2 ^ 21 ≤ rnd q := by
    have hq2 : (1 : ℚ) / 2 ≤ q := by linarith
    have h126 : pow2 (-126) ≤ |q| := by
      rw [abs_of_nonneg hq0]
      have : pow2 (-126) ≤ 1 / 2 := by decide +kernel
      linarith
    have h := rnd_err_rel h126
    rw [abs_of_nonneg hq0] at h
    have h2 := (abs_le.mp h).1
    have e24 : pow2 (-24) = 1 / 2 ^ 24 := by decide +kernel
    rw [e24] at h2
    have h3 : 1 / 2 ^ 24 * q ≤ 1 / 2 ^ 24 * ((n : ℚ) + 1) := by
      apply mul_le_mul_of_nonneg_left hq1; norm_num
    linarith
  by_cases hend : (n : ℚ) ≤ rnd q
  · refine ⟨_, _, _, samples_wrap_end r (by simp) hn1 (by omega) hend (by linarith), ?_, ?_⟩
    · intro _; simp [weightOf]
    · intro _; simp only [weightOf, if_true]
      have : (0 : ℚ) ≤ n / 2 ^ 23 := by positivity
      linarith
  · push Not at hend
    have hfl : ⌊rnd q⌋ = (n : Int) - 1 := by
      rw [Int.floor_eq_iff]; push_cast
      constructor
      · linarith
      · linarith
    have hnat : ⌊rnd q⌋.toNat = n - 1 := by omega
    refine ⟨_, _, _, samples_wrap r (by simp) hn1 (by omega) hx0 hf hend, ?_, ?_⟩ <;>
      rw [hnat, if_pos (show n ≤ n - 1 + 1 by omega), hfl]
    · intro hr2
      have ha : applyRounding (rnd q - (((n : Int) - 1 : Int) : ℚ)) r = 1 := by
        rcases hr2 with rfl | rfl
        · rfl
        · apply nearest_ge_half
          · push_cast; linarith
          · push_cast; linarith
      rw [ha]; simp [weightOf]
    · intro hr2
      have ha : applyRounding (rnd q - (((n : Int) - 1 : Int) : ℚ)) r = rnd q - (n - 1) := by
        rcases hr2 with rfl | rfl <;> simp [applyRounding]
      rw [ha]
      unfold weightOf
      rw [if_pos rfl]
      split
      · have : (0 : ℚ) ≤ n / 2 ^ 23 := by positivity
        linarith
      · linarith

/-- Finding: a looping clip of 63 samples at 30 frames per second sampled exactly at its end with floor
rounding returns sample 62, not sample 0 (the product of the duration and the rate rounds below 63). -/
theorem C11_floor_at_end_finding :
    let c : Clip := Clip.mk 63 30 false true
    ∃ d, c.finiteDuration .asCompressed = .fin d ∧
      seek c .asCompressed true d .floor = some (62, 0, 0) ∧ weightOf 0 62 0 0 = 0 :=
  ⟨fdiv 63 30, by decide +kernel, by decide +kernel, by decide +kernel⟩

/-- Finding: beyond the bound the indices are no longer valid: with 2^24 + 4 samples at a rate of 1, seeking
to the end returns the index 2^24 + 4, past the last sample, as 2^24 + 3 is not a float. -/
theorem C11_unbounded_finding :
    let c : Clip := Clip.mk (2 ^ 24 + 4) 1 false false
    ∃ d, c.finiteDuration .clamp = .fin d ∧
      seek c .clamp true d .none = some (2 ^ 24 + 4, 2 ^ 24 + 3, 0) :=
  ⟨fdiv (ofNat (2 ^ 24 + 3)) 1, by decide +kernel, by decide +kernel⟩

/-- The hypotheses are met: 31 samples at 30 frames per second, half a second in. -/
example : ∃ i0 i1 a, seek (Clip.mk 31 30 false false) .clamp true (1 / 2) .none = some (i0, i1, a) ∧
    ValidSamples false 31 i0 i1 a :=
  C11_seek (Clip.mk 31 30 false false) .clamp (1 / 2) .none (by decide) (by decide)
    ⟨by norm_num, by decide +kernel⟩ (by decide +kernel)

example : seek (Clip.mk 31 30 false false) .clamp true (1 / 2) .none = some (15, 16, 0) := by decide +kernel

end Acl.C11
