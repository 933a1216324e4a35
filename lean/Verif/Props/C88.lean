import Verif.Transform.AdditiveTimes
import Verif.Core.ScalarPackingLemmas
/-!
# C88: where the base of an additive clip is sampled

The base is sampled at the same fraction of its duration as the clip: `time / duration * baseDuration`.
-/
namespace Acl.C88
open Acl.F32 Acl.ScalarPacking Acl.AdditiveTimes

theorem roundBankers_int (z : Int) : roundBankers (z : ℚ) = z := by
  unfold roundBankers
  simp

theorem roundBankers_bounds (x : ℚ) : x - 1 / 2 ≤ roundBankers x ∧ (roundBankers x : ℚ) ≤ x + 1 / 2 := by
  have h1 := Int.floor_le x
  have h2 := Int.lt_floor_add_one x
  unfold roundBankers
  split
  · constructor <;> linarith
  · split
    · push_cast; constructor <;> linarith
    · have : x - ⌊x⌋ = 1 / 2 := by linarith
      split
      · constructor <;> linarith
      · push_cast; constructor <;> linarith

theorem roundBankers_mono {x y : ℚ} (h : x ≤ y) : roundBankers x ≤ roundBankers y := by
  by_contra hc
  push Not at hc
  obtain ⟨a1, a2⟩ := roundBankers_bounds x
  obtain ⟨b1, b2⟩ := roundBankers_bounds y
  have hc' : (roundBankers y : ℚ) + 1 ≤ roundBankers x := by exact_mod_cast hc
  have e : x = y := by linarith
  rw [e] at hc
  exact lt_irrefl _ hc

/-- The quotient is in [0, 1]. -/
theorem quotient {time duration : ℚ} (h0 : 0 ≤ time) (h1 : time ≤ duration) (hd : 0 < duration) :
    0 ≤ fdiv time duration ∧ fdiv time duration ≤ 1 := by
  have hq : time / duration ≤ 1 := (div_le_one hd).mpr h1
  refine ⟨rnd_nonneg (div_nonneg h0 hd.le), ?_⟩
  have := rnd_le_dyadic (x := time / duration) 1 0 (by decide) (by decide) (by norm_num; exact hq)
  simpa [fdiv] using this

theorem product {n : ℚ} {numBase : Nat} (hb : numBase < 2 ^ 24) (h0 : 0 ≤ n) (h1 : n ≤ 1) :
    0 ≤ fmul n (ofNat numBase) ∧ fmul n (ofNat numBase) ≤ numBase := by
  rw [ofNat_eq hb]
  have hn : (0 : ℚ) ≤ numBase := Nat.cast_nonneg _
  refine ⟨rnd_nonneg (mul_nonneg h0 hn), ?_⟩
  have := rnd_mono (show n * numBase ≤ numBase by nlinarith)
  rwa [rnd_nat hb] at this

theorem index_some {n : ℚ} {numBase : Nat} (hb : numBase < 2 ^ 24) (h0 : 0 ≤ n) (h1 : n ≤ 1) :
    ∃ i, baseIndex numBase n = some i ∧ i ≤ numBase ∧ (i : Int) = roundBankers (fmul n (ofNat numBase)) := by
  obtain ⟨p0, p1⟩ := product hb h0 h1
  have a := roundBankers_mono p0
  have b := roundBankers_mono p1
  have e0 : roundBankers 0 = 0 := by simpa using roundBankers_int 0
  have e1 : roundBankers (numBase : ℚ) = numBase := by simpa using roundBankers_int numBase
  rw [e0] at a
  rw [e1] at b
  unfold baseIndex castU32
  rw [if_pos ⟨a, by omega⟩]
  exact ⟨_, rfl, by omega, by omega⟩

/-- The base is sampled within its duration, at the same fraction of it as the clip up to rounding; the index is at most the number of samples. -/
theorem C88_time (numBase : Nat) (hn : 2 ≤ numBase) (hb : numBase < 2 ^ 24) (duration baseDuration time : ℚ) (hd : 0 < duration)
    (hbd : 0 ≤ baseDuration) (hf : IsFloat baseDuration) (h0 : 0 ≤ time) (h1 : time ≤ duration) :
    ∃ t i, sampleBase numBase duration baseDuration time = some (t, i) ∧ 0 ≤ t ∧ t ≤ baseDuration ∧ i ≤ numBase ∧
      |t - time / duration * baseDuration| ≤ baseDuration / 2 ^ 22 + pow2 (-150) := by
  obtain ⟨q0, q1⟩ := quotient h0 h1 hd
  obtain ⟨i, hi, hle, -⟩ := index_some hb q0 q1
  have hnt : normalizedTime numBase time duration = some (fdiv time duration) := by
    unfold normalizedTime divide; rw [if_pos (by omega), if_neg hd.ne']
  refine ⟨fmul (fdiv time duration) baseDuration, i, ?_, rnd_nonneg (mul_nonneg q0 hbd), ?_, hle, ?_⟩
  · unfold sampleBase baseTime
    rw [hnt]
    simp only [Option.bind_some, hi, Option.map_some]
    rw [if_pos (by omega)]
  · have := rnd_mono (show fdiv time duration * baseDuration ≤ baseDuration by nlinarith)
    rwa [rnd_of_isFloat hf] at this
  · have e1 := rnd_err (time / duration)
    have e2 := rnd_err (fdiv time duration * baseDuration)
    change |fdiv time duration - time / duration| ≤ _ at e1
    change |fmul (fdiv time duration) baseDuration - _| ≤ _ at e2
    have hq0 : 0 ≤ time / duration := div_nonneg h0 hd.le
    have hq : time / duration ≤ 1 := (div_le_one hd).mpr h1
    rw [pow2_m24, abs_of_nonneg hq0] at e1
    rw [pow2_m24, abs_of_nonneg (mul_nonneg q0 hbd)] at e2
    have t150 : pow2 (-150) ≤ 1 / 2 ^ 30 := by decide +kernel
    have e1' : |fdiv time duration - time / duration| ≤ 1 / 2 ^ 23 := by linarith
    have e3 : |(fdiv time duration - time / duration) * baseDuration| ≤ 1 / 2 ^ 23 * baseDuration := by
      rw [abs_mul, abs_of_nonneg hbd]
      exact mul_le_mul_of_nonneg_right e1' hbd
    have e4 : fdiv time duration * baseDuration ≤ baseDuration := by nlinarith
    generalize fmul (fdiv time duration) baseDuration = t at *
    rw [sub_mul] at e3
    obtain ⟨a1, a2⟩ := abs_le.mp e2
    obtain ⟨b1, b2⟩ := abs_le.mp e3
    have hp := (pow2_pos (-150)).le
    rw [abs_le]
    constructor <;> linarith

/-- Later in the clip is not earlier in the base. -/
theorem C88_monotone (numBase : Nat) (hn : 2 ≤ numBase) (hb : numBase < 2 ^ 24) (duration baseDuration time later : ℚ) (hd : 0 < duration)
    (hbd : 0 ≤ baseDuration) (h0 : 0 ≤ time) (hl : time ≤ later) (h1 : later ≤ duration) (t t' : ℚ) (i i' : Nat)
    (h : sampleBase numBase duration baseDuration time = some (t, i)) (h' : sampleBase numBase duration baseDuration later = some (t', i')) :
    t ≤ t' ∧ i ≤ i' := by
  obtain ⟨q0, q1⟩ := quotient h0 (hl.trans h1) hd
  obtain ⟨r0, r1⟩ := quotient (h0.trans hl) h1 hd
  obtain ⟨k, hk, -, ek⟩ := index_some hb q0 q1
  obtain ⟨k', hk', -, ek'⟩ := index_some hb r0 r1
  have hm : fdiv time duration ≤ fdiv later duration := rnd_mono (div_le_div_of_nonneg_right hl hd.le)
  unfold sampleBase normalizedTime divide baseTime at h h'
  rw [if_pos (by omega), if_neg hd.ne'] at h h'
  simp only [Option.bind_some, hk, Option.map_some, Option.some.injEq, Prod.mk.injEq] at h
  simp only [Option.bind_some, hk', Option.map_some, Option.some.injEq, Prod.mk.injEq] at h'
  rw [if_pos (by omega)] at h h'
  obtain ⟨rfl, rfl⟩ := h
  obtain ⟨rfl, rfl⟩ := h'
  refine ⟨rnd_mono (mul_le_mul_of_nonneg_right hm hbd), ?_⟩
  have : (k : Int) ≤ k' := by
    rw [ek, ek']
    refine roundBankers_mono (rnd_mono (mul_le_mul_of_nonneg_right hm ?_))
    rw [ofNat_eq hb]
    exact Nat.cast_nonneg _
  exact_mod_cast this

/-- The clip and its base start together, at the first sample. -/
theorem C88_start (numBase : Nat) (hn : 2 ≤ numBase) (duration baseDuration : ℚ) (hd : 0 < duration) :
    sampleBase numBase duration baseDuration 0 = some (0, 0) := by
  have z : fdiv 0 duration = 0 := by unfold fdiv; rw [zero_div, rnd_zero]
  have z2 : ∀ x, fmul 0 x = 0 := by intro x; unfold fmul; rw [zero_mul, rnd_zero]
  unfold sampleBase normalizedTime divide baseTime baseIndex
  rw [if_pos (by omega), if_neg hd.ne']
  simp only [Option.bind_some, z, z2]
  rw [show roundBankers 0 = 0 by simpa using roundBankers_int 0]
  simp [castU32]

/-- They end together. Finding: the index the error metric is told at the end is the number of samples of the base, one past its last sample. -/
theorem C88_end_finding (numBase : Nat) (hn : 2 ≤ numBase) (hb : numBase < 2 ^ 24) (duration baseDuration : ℚ) (hd : 0 < duration)
    (hf : IsFloat baseDuration) : sampleBase numBase duration baseDuration duration = some (baseDuration, numBase) := by
  have z : fdiv duration duration = 1 := by
    unfold fdiv
    rw [div_self hd.ne']
    have := rnd_dyadic 1 0 (by decide) (by decide)
    simpa using this
  unfold sampleBase normalizedTime divide baseTime baseIndex
  rw [if_pos (by omega), if_neg hd.ne']
  simp only [Option.bind_some, z]
  rw [ofNat_eq hb, if_pos (by omega)]
  unfold fmul
  rw [one_mul, one_mul, rnd_nat hb, rnd_of_isFloat hf, show roundBankers (numBase : ℚ) = numBase by simpa using roundBankers_int numBase,
    castU32_nat (by omega)]
  rfl

/-- Finding: with a base of 31 samples at 30 per second, one second long as the clip is, the metric is told 21 for sample 20 of the clip, that is at
sample 20 of the base. -/
theorem C88_nearest_finding : (sampleBase 31 1 1 (fdiv 20 30)).map (·.2) = some 21 ∧
    (sampleBase 31 1 1 (fdiv 20 30)).map (fun r => decide (|r.1 * 30 - 20| ≤ 1 / 2 ^ 20)) = some true := by decide +kernel

/-- A base of a single sample is sampled at its start, whatever the duration of the clip. -/
theorem C88_static (numBase : Nat) (hn : numBase ≤ 1) (duration baseDuration time : ℚ) :
    sampleBase numBase duration baseDuration time = some (0, 0) := by
  have z2 : ∀ x, fmul 0 x = 0 := by intro x; unfold fmul; rw [zero_mul, rnd_zero]
  unfold sampleBase normalizedTime baseTime baseIndex
  rw [if_neg (by omega)]
  simp only [Option.bind_some, z2]
  rw [show roundBankers 0 = 0 by simpa using roundBankers_int 0, if_neg (by omega)]
  simp [castU32]

/-- Finding: a clip of a single sample has a duration of zero; on an animated base the time is 0 / 0. -/
theorem C88_zero_duration_finding (numBase : Nat) (hn : 2 ≤ numBase) (baseDuration time : ℚ) : sampleBase numBase 0 baseDuration time = none := by
  unfold sampleBase normalizedTime divide
  rw [if_pos (by omega), if_pos rfl]
  rfl

/-- A concrete case: half way in a clip of two seconds is 0.25 in a base of half a second with 16 samples. -/
example : sampleBase 16 2 (1 / 2) 1 = some (1 / 4, 8) := by decide +kernel
example : IsFloat (1 / 2) := ⟨1, -1, by decide +kernel, by decide, by decide, by decide⟩

end Acl.C88
