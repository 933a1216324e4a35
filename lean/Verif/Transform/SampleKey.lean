import Verif.Transform.SampleStreams
import Verif.Core.InterpolationLemmas
/-
The key frame that is measured for a sample of a segment is that sample.
-/
namespace Acl.Transform
open Acl.F32 Acl.Interp

theorem sampleIndexf_eq (start i : Nat) (h : start + i < 2 ^ 24) : sampleIndexf start i = ((start + i : Nat) : ℚ) := by
  induction i with
  | zero => exact ofNat_eq (by simpa using h)
  | succ i ih =>
    show fadd (sampleIndexf start i) 1 = _
    rw [ih (by omega)]
    unfold fadd
    have : ((start + i : Nat) : ℚ) + 1 = ((start + (i + 1) : Nat) : ℚ) := by push_cast; ring
    rw [this]
    exact rnd_nat h

theorem e24 : (2 : ℚ) ^ 24 = 8 * 2 ^ 21 := by norm_num

theorem segmentKey_eq {start size k i0 i1 : Nat} {a : ℚ} (hs : start ≤ k) (hk : k < start + size) (hn : start + size ≤ 2 ^ 21)
    (h : (a = 0 ∧ i0 = k ∧ (i1 = k ∨ i1 = k + 1)) ∨ (a = 1 ∧ i0 + 1 = k ∧ i1 = k)) : segmentKey start size (i0, i1, a) = k - start := by
  unfold segmentKey clampKey0 clampKey1
  dsimp only
  have e1 : ∀ j, start ≤ j → j ≤ k + 1 → (j + 2 ^ 32 - start) % 2 ^ 32 = j - start := by intro j h1 h2; omega
  rcases h with ⟨rfl, rfl, h⟩ | ⟨rfl, h, rfl⟩
  · rw [e1 i0 hs (by omega), if_neg (show ¬ size ≤ i0 - start by omega)]
    by_cases hc : size ≤ (i1 + 2 ^ 32 - start) % 2 ^ 32
    · rw [if_pos hc, if_pos rfl]
    · rw [if_neg hc, if_pos rfl]
  · rw [e1 i1 hs (by omega), if_neg (show ¬ size ≤ i1 - start by omega)]
    dsimp only
    by_cases hc : size ≤ (i0 + 2 ^ 32 - start) % 2 ^ 32
    · rw [if_pos hc]; dsimp only; rw [if_neg (by norm_num)]
    · rw [if_neg hc]; dsimp only; rw [if_neg (by norm_num)]

theorem uniformSampleKey_near {n start size k : Nat} {rate t : ℚ} (hs : start ≤ k) (hk : k < start + size) (hn : start + size ≤ n)
    (hn' : n ≤ 2 ^ 21) (h0 : 0 ≤ t * rate) (h : |t * rate - k| ≤ 1 / 4) : uniformSampleKey n rate start size t = some (k - start) := by
  obtain ⟨l1, l2⟩ := abs_le.mp h
  have hkq : (k : ℚ) ≤ 2 ^ 21 - 1 := by
    have : k + 1 ≤ 2 ^ 21 := by omega
    have : ((k + 1 : Nat) : ℚ) ≤ 2 ^ 21 := by exact_mod_cast this
    push_cast at this; linarith
  have hp : pow2 21 = 2 ^ 21 := by decide +kernel
  have hp' : pow2 (21 - 25) = 1 / 16 := by decide +kernel
  have herr := rnd_err_lt (k := 21) (by decide) h0 (by rw [hp]; linarith)
  rw [hp'] at herr
  obtain ⟨e1, e2⟩ := abs_le.mp herr
  have hx0 := rnd_nonneg h0
  have hf := isFloat_idx h0 (show t * rate ≤ 2 ^ 24 by rw [e24]; linarith)
  unfold uniformSampleKey samplesWithRate fmul
  have hnk : (k : ℚ) + 1 ≤ n := by
    have : k + 1 ≤ n := by omega
    exact_mod_cast this
  rw [samples_clamp .nearest (by omega) (by omega) hx0 hf (by linarith)]
  simp only [Option.map_some, Option.some.injEq]
  refine segmentKey_eq hs hk (hn.trans hn') ?_
  by_cases hge : (k : ℚ) ≤ rnd (t * rate)
  · left
    have hfl : ⌊rnd (t * rate)⌋ = (k : ℤ) := by
      rw [Int.floor_eq_iff]
      constructor
      · exact_mod_cast hge
      · push_cast; linarith
    refine ⟨?_, by rw [hfl]; simp, ?_⟩
    · rw [hfl]
      refine nearest_below (by push_cast; linarith) ?_
      push_cast; norm_num; linarith
    · rw [hfl]
      simp only [Int.toNat_natCast]
      omega
  · right
    push Not at hge
    have hk1 : 1 ≤ k := by
      by_contra hc
      have : k = 0 := by omega
      subst this
      simp at hge; linarith
    have hfl : ⌊rnd (t * rate)⌋ = ((k - 1 : Nat) : ℤ) := by
      rw [Int.floor_eq_iff]
      have : ((k - 1 : Nat) : ℚ) = k - 1 := by push_cast [hk1]; ring
      constructor
      · push_cast [hk1]; linarith
      · push_cast [hk1]; linarith
    refine ⟨?_, by rw [hfl]; simp; omega, ?_⟩
    · rw [hfl]
      refine nearest_ge_half ?_ ?_ <;> (push_cast [hk1]; linarith)
    · rw [hfl]
      simp only [Int.toNat_natCast]
      omega

/-- **The key frame.** -/
theorem uniformSampleKey_eq {n start size i : Nat} {rate duration : ℚ} (hr : 0 < rate ∧ rate < pow2 128) (hi : i < size) (hn : start + size ≤ n)
    (hn' : n ≤ 2 ^ 21) (hd : fdiv (n - 1 : Nat) rate ≤ duration) :
    uniformSampleKey n rate start size (sampleTime rate duration start i) = some i := by
  unfold sampleTime
  rw [sampleIndexf_eq start i (by omega)]
  have hle : fdiv ((start + i : Nat) : ℚ) rate ≤ fdiv ((n - 1 : Nat) : ℚ) rate := by
    unfold fdiv
    refine rnd_mono (div_le_div_of_nonneg_right ?_ hr.1.le)
    exact_mod_cast (show start + i ≤ n - 1 by omega)
  rw [min_eq_left (hle.trans hd)]
  have herr := div_mul_err (m := start + i) hr.1 hr.2
  have hkq : ((start + i : Nat) : ℚ) ≤ 2 ^ 21 := by exact_mod_cast (show start + i ≤ 2 ^ 21 by omega)
  have := uniformSampleKey_near (n := n) (rate := rate) (t := fdiv ((start + i : Nat) : ℚ) rate) (k := start + i) (start := start) (size := size)
    (by omega) (by omega) hn hn' (mul_nonneg (rnd_nonneg (by have := hr.1; positivity)) hr.1.le) (herr.trans (by rw [e24]; linarith))
  rw [this]
  congr 1
  omega

end Acl.Transform
