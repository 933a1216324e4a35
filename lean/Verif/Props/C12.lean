import Verif.Core.InterpolationLemmas
/-!
# C12: durations and sample counts agree
-/
namespace Acl.C12
open Acl.F32 Acl.Interp

/-- A float index `x` within a quarter of the integer `m` is rounded to it by `floor(x + 0.5)`. -/
theorem round_near {m : Nat} (hm : m + 4 ≤ 2 ^ 22) {p : ℚ} (h : |p - m| ≤ m / 2 ^ 24 + 1 / 2 ^ 22) (h1 : 1 ≤ m) :
    ⌊fadd (rnd p) (1 / 2)⌋ = (m : Int) := by
  have hq : (m : ℚ) + 4 ≤ 2 ^ 22 := by exact_mod_cast hm
  have hz : (m : Int) + 4 ≤ 2 ^ 22 := by exact_mod_cast hm
  have h1z : (1 : Int) ≤ m := by exact_mod_cast h1
  have e : (2 : Int) ^ 24 = 4 * 2 ^ 22 := by norm_num
  obtain ⟨l, u⟩ := abs_le.mp h
  have hi := rnd_le_dyadic (x := p) (4 * (m : Int) + 1) 2 (by rw [abs_of_nonneg (by omega)]; omega) (by decide)
    (by push_cast; linarith)
  have lo := dyadic_le_rnd (x := p) (4 * (m : Int) - 1) 2 (by rw [abs_of_nonneg (by omega)]; omega) (by decide)
    (by push_cast; linarith)
  push_cast at hi lo
  unfold fadd
  have hi2 := rnd_le_dyadic (x := rnd p + 1 / 2) (4 * (m : Int) + 3) 2 (by rw [abs_of_nonneg (by omega)]; omega)
    (by decide) (by push_cast; linarith)
  have lo2 := dyadic_le_rnd (x := rnd p + 1 / 2) (4 * (m : Int) + 1) 2 (by rw [abs_of_nonneg (by omega)]; omega)
    (by decide) (by push_cast; linarith)
  push_cast at hi2 lo2
  rw [Int.floor_eq_iff]
  push_cast
  constructor <;> linarith

/-- The sample count is recovered from the duration, for every count up to 2^22 - 4 and every positive rate
for which the duration does not overflow. -/
theorem C12_round_trip (n : Nat) (rate : ℚ) (hn : n ≤ 2 ^ 22 - 4) (hr : 0 < rate ∧ rate < pow2 128)
    (hfin : 2 ≤ n → calculateDuration n rate ≠ .inf) :
    calculateNumSamples (calculateDuration n rate) rate = some n := by
  unfold calculateDuration at *
  by_cases h0 : n = 0
  · subst h0; rfl
  by_cases h1 : n = 1
  · subst h1; rfl
  rw [if_neg h0, if_neg h1] at hfin ⊢
  unfold fdivInf at *
  have hov := hfin (by omega)
  rw [ofNat_eq (show n - 1 < 2 ^ 24 by omega)] at hov ⊢
  split at hov
  · next hlt =>
    rw [if_pos hlt]
    have herr := div_mul_err (m := n - 1) hr.1 hr.2
    have hne : fdiv ((n - 1 : Nat) : ℚ) rate ≠ 0 := by
      intro hz
      rw [hz, zero_mul, zero_sub, abs_neg, abs_of_nonneg (by positivity)] at herr
      have : (1 : ℚ) ≤ ((n - 1 : Nat) : ℚ) := by exact_mod_cast (show 1 ≤ n - 1 by omega)
      linarith
    simp only [calculateNumSamples]
    rw [if_neg hne]
    unfold fmul
    rw [round_near (by omega) herr (by omega)]
    have hnn : ((n - 1 : Nat) : ℚ) < 2 ^ 32 := by exact_mod_cast (show n - 1 < 2 ^ 32 by omega)
    have ht : toU32 (((n - 1 : Nat) : Int) : ℚ) = some (n - 1) := by
      rw [toU32_nonneg (by positivity) (by push_cast at *; exact hnn)]
      simp
    rw [ht]
    simp only [Option.map_some]
    rw [Nat.mod_eq_of_lt (by omega)]
    congr 1; omega
  · exact absurd rfl hov

/-- Order on durations. -/
def FInfLe : FInf → FInf → Prop
  | .fin a, .fin b => a ≤ b
  | _, .inf => True
  | .inf, .fin _ => False

theorem ofNat_mono {a b : Nat} (h : a ≤ b) : ofNat a ≤ ofNat b := rnd_mono (by exact_mod_cast h)

/-- Adding samples never shortens a clip (every sample count, every positive rate). -/
theorem C12_finite_monotone (a b : Nat) (rate : ℚ) (hr : 0 < rate) (h : a ≤ b) :
    FInfLe (calculateFiniteDuration a rate) (calculateFiniteDuration b rate) := by
  unfold calculateFiniteDuration fdivInf
  have hnn : ∀ k, 0 ≤ fdiv (ofNat k) rate := fun k =>
    rnd_nonneg (div_nonneg (rnd_nonneg (by positivity)) hr.le)
  have hm : fdiv (ofNat (a - 1)) rate ≤ fdiv (ofNat (b - 1)) rate :=
    rnd_mono (div_le_div_of_nonneg_right (ofNat_mono (by omega)) hr.le)
  by_cases ha : a ≤ 1
  · rw [if_pos ha]
    by_cases hb : b ≤ 1
    · rw [if_pos hb]; exact le_rfl
    · rw [if_neg hb]; split
      · exact hnn _
      · trivial
  · rw [if_neg ha, if_neg (show ¬ b ≤ 1 by omega)]
    split
    · split
      · exact hm
      · trivial
    · next hov =>
      rw [if_neg (by linarith)]; trivial

/-- Without samples, and with a single one, there is nothing to play: the finite duration is 0; the duration of
a single sample is infinite. From two samples on both are the same, and positive. -/
theorem C12_static (n : Nat) (rate : ℚ) (hr : 0 < rate ∧ rate < pow2 128) :
    (n ≤ 1 → calculateFiniteDuration n rate = .fin 0) ∧
    calculateDuration 0 rate = .fin 0 ∧ calculateDuration 1 rate = .inf ∧
    (2 ≤ n → calculateDuration n rate = calculateFiniteDuration n rate) ∧
    (2 ≤ n → ∀ d, calculateFiniteDuration n rate = .fin d → 0 < d) := by
  refine ⟨fun h => ?_, rfl, rfl, fun h => ?_, fun h d hd => ?_⟩
  · unfold calculateFiniteDuration; rw [if_pos h]
  · unfold calculateFiniteDuration calculateDuration
    rw [if_neg (by omega), if_neg (by omega), if_neg (by omega)]
  · unfold calculateFiniteDuration fdivInf at hd
    rw [if_neg (by omega)] at hd
    split at hd
    · have hd := FInf.fin.inj hd
      rw [← hd]
      have h1 : ofNat 1 ≤ ofNat (n - 1) := ofNat_mono (by omega)
      have e1 : ofNat 1 = 1 := by decide +kernel
      rw [e1] at h1
      have h2 : pow2 (-128) ≤ ofNat (n - 1) / rate := by
        rw [le_div_iff₀ hr.1]
        have : pow2 (-128) * rate ≤ pow2 (-128) * pow2 128 :=
          mul_le_mul_of_nonneg_left hr.2.le (pow2_pos _).le
        have e : pow2 (-128) * pow2 128 = 1 := by decide +kernel
        linarith
      have h3 : rnd (pow2 (-128)) ≤ fdiv (ofNat (n - 1)) rate := rnd_mono h2
      have e2 : rnd (pow2 (-128)) = pow2 (-128) := by decide +kernel
      rw [e2] at h3
      exact lt_of_lt_of_le (pow2_pos _) h3
    · exact absurd hd (by simp)

/-- Finding: a duration that overflows is taken for a static pose: two samples at the smallest positive rate. -/
theorem C12_overflow_finding :
    calculateDuration 2 (pow2 (-149)) = .inf ∧
    calculateNumSamples (calculateDuration 2 (pow2 (-149))) (pow2 (-149)) = some 1 := by
  constructor <;> decide +kernel

/-- Finding: above 2^24 samples the count is no longer recovered, even at a rate of 1. -/
theorem C12_large_finding :
    calculateNumSamples (calculateDuration (2 ^ 24 + 2) 1) 1 = some (2 ^ 24 + 1) := by decide +kernel

/-- The hypotheses are met: 31 samples at 30 frames per second. -/
example : calculateNumSamples (calculateDuration 31 30) 30 = some 31 :=
  C12_round_trip 31 30 (by decide) ⟨by norm_num, by decide +kernel⟩ (fun _ => by decide +kernel)

end Acl.C12
