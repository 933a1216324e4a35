import Verif.Core.Interpolation
/-! Lemmas about sample indices and durations (Verif/Core/Interpolation.lean). -/
namespace Acl.Interp
open Acl.F32

theorem toU32_nonneg {x : ℚ} (h0 : 0 ≤ x) (h : x < 2 ^ 32) : toU32 x = some ⌊x⌋.toNat := by
  unfold toU32; rw [if_pos ⟨by linarith, h⟩]

theorem floor_toNat_cast {x : ℚ} (h0 : 0 ≤ x) : ((⌊x⌋.toNat : Nat) : ℚ) = (⌊x⌋ : ℚ) := by
  have h : 0 ≤ ⌊x⌋ := Int.floor_nonneg.mpr h0
  have e : ((⌊x⌋.toNat : Nat) : Int) = ⌊x⌋ := Int.toNat_of_nonneg h
  have e2 : (((⌊x⌋.toNat : Nat) : Int) : ℚ) = (⌊x⌋ : ℚ) := by rw [e]
  rw [← e2]; rfl

/-- Nearest rounding of a factor in [0,1]. -/
theorem nearest_unit {a : ℚ} (h0 : 0 ≤ a) (h1 : a ≤ 1) :
    (applyRounding a .nearest = 0 ∨ applyRounding a .nearest = 1) := by
  unfold applyRounding fadd
  have lo := rnd_nonneg (q := a + 1 / 2) (by linarith)
  have hi := rnd_le_dyadic (x := a + 1 / 2) 3 1 (by decide) (by decide) (by norm_num; linarith)
  norm_num at hi
  have f0 : 0 ≤ ⌊rnd (a + 1 / 2)⌋ := Int.floor_nonneg.mpr lo
  have f1 : ⌊rnd (a + 1 / 2)⌋ < 2 := by
    rw [Int.floor_lt]; push_cast; linarith
  have : ⌊rnd (a + 1 / 2)⌋ = 0 ∨ ⌊rnd (a + 1 / 2)⌋ = 1 := by omega
  rcases this with h | h
  · left; simp only []; rw [h]; rfl
  · right; simp only []; rw [h]; rfl

theorem nearest_ge_half {a : ℚ} (h0 : 1 / 2 ≤ a) (h1 : a ≤ 1) : applyRounding a .nearest = 1 := by
  rcases nearest_unit (by linarith) h1 with h | h
  · exfalso
    unfold applyRounding fadd at h
    simp only [] at h
    have lo := dyadic_le_rnd (x := a + 1 / 2) 1 0 (by decide) (by decide) (by norm_num; linarith)
    norm_num at lo
    have : 1 ≤ ⌊rnd (a + 1 / 2)⌋ := by rw [Int.le_floor]; push_cast; exact lo
    have h2 : ⌊rnd (a + 1 / 2)⌋ = 0 := by exact_mod_cast h
    omega
  · exact h

theorem nearest_below {a : ℚ} (h0 : 0 ≤ a) (h1 : a ≤ 1 / 2 - 1 / 2 ^ 24) : applyRounding a .nearest = 0 := by
  rcases nearest_unit h0 (by norm_num at h1; linarith) with h | h
  · exact h
  · exfalso
    unfold applyRounding fadd at h
    simp only [] at h
    have hi := rnd_le_dyadic (x := a + 1 / 2) (2 ^ 24 - 1) 24 (by decide) (by decide)
      (by push_cast; norm_num; norm_num at h1; linarith)
    have : ⌊rnd (a + 1 / 2)⌋ < 1 := by
      rw [Int.floor_lt]; push_cast
      refine lt_of_le_of_lt hi ?_
      norm_num
    have h2 : ⌊rnd (a + 1 / 2)⌋ = 1 := by exact_mod_cast h
    omega

theorem applyRounding_unit {a : ℚ} (h0 : 0 ≤ a) (h1 : a ≤ 1) (r : Rounding) :
    0 ≤ applyRounding a r ∧ applyRounding a r ≤ 1 := by
  cases r
  case nearest => rcases nearest_unit h0 h1 with h | h <;> rw [h] <;> norm_num
  all_goals (simp only [applyRounding]; first | exact ⟨h0, h1⟩ | norm_num)

/-- The time of a clip with `m` intervals, once multiplied by the rate, never goes much beyond `m`. -/
theorem time_rate_le {m : Nat} (hm : m < 2 ^ 24) {rate t : ℚ} (hr : 0 < rate) (hr2 : rate < pow2 128)
    (ht : t < pow2 128) :
    0 ≤ clampTime t (calculateFiniteDuration (m + 1) rate) * rate ∧
    clampTime t (calculateFiniteDuration (m + 1) rate) * rate ≤ m + m / 2 ^ 24 + 1 / 2 ^ 22 := by
  unfold calculateFiniteDuration
  have hm0 : (0 : ℚ) ≤ m := by positivity
  have hb : (0 : ℚ) ≤ m + m / 2 ^ 24 + 1 / 2 ^ 22 := by positivity
  split
  · next h =>
    have h1 : clampTime t (FInf.fin 0) = 0 := by
      simp only [clampTime]; exact min_eq_right (le_max_right _ _)
    rw [h1, zero_mul]
    exact ⟨le_rfl, hb⟩
  · rw [Nat.add_sub_cancel, ofNat_eq hm]
    have herr := div_mul_err (m := m) hr hr2
    have herr' := (abs_le.mp herr).2
    have hd0 : 0 ≤ fdiv (m : ℚ) rate := rnd_nonneg (by positivity)
    unfold fdivInf
    split
    · simp only [clampTime]
      constructor
      · exact mul_nonneg (le_min (le_max_right _ _) hd0) hr.le
      · have : min (max t 0) (fdiv (m : ℚ) rate) * rate ≤ fdiv (m : ℚ) rate * rate :=
          mul_le_mul_of_nonneg_right (min_le_right _ _) hr.le
        linarith
    · next hov =>
      simp only [clampTime]
      push Not at hov
      constructor
      · exact mul_nonneg (le_max_right _ _) hr.le
      · have h1 : max t 0 ≤ fdiv (m : ℚ) rate :=
          (max_le ht.le (pow2_pos _).le).trans hov
        have := mul_le_mul_of_nonneg_right h1 hr.le
        linarith

/-- A product at most `m + m 2^-24 + 2^-22` rounds to at most `m + 1/2`. -/
theorem idx_lt {m : Nat} (hm : m + 4 ≤ 2 ^ 23) {p : ℚ} (hp : p ≤ m + m / 2 ^ 24 + 1 / 2 ^ 22) :
    rnd p ≤ m + 1 / 2 := by
  have h : (m : ℚ) + 4 ≤ 2 ^ 23 := by exact_mod_cast hm
  have hle : p ≤ ((2 * (m : Int) + 1 : Int) : ℚ) / 2 ^ 1 := by
    push_cast
    norm_num at hp h ⊢
    linarith
  have := rnd_le_dyadic (2 * (m : Int) + 1) 1
    (by rw [abs_of_nonneg (by positivity)]; have : 2 ^ 24 = 2 * (2 ^ 23 : Int) := by norm_num
        have hmz : (m : Int) + 4 ≤ 2 ^ 23 := by exact_mod_cast hm
        omega) (by decide) hle
  push_cast at this
  linarith

end Acl.Interp

namespace Acl.Interp
open Acl.F32

theorem floor_toNat_lt {x : ℚ} {n : Nat} (h0 : 0 ≤ x) (hx : x < n) : ⌊x⌋.toNat < n := by
  have h : ⌊x⌋ < (n : Int) := by rw [Int.floor_lt]; exact_mod_cast hx
  have := Int.floor_nonneg.mpr h0
  omega

theorem alpha_eq {x : ℚ} (h0 : 0 ≤ x) (hf : IsFloat x) (hx : x < 2 ^ 24) :
    fsub x (ofNat ⌊x⌋.toNat) = x - ⌊x⌋ := by
  have h1 : ⌊x⌋.toNat < 2 ^ 24 := floor_toNat_lt h0 (by exact_mod_cast hx)
  rw [ofNat_eq h1, floor_toNat_cast h0, fsub_floor h0 hf]

theorem last_eq {n : Nat} (h1 : 1 ≤ n) (h : n ≤ 2 ^ 24) : (n + 2 ^ 32 - 1) % 2 ^ 32 = n - 1 := by
  rw [show n + 2 ^ 32 - 1 = (n - 1) + 2 ^ 32 by omega, Nat.add_mod_right]
  exact Nat.mod_eq_of_lt (by omega)

theorem samples_clamp {n : Nat} {x : ℚ} (r : Rounding) (h1 : 1 ≤ n) (hn : n ≤ 2 ^ 24) (h0 : 0 ≤ x)
    (hf : IsFloat x) (hx : x < n) :
    samplesOfIndex n x r .clamp =
      some (⌊x⌋.toNat, min (⌊x⌋.toNat + 1) (n - 1), applyRounding (x - ⌊x⌋) r) := by
  have hnq : (n : ℚ) ≤ 2 ^ 24 := by exact_mod_cast hn
  have hlt := floor_toNat_lt h0 hx
  unfold samplesOfIndex
  rw [toU32_nonneg h0 (by have : (2 : ℚ) ^ 24 < 2 ^ 32 := by norm_num
                          linarith), last_eq h1 hn]
  simp only [Option.bind_eq_bind, Option.bind_some, if_true]
  rw [alpha_eq h0 hf (by linarith)]
  rw [Nat.mod_eq_of_lt (show ⌊x⌋.toNat + 1 < 2 ^ 32 by omega)]
  rfl

theorem samples_wrap {n : Nat} {x : ℚ} (r : Rounding) {l : Looping} (hl : l ≠ .clamp) (h1 : 1 ≤ n)
    (hn : n ≤ 2 ^ 24) (h0 : 0 ≤ x) (hf : IsFloat x) (hx : x < n) :
    samplesOfIndex n x r l =
      some (⌊x⌋.toNat, (if n ≤ ⌊x⌋.toNat + 1 then 0 else ⌊x⌋.toNat + 1), applyRounding (x - ⌊x⌋) r) := by
  have hnq : (n : ℚ) ≤ 2 ^ 24 := by exact_mod_cast hn
  have hlt := floor_toNat_lt h0 hx
  unfold samplesOfIndex
  rw [toU32_nonneg h0 (by have : (2 : ℚ) ^ 24 < 2 ^ 32 := by norm_num
                          linarith), last_eq h1 hn]
  simp only [Option.bind_eq_bind, Option.bind_some]
  rw [alpha_eq h0 hf (by linarith)]
  rw [if_neg hl, if_neg (by omega), Nat.mod_eq_of_lt (show ⌊x⌋.toNat + 1 < 2 ^ 32 by omega)]
  rfl

theorem samples_wrap_end {n : Nat} {x : ℚ} (r : Rounding) {l : Looping} (hl : l ≠ .clamp) (h1 : 1 ≤ n)
    (hn : n ≤ 2 ^ 24) (hx : (n : ℚ) ≤ x) (hx2 : x < 2 ^ 32) :
    samplesOfIndex n x r l = some (0, 0, applyRounding 0 r) := by
  have hn0 : (1 : ℚ) ≤ n := by exact_mod_cast h1
  have h0 : 0 ≤ x := by linarith
  have hge : (n : Int) ≤ ⌊x⌋ := by rw [Int.le_floor]; exact_mod_cast hx
  unfold samplesOfIndex
  rw [toU32_nonneg h0 hx2, last_eq h1 hn]
  simp only [Option.bind_eq_bind, Option.bind_some]
  rw [if_neg hl, if_pos (by omega)]
  have : fsub 0 (ofNat 0) = 0 := by decide +kernel
  rw [this]
  rfl

/-- A product that stays close to an index below 2^23 is a float once rounded. -/
theorem isFloat_idx {p : ℚ} (h0 : 0 ≤ p) (h : p ≤ 2 ^ 24) : IsFloat (rnd p) := by
  apply isFloat_rnd
  rw [abs_of_nonneg h0]
  refine lt_of_le_of_lt h ?_
  decide +kernel

/-- The two samples are valid and next to each other, the factor is in [0,1]. -/
def Neighbours (looping : Looping) (n : Nat) (s : Nat × Nat × ℚ) : Prop :=
  s.1 < n ∧ s.2.1 < n ∧ 0 ≤ s.2.2 ∧ s.2.2 ≤ 1 ∧
  (looping = .clamp → s.2.1 = s.1 + 1 ∨ (s.2.1 = s.1 ∧ s.1 = n - 1)) ∧
  (looping ≠ .clamp → s.2.1 = s.1 + 1 ∨ (s.2.1 = 0 ∧ s.1 = n - 1) ∨ (s.2.1 = 0 ∧ s.1 = 0))

theorem fract_unit {x : ℚ} : 0 ≤ x - ⌊x⌋ ∧ x - ⌊x⌋ ≤ 1 := by
  have := Int.floor_le x; have := Int.lt_floor_add_one x
  constructor <;> linarith

theorem samplesOfIndex_neighbours {n : Nat} {p : ℚ} (r : Rounding) (l : Looping) (h1 : 1 ≤ n)
    (hn : n + 4 ≤ 2 ^ 23) (h0 : 0 ≤ p)
    (hp : p ≤ ((if l = .clamp then n - 1 else n : Nat) : ℚ) +
      ((if l = .clamp then n - 1 else n : Nat) : ℚ) / 2 ^ 24 + 1 / 2 ^ 22) :
    ∃ s, samplesOfIndex n (rnd p) r l = some s ∧ Neighbours l n s := by
  have hnq : (n : ℚ) + 4 ≤ 2 ^ 23 := by exact_mod_cast hn
  have hx0 := rnd_nonneg h0
  obtain ⟨u0, u1⟩ := applyRounding_unit (fract_unit (x := rnd p)).1 (fract_unit (x := rnd p)).2 r
  by_cases hl : l = .clamp
  · subst hl
    rw [if_pos rfl] at hp
    have hx := idx_lt (by omega) hp
    have hc : ((n - 1 : Nat) : ℚ) = n - 1 := by rw [Nat.cast_sub h1]; simp
    rw [hc] at hx hp
    have hf := isFloat_idx h0 (by linarith)
    have hlt := floor_toNat_lt hx0 (show rnd p < n by linarith)
    refine ⟨_, samples_clamp r h1 (by omega) hx0 hf (by linarith), hlt, ?_, u0, u1, ?_, by simp⟩
    · show min _ _ < n; omega
    · intro _; show min _ _ = _ ∨ min _ _ = _ ∧ _ = _; dsimp only; omega
  · rw [if_neg hl] at hp
    have hx := idx_lt (by omega) hp
    have hf := isFloat_idx h0 (by linarith)
    by_cases hend : (n : ℚ) ≤ rnd p
    · refine ⟨_, samples_wrap_end r hl h1 (by omega) hend (by norm_num at hnq ⊢; linarith), by show 0 < n; omega,
        by show 0 < n; omega, ?_, ?_, fun h => absurd h hl, fun _ => Or.inr (Or.inr ⟨rfl, rfl⟩)⟩
      · exact (applyRounding_unit le_rfl (by norm_num) r).1
      · exact (applyRounding_unit le_rfl (by norm_num) r).2
    · push Not at hend
      have hlt := floor_toNat_lt hx0 hend
      refine ⟨_, samples_wrap r hl h1 (by omega) hx0 hf hend, hlt, ?_, u0, u1, fun h => absurd h hl, fun _ => ?_⟩
      · show (if n ≤ ⌊rnd p⌋.toNat + 1 then 0 else ⌊rnd p⌋.toNat + 1) < n
        split <;> omega
      · show (if n ≤ ⌊rnd p⌋.toNat + 1 then 0 else ⌊rnd p⌋.toNat + 1) = ⌊rnd p⌋.toNat + 1 ∨
          ((if n ≤ ⌊rnd p⌋.toNat + 1 then 0 else ⌊rnd p⌋.toNat + 1) = 0 ∧ ⌊rnd p⌋.toNat = n - 1) ∨ _
        split
        · right; left; omega
        · left; rfl

end Acl.Interp
