import Mathlib.Data.Rat.Floor
import Mathlib.Algebra.Order.Field.Power
import Mathlib.Tactic.Linarith
import Mathlib.Tactic.NormNum
import Mathlib.Tactic.Positivity
import Mathlib.Tactic.FieldSimp
import Mathlib.Tactic.Ring

/-!
# binary32 arithmetic over the rationals

A finite `float` is the rational number it denotes.  `rnd` is the rounding of
IEEE-754 binary32 in the default mode (nearest, ties to even), with gradual
underflow.  It is not tied to one file of the repository: it is the meaning of
`+ - * /` and of the integer to float conversion on `float` operands in every
function modelled below (SSE2/NEON/scalar code, no `-ffast-math`).

Simplifications, common to every user of this file:
* the exponent is not bounded above, so `rnd` never returns infinity; theorems
  keep results below `2^128` by hypotheses, or the model tests it (`fdivInf`);
* the sign of zero is lost, NaN does not exist;
* no contraction of `a*b+c` in a fused operation unless a definition says so.
-/

namespace Acl.F32

/-- `2^e` as a rational, in a form the kernel evaluates. -/
def pow2 : Int → ℚ
  | .ofNat n => ((2 ^ n : Nat) : ℚ)
  | .negSucc n => 1 / ((2 ^ (n + 1) : Nat) : ℚ)

/-- `⌊log2 q⌋` for `0 < q`. -/
def ilog2 (q : ℚ) : Int :=
  let k : Int := (Nat.log2 q.num.natAbs : Int) - (Nat.log2 q.den : Int)
  if pow2 k ≤ q then k else k - 1

/-- Nearest integer, ties to even. -/
def rne (q : ℚ) : Int :=
  let f := ⌊q⌋
  let r := q - f
  if r < 1 / 2 then f
  else if 1 / 2 < r then f + 1
  else if f % 2 = 0 then f else f + 1

/-- Binary exponent of a non-negative number, never below the one of the
smallest normal number `2^-126`. -/
def expo (q : ℚ) : Int := max (ilog2 q) (-126)

/-- Distance between neighbouring floats around a non-negative `q`: 24
significant bits. -/
def ulp (q : ℚ) : ℚ := pow2 (expo q - 23)

/-- Rounding of a non-negative rational. -/
def rndPos (q : ℚ) : ℚ := rne (q / ulp q) * ulp q

/-- Rounding of a rational to binary32, nearest, ties to even. -/
def rnd (q : ℚ) : ℚ := if q < 0 then - rndPos (-q) else rndPos q

/-- The rationals denoted by finite binary32 values. -/
def IsFloat (x : ℚ) : Prop :=
  ∃ m e : Int, x = m * pow2 e ∧ |m| < 2 ^ 24 ∧ -149 ≤ e ∧ e ≤ 104

/-- Float operations. -/
def fadd (a b : ℚ) : ℚ := rnd (a + b)
def fsub (a b : ℚ) : ℚ := rnd (a - b)
def fmul (a b : ℚ) : ℚ := rnd (a * b)
def fdiv (a b : ℚ) : ℚ := rnd (a / b)
/-- Conversion from `uint32_t`. -/
def ofNat (n : Nat) : ℚ := rnd (n : ℚ)

/-! ## Powers of two -/

theorem pow2_eq (e : Int) : pow2 e = (2 : ℚ) ^ e := by
  cases e with
  | ofNat n => simp [pow2]
  | negSucc n => simp [pow2, zpow_negSucc]

theorem pow2_pos (e : Int) : 0 < pow2 e := by rw [pow2_eq]; positivity

theorem pow2_ne (e : Int) : pow2 e ≠ 0 := (pow2_pos e).ne'

theorem pow2_add (a b : Int) : pow2 (a + b) = pow2 a * pow2 b := by
  simp only [pow2_eq]; exact zpow_add₀ (by norm_num) a b

theorem pow2_succ (a : Int) : pow2 (a + 1) = 2 * pow2 a := by
  rw [pow2_add]; simp [pow2_eq, mul_comm]

theorem pow2_mono {a b : Int} (h : a ≤ b) : pow2 a ≤ pow2 b := by
  simp only [pow2_eq]; exact zpow_le_zpow_right₀ (by norm_num) h

theorem pow2_lt {a b : Int} (h : a < b) : pow2 a < pow2 b := by
  simp only [pow2_eq]; exact zpow_lt_zpow_right₀ (by norm_num) h

theorem pow2_le_iff {a b : Int} : pow2 a ≤ pow2 b ↔ a ≤ b := by
  refine ⟨fun h => ?_, pow2_mono⟩
  by_contra hc
  exact absurd h (not_le.mpr (pow2_lt (not_le.mp hc)))

theorem pow2_lt_iff {a b : Int} : pow2 a < pow2 b ↔ a < b := by
  refine ⟨fun h => ?_, pow2_lt⟩
  by_contra hc
  exact absurd h (not_lt.mpr (pow2_mono (not_lt.mp hc)))

theorem pow2_nat (n : Nat) : pow2 (n : Int) = (2 : ℚ) ^ n := by
  rw [pow2_eq]; simp

theorem pow2_sub (a b : Int) : pow2 (a - b) = pow2 a / pow2 b := by
  simp only [pow2_eq]; exact zpow_sub₀ (by norm_num) a b

/-! ## Binary logarithm -/

theorem ilog2_spec {q : ℚ} (h : 0 < q) :
    pow2 (ilog2 q) ≤ q ∧ q < pow2 (ilog2 q + 1) := by
  have hn : q.num.natAbs ≠ 0 := by
    have := Rat.num_pos.mpr h; omega
  have hd : q.den ≠ 0 := q.den_nz
  have hn1 := (Nat.log2_eq_iff (n := q.num.natAbs) (k := Nat.log2 q.num.natAbs) hn).mp rfl
  have hd1 := (Nat.log2_eq_iff (n := q.den) (k := Nat.log2 q.den) hd).mp rfl
  unfold ilog2
  generalize ha : Nat.log2 q.num.natAbs = a at hn1
  generalize hb : Nat.log2 q.den = b at hd1
  have hq : q = (q.num.natAbs : ℚ) / (q.den : ℚ) := by
    conv_lhs => rw [← Rat.num_div_den q]
    congr 1
    have := Rat.num_pos.mpr h
    have e : (q.num.natAbs : ℤ) = q.num := by omega
    have e2 : ((q.num.natAbs : ℤ) : ℚ) = (q.num : ℚ) := by rw [e]
    rw [← e2]; rfl
  have hdp : (0 : ℚ) < q.den := by exact_mod_cast Nat.pos_of_ne_zero hd
  have n1 : (2 : ℚ) ^ a ≤ q.num.natAbs := by exact_mod_cast hn1.1
  have n2 : (q.num.natAbs : ℚ) < 2 ^ (a + 1) := by exact_mod_cast hn1.2
  have d1 : (2 : ℚ) ^ b ≤ q.den := by exact_mod_cast hd1.1
  have d2 : (q.den : ℚ) < 2 ^ (b + 1) := by exact_mod_cast hd1.2
  have lo : pow2 ((a : Int) - b - 1) < q := by
    rw [hq, lt_div_iff₀ hdp]
    have : pow2 ((a : Int) - b - 1) * 2 ^ (b + 1) = 2 ^ a := by
      rw [← pow2_nat (b + 1), ← pow2_add, ← pow2_nat]; congr 1; push_cast; ring
    calc pow2 ((a : Int) - b - 1) * q.den
        < pow2 ((a : Int) - b - 1) * 2 ^ (b + 1) := by
          exact mul_lt_mul_of_pos_left d2 (pow2_pos _)
      _ = 2 ^ a := this
      _ ≤ _ := n1
  have hi : q < pow2 ((a : Int) - b + 1) := by
    rw [hq, div_lt_iff₀ hdp]
    have : pow2 ((a : Int) - b + 1) * 2 ^ b = 2 ^ (a + 1) := by
      rw [← pow2_nat b, ← pow2_add, ← pow2_nat]; congr 1; push_cast; ring
    calc (q.num.natAbs : ℚ) < 2 ^ (a + 1) := n2
      _ = pow2 ((a : Int) - b + 1) * 2 ^ b := this.symm
      _ ≤ pow2 ((a : Int) - b + 1) * q.den := by
          exact mul_le_mul_of_nonneg_left d1 (pow2_pos _).le
  simp only []
  split
  · next hc => exact ⟨hc, hi⟩
  · next hc =>
    refine ⟨lo.le, ?_⟩
    have : (a : Int) - b - 1 + 1 = a - b := by ring
    rw [this]; exact not_le.mp hc

theorem ilog2_eq {q : ℚ} {k : Int} (h1 : pow2 k ≤ q) (h2 : q < pow2 (k + 1)) :
    ilog2 q = k := by
  have h := ilog2_spec (lt_of_lt_of_le (pow2_pos k) h1)
  have a := pow2_lt_iff.mp (lt_of_le_of_lt h.1 h2)
  have b := pow2_lt_iff.mp (lt_of_le_of_lt h1 h.2)
  omega

theorem ilog2_mono {x y : ℚ} (h : 0 < x) (hxy : x ≤ y) : ilog2 x ≤ ilog2 y := by
  have hx := ilog2_spec h
  have hy := ilog2_spec (lt_of_lt_of_le h hxy)
  have := pow2_lt_iff.mp (lt_of_le_of_lt (hx.1.trans hxy) hy.2)
  omega

/-! ## Nearest integer -/

theorem rne_err (q : ℚ) : |(rne q : ℚ) - q| ≤ 1 / 2 := by
  unfold rne
  have h1 := Int.floor_le q
  have h2 := Int.lt_floor_add_one q
  simp only []
  split
  · rw [abs_le]; constructor <;> linarith
  · split
    · push_cast; rw [abs_le]; constructor <;> linarith
    · split
      · rw [abs_le]; constructor <;> linarith
      · push_cast; rw [abs_le]; constructor <;> linarith

theorem rne_int (z : Int) : rne (z : ℚ) = z := by
  unfold rne; simp

theorem rne_ge_floor (q : ℚ) : ⌊q⌋ ≤ rne q := by
  unfold rne; simp only []; split <;> [omega; (split <;> [omega; (split <;> omega)])]

theorem rne_le_floor (q : ℚ) : rne q ≤ ⌊q⌋ + 1 := by
  unfold rne; simp only []; split <;> [omega; (split <;> [omega; (split <;> omega)])]

theorem rne_mono {x y : ℚ} (h : x ≤ y) : rne x ≤ rne y := by
  have hf := Int.floor_le_floor h
  rcases lt_or_eq_of_le hf with hlt | heq
  · have := rne_le_floor x; have := rne_ge_floor y; omega
  · unfold rne
    simp only []
    rw [heq]
    generalize ⌊y⌋ = f
    by_cases a1 : x - f < 1 / 2
    · rw [if_pos a1]
      split <;> [omega; (split <;> [omega; (split <;> omega)])]
    · rw [if_neg a1, if_neg (show ¬ y - f < 1 / 2 by push Not at a1 ⊢; linarith)]
      by_cases a2 : 1 / 2 < x - f
      · rw [if_pos a2, if_pos (show 1 / 2 < y - f by linarith)]
      · rw [if_neg a2]
        by_cases a3 : 1 / 2 < y - f
        · rw [if_pos a3]; split <;> omega
        · rw [if_neg a3]

theorem rne_nonneg {x : ℚ} (h : 0 ≤ x) : 0 ≤ rne x := by
  have := rne_mono h
  have e := rne_int 0
  simp only [Int.cast_zero] at e
  omega

/-! ## Rounding of non-negative numbers -/

theorem ulp_pos (q : ℚ) : 0 < ulp q := pow2_pos _

theorem expo_ge (q : ℚ) : -126 ≤ expo q := le_max_right _ _

theorem lt_pow2_expo {q : ℚ} (h : 0 ≤ q) : q < pow2 (expo q + 1) := by
  rcases h.eq_or_lt with rfl | h
  · exact pow2_pos _
  · exact lt_of_lt_of_le (ilog2_spec h).2 (pow2_mono (by unfold expo; omega))

theorem pow2_expo_le {q : ℚ} (h : 0 < q) (he : -126 < expo q) : pow2 (expo q) ≤ q := by
  have e : expo q = ilog2 q := by unfold expo at *; omega
  rw [e]; exact (ilog2_spec h).1

theorem rndPos_zero : rndPos 0 = 0 := by
  unfold rndPos; simp [rne]

theorem rndPos_nonneg {q : ℚ} (h : 0 ≤ q) : 0 ≤ rndPos q := by
  unfold rndPos
  have : 0 ≤ rne (q / ulp q) := rne_nonneg (div_nonneg h (ulp_pos q).le)
  exact mul_nonneg (by exact_mod_cast this) (ulp_pos q).le

/-- An integer multiple of the ulp is exact. -/
theorem rndPos_mul_ulp {q : ℚ} {z : Int} (h : q = z * ulp q) : rndPos q = q := by
  unfold rndPos
  conv_lhs => rw [show q / ulp q = (z : ℚ) from by
    rw [div_eq_iff (ulp_pos q).ne']; exact h]
  rw [rne_int]; exact h.symm

theorem rndPos_le_pow2 {q : ℚ} (h : 0 ≤ q) : rndPos q ≤ pow2 (expo q + 1) := by
  unfold rndPos
  have e : pow2 (expo q + 1) = ((2 ^ 24 : Int) : ℚ) * ulp q := by
    unfold ulp
    rw [show expo q + 1 = 24 + (expo q - 23) from by ring, pow2_add]
    congr 1
  have h1 : q / ulp q ≤ ((2 ^ 24 : Int) : ℚ) := by
    rw [div_le_iff₀ (ulp_pos q), ← e]; exact (lt_pow2_expo h).le
  have h2 := rne_mono h1
  rw [rne_int] at h2
  rw [e]
  exact mul_le_mul_of_nonneg_right (by exact_mod_cast h2) (ulp_pos q).le

theorem pow2_le_rndPos {q : ℚ} (h : 0 < q) (he : -126 < expo q) : pow2 (expo q) ≤ rndPos q := by
  unfold rndPos
  have e : pow2 (expo q) = ((2 ^ 23 : Int) : ℚ) * ulp q := by
    unfold ulp
    conv_lhs => rw [show expo q = 23 + (expo q - 23) from by ring, pow2_add]
    congr 1
  have h1 : ((2 ^ 23 : Int) : ℚ) ≤ q / ulp q := by
    rw [le_div_iff₀ (ulp_pos q), ← e]; exact pow2_expo_le h he
  have h2 := rne_mono h1
  rw [rne_int] at h2
  rw [e]
  exact mul_le_mul_of_nonneg_right (by exact_mod_cast h2) (ulp_pos q).le

theorem rndPos_mono {x y : ℚ} (h : 0 ≤ x) (hxy : x ≤ y) : rndPos x ≤ rndPos y := by
  rcases h.eq_or_lt with rfl | hx
  · rw [rndPos_zero]; exact rndPos_nonneg hxy
  have hy : 0 < y := lt_of_lt_of_le hx hxy
  have he : expo x ≤ expo y := by
    have := ilog2_mono hx hxy; unfold expo; omega
  rcases he.eq_or_lt with heq | hlt
  · unfold rndPos
    have hu : ulp x = ulp y := by unfold ulp; rw [heq]
    rw [hu]
    have h1 : x / ulp y ≤ y / ulp y := div_le_div_of_nonneg_right hxy (ulp_pos y).le
    have := rne_mono h1
    exact mul_le_mul_of_nonneg_right (by exact_mod_cast this) (ulp_pos y).le
  · have h1 := rndPos_le_pow2 h
    have h2 := pow2_le_rndPos hy (lt_of_le_of_lt (expo_ge x) hlt)
    exact h1.trans ((pow2_mono (by omega)).trans h2)

theorem rndPos_err {q : ℚ} : |rndPos q - q| ≤ ulp q / 2 := by
  unfold rndPos
  have e : (rne (q / ulp q) : ℚ) * ulp q - q = (rne (q / ulp q) - q / ulp q) * ulp q := by
    rw [sub_mul, div_mul_cancel₀ _ (ulp_pos q).ne']
  rw [e, abs_mul, abs_of_pos (ulp_pos q)]
  have := rne_err (q / ulp q)
  calc _ ≤ 1 / 2 * ulp q := mul_le_mul_of_nonneg_right this (ulp_pos q).le
    _ = _ := by ring

theorem ulp_le {q : ℚ} (h : pow2 (-126) ≤ q) : ulp q ≤ pow2 (-23) * q := by
  have hq : 0 < q := lt_of_lt_of_le (pow2_pos _) h
  have hs := ilog2_spec hq
  have hl : -126 ≤ ilog2 q := by
    have := pow2_lt_iff.mp (lt_of_le_of_lt h hs.2); omega
  have e : expo q = ilog2 q := by unfold expo; omega
  unfold ulp
  rw [e, sub_eq_add_neg, pow2_add, mul_comm]
  exact mul_le_mul_of_nonneg_left hs.1 (pow2_pos _).le

theorem ulp_small {q : ℚ} (h0 : 0 < q) (h : q < pow2 (-126)) : ulp q = pow2 (-149) := by
  unfold ulp
  congr 1
  have := pow2_lt_iff.mp (lt_of_le_of_lt (ilog2_spec h0).1 h)
  unfold expo; omega

/-! ## Rounding of any number -/

theorem rnd_of_nonneg {q : ℚ} (h : 0 ≤ q) : rnd q = rndPos q := by
  unfold rnd; rw [if_neg (not_lt.mpr h)]

theorem rnd_zero : rnd 0 = 0 := by rw [rnd_of_nonneg le_rfl, rndPos_zero]

theorem rnd_neg (q : ℚ) : rnd (-q) = - rnd q := by
  unfold rnd
  rcases lt_trichotomy q 0 with h | rfl | h
  · rw [if_neg (by linarith), if_pos h, neg_neg]
  · simp [rndPos_zero]
  · rw [if_pos (by linarith), if_neg (by linarith), neg_neg]

theorem rnd_nonneg {q : ℚ} (h : 0 ≤ q) : 0 ≤ rnd q := by
  rw [rnd_of_nonneg h]; exact rndPos_nonneg h

theorem rnd_nonpos {q : ℚ} (h : q ≤ 0) : rnd q ≤ 0 := by
  have := rnd_nonneg (q := -q) (by linarith)
  rw [rnd_neg] at this; linarith

theorem rnd_mono {x y : ℚ} (h : x ≤ y) : rnd x ≤ rnd y := by
  by_cases hx : 0 ≤ x
  · rw [rnd_of_nonneg hx, rnd_of_nonneg (hx.trans h)]; exact rndPos_mono hx h
  · push Not at hx
    by_cases hy : 0 ≤ y
    · exact (rnd_nonpos hx.le).trans (rnd_nonneg hy)
    · push Not at hy
      have := rndPos_mono (x := -y) (y := -x) (by linarith) (by linarith)
      rw [← rnd_of_nonneg (by linarith), ← rnd_of_nonneg (by linarith), rnd_neg, rnd_neg] at this
      linarith

/-- Relative error in the normal range. -/
theorem rnd_err_rel {q : ℚ} (h : pow2 (-126) ≤ |q|) : |rnd q - q| ≤ pow2 (-24) * |q| := by
  wlog h0 : 0 ≤ q with H
  · have := H (q := -q) (by rwa [abs_neg]) (by push Not at h0; linarith)
    rw [rnd_neg, abs_neg] at this
    rwa [show -rnd q - -q = -(rnd q - q) from by ring, abs_neg] at this
  have e : pow2 (-24) = pow2 (-23) / 2 := by decide +kernel
  rw [abs_of_nonneg h0] at *
  rw [rnd_of_nonneg h0]
  have h1 := rndPos_err (q := q)
  have h2 := ulp_le h
  rw [e]; linarith

/-- Absolute error in the denormal range. -/
theorem rnd_err_abs {q : ℚ} (h : |q| < pow2 (-126)) : |rnd q - q| ≤ pow2 (-150) := by
  wlog h0 : 0 ≤ q with H
  · have := H (q := -q) (by rwa [abs_neg]) (by push Not at h0; linarith)
    rw [rnd_neg] at this
    rwa [show -rnd q - -q = -(rnd q - q) from by ring, abs_neg] at this
  have e : pow2 (-150) = pow2 (-149) / 2 := by decide +kernel
  rcases h0.eq_or_lt with hz | hp
  · rw [← hz, rnd_zero]; simp [(pow2_pos _).le]
  rw [abs_of_nonneg h0] at h
  rw [rnd_of_nonneg h0]
  have h1 := rndPos_err (q := q)
  rw [ulp_small hp h] at h1
  rw [e]; linarith

/-- Error for every number. -/
theorem rnd_err (q : ℚ) : |rnd q - q| ≤ pow2 (-24) * |q| + pow2 (-150) := by
  by_cases h : pow2 (-126) ≤ |q|
  · have := rnd_err_rel h; have := pow2_pos (-150); linarith
  · push Not at h
    have := rnd_err_abs h
    have := mul_nonneg (pow2_pos (-24)).le (abs_nonneg q)
    linarith

/-- Numbers with at most 24 significant bits, above the smallest denormal, are
exact. -/
theorem rnd_exact {m e : Int} (hm : |m| < 2 ^ 24) (he : -149 ≤ e) :
    rnd (m * pow2 e) = m * pow2 e := by
  wlog h0 : 0 ≤ m with H
  · have := H (m := -m) (e := e) (by rwa [abs_neg]) he (by omega)
    push_cast at this
    rw [neg_mul, rnd_neg] at this
    linarith
  have hq0 : 0 ≤ (m : ℚ) * pow2 e := mul_nonneg (by exact_mod_cast h0) (pow2_pos e).le
  rw [rnd_of_nonneg hq0]
  rw [abs_of_nonneg h0] at hm
  rcases hq0.eq_or_lt with hz | hp
  · rw [← hz, rndPos_zero]
  -- the ulp divides 2^e
  have hle : expo ((m : ℚ) * pow2 e) - 23 ≤ e := by
    have hlt : (m : ℚ) * pow2 e < pow2 (24 + e) := by
      rw [pow2_add]
      refine mul_lt_mul_of_pos_right ?_ (pow2_pos e)
      have : pow2 24 = ((2 ^ 24 : Int) : ℚ) := by decide +kernel
      rw [this]; exact_mod_cast hm
    have := pow2_lt_iff.mp (lt_of_le_of_lt (ilog2_spec hp).1 hlt)
    unfold expo; omega
  obtain ⟨k, hk⟩ := Int.eq_ofNat_of_zero_le (sub_nonneg.mpr hle)
  apply rndPos_mul_ulp (z := m * 2 ^ k)
  unfold ulp
  have : e = (k : Int) + (expo ((m : ℚ) * pow2 e) - 23) := by omega
  conv_lhs => rw [this, pow2_add, pow2_nat]
  push_cast; ring

theorem rnd_of_isFloat {x : ℚ} (h : IsFloat x) : rnd x = x := by
  obtain ⟨m, e, rfl, hm, he, -⟩ := h
  exact rnd_exact hm he

theorem rnd_nat {n : Nat} (h : n < 2 ^ 24) : rnd (n : ℚ) = n := by
  have := rnd_exact (m := (n : Int)) (e := 0) (by rw [abs_of_nonneg (by omega)]; exact_mod_cast h) (by omega)
  have e : pow2 0 = 1 := by decide +kernel
  rw [e, mul_one] at this
  exact_mod_cast this

theorem ofNat_eq {n : Nat} (h : n < 2 ^ 24) : ofNat n = n := rnd_nat h

/-- The result of a rounding is a float when it does not overflow. -/
theorem isFloat_rnd {x : ℚ} (h : |x| < pow2 127) : IsFloat (rnd x) := by
  wlog h0 : 0 ≤ x with H
  · have h1 := H (x := -x) (by rwa [abs_neg]) (by push Not at h0; linarith)
    rw [rnd_neg] at h1
    obtain ⟨m, e, hx, hm, he, he2⟩ := h1
    exact ⟨-m, e, by push_cast; linarith, by rwa [abs_neg], he, he2⟩
  rw [abs_of_nonneg h0] at h
  rw [rnd_of_nonneg h0]
  have hex : expo x ≤ 126 := by
    rcases h0.eq_or_lt with rfl | hp
    · decide +kernel
    · have := pow2_lt_iff.mp (lt_of_le_of_lt (ilog2_spec hp).1 h)
      unfold expo; omega
  have hge := expo_ge x
  have hle : rne (x / ulp x) ≤ 2 ^ 24 := by
    have e : pow2 (expo x + 1) = ((2 ^ 24 : Int) : ℚ) * ulp x := by
      unfold ulp
      rw [show expo x + 1 = 24 + (expo x - 23) from by ring, pow2_add]
      congr 1
    have h1 : x / ulp x ≤ ((2 ^ 24 : Int) : ℚ) := by
      rw [div_le_iff₀ (ulp_pos x), ← e]; exact (lt_pow2_expo h0).le
    have h2 := rne_mono h1
    rwa [rne_int] at h2
  have hz : 0 ≤ rne (x / ulp x) := rne_nonneg (div_nonneg h0 (ulp_pos x).le)
  rcases hle.eq_or_lt with heq | hlt
  · refine ⟨2 ^ 23, expo x - 22, ?_, by decide, by omega, by omega⟩
    unfold rndPos ulp at *
    rw [heq, show expo x - 22 = expo x - 23 + 1 from by ring, pow2_succ]
    push_cast; ring
  · exact ⟨rne (x / ulp x), expo x - 23, rfl, by rw [abs_of_nonneg hz]; exact hlt, by omega, by omega⟩

theorem rnd_rnd {x : ℚ} (h : |x| < pow2 127) : rnd (rnd x) = rnd x :=
  rnd_of_isFloat (isFloat_rnd h)

end Acl.F32

namespace Acl.F32

theorem rnd_dyadic (k : Int) (j : Nat) (hk : |k| < 2 ^ 24) (hj : j ≤ 149) :
    rnd ((k : ℚ) / 2 ^ j) = (k : ℚ) / 2 ^ j := by
  have e : (k : ℚ) / 2 ^ j = k * pow2 (-(j : Int)) := by
    rw [pow2_eq, zpow_neg, div_eq_mul_inv]; simp
  rw [e]; exact rnd_exact hk (by omega)

/-- A rounded value stays below a float that bounds the exact value. -/
theorem rnd_le_dyadic {x : ℚ} (k : Int) (j : Nat) (hk : |k| < 2 ^ 24) (hj : j ≤ 149)
    (h : x ≤ (k : ℚ) / 2 ^ j) : rnd x ≤ (k : ℚ) / 2 ^ j := by
  have := rnd_mono h; rwa [rnd_dyadic k j hk hj] at this

theorem dyadic_le_rnd {x : ℚ} (k : Int) (j : Nat) (hk : |k| < 2 ^ 24) (hj : j ≤ 149)
    (h : (k : ℚ) / 2 ^ j ≤ x) : (k : ℚ) / 2 ^ j ≤ rnd x := by
  have := rnd_mono h; rwa [rnd_dyadic k j hk hj] at this

/-- The fractional part of a non-negative float is a float. -/
theorem isFloat_fract {x : ℚ} (h0 : 0 ≤ x) (h : IsFloat x) : IsFloat (x - ⌊x⌋) := by
  obtain ⟨m, e, hx, hm, he, he2⟩ := h
  have hm0 : 0 ≤ m := by
    by_contra hc
    push Not at hc
    have : (m : ℚ) * pow2 e < 0 := mul_neg_of_neg_of_pos (by exact_mod_cast hc) (pow2_pos e)
    rw [← hx] at this; linarith
  rw [abs_of_nonneg hm0] at hm
  rcases le_or_gt 0 e with hpos | hneg
  · obtain ⟨k, rfl⟩ := Int.eq_ofNat_of_zero_le hpos
    have hi : x = ((m * 2 ^ k : Int) : ℚ) := by rw [hx, pow2_nat]; push_cast; ring
    refine ⟨0, 0, ?_, by decide, by omega, by omega⟩
    rw [hi, Int.floor_intCast]; simp
  · obtain ⟨k, hk⟩ := Int.eq_ofNat_of_zero_le (show 0 ≤ -e by omega)
    have hxe : x = (m : ℚ) / ((2 ^ k : Int) : ℚ) := by
      rw [hx, show e = -(k : Int) from by omega, pow2_eq, zpow_neg, div_eq_mul_inv]
      push_cast; simp
    have hfl : ⌊x⌋ = m / 2 ^ k := by
      rw [hxe]
      have := Rat.floor_intCast_div_natCast m (2 ^ k)
      push_cast at this ⊢
      exact this
    have hmod := Int.emod_add_mul_ediv m (2 ^ k)
    have hp : (0 : Int) < 2 ^ k := by positivity
    have h1 := Int.emod_nonneg m hp.ne'
    have h2 : m % 2 ^ k ≤ m := by
      have := mul_nonneg hp.le (Int.ediv_nonneg hm0 hp.le)
      linarith
    refine ⟨m % 2 ^ k, e, ?_, by rw [abs_of_nonneg h1]; omega, he, he2⟩
    rw [hfl, hxe, show e = -(k : Int) from by omega, pow2_eq, zpow_neg]
    have hpq : ((2 ^ k : Int) : ℚ) ≠ 0 := by exact_mod_cast hp.ne'
    have hq : (m : ℚ) = ((m % 2 ^ k : Int) : ℚ) + ((2 ^ k : Int) : ℚ) * ((m / 2 ^ k : Int) : ℚ) := by
      exact_mod_cast hmod.symm
    generalize ((m % 2 ^ k : Int) : ℚ) = r at *
    generalize ((m / 2 ^ k : Int) : ℚ) = d at *
    have e3 : ((2 : ℚ) ^ (k : Int))⁻¹ = ((2 ^ k : Int) : ℚ)⁻¹ := by push_cast; simp
    rw [e3, hq]
    field_simp
    ring

/-- Taking the integer part away from a float is exact. -/
theorem fsub_floor {x : ℚ} (h0 : 0 ≤ x) (h : IsFloat x) : fsub x ⌊x⌋ = x - ⌊x⌋ :=
  rnd_of_isFloat (isFloat_fract h0 h)

/-- `fl(fl(m/b) * b)` is close to `m`. -/
theorem div_mul_err {m : Nat} {b : ℚ} (hb : 0 < b) (hb2 : b < pow2 128) :
    |fdiv m b * b - m| ≤ m / 2 ^ 24 + 1 / 2 ^ 22 := by
  unfold fdiv
  have h := rnd_err ((m : ℚ) / b)
  rw [abs_of_nonneg (show (0 : ℚ) ≤ m / b by positivity)] at h
  have e : rnd ((m : ℚ) / b) * b - m = (rnd ((m : ℚ) / b) - m / b) * b := by
    rw [sub_mul, div_mul_cancel₀ _ hb.ne']
  rw [e, abs_mul, abs_of_pos hb]
  have h1 := mul_le_mul_of_nonneg_right h hb.le
  have h2 : (pow2 (-24) * (m / b) + pow2 (-150)) * b = pow2 (-24) * m + pow2 (-150) * b := by
    field_simp
  have h3 : pow2 (-150) * b ≤ pow2 (-150) * pow2 128 :=
    mul_le_mul_of_nonneg_left hb2.le (pow2_pos _).le
  have e24 : pow2 (-24) * (m : ℚ) = m / 2 ^ 24 := by
    rw [show pow2 (-24) = 1 / 2 ^ 24 by decide +kernel]; ring
  have e22 : pow2 (-150) * pow2 128 = 1 / 2 ^ 22 := by decide +kernel
  rw [h2, e24] at h1
  rw [e22] at h3
  linarith

end Acl.F32

namespace Acl.F32

/-- Below 2^k the rounding error is at most 2^(k-25) (normal range). -/
theorem rnd_err_lt {x : ℚ} {k : Int} (hk : -125 ≤ k) (h0 : 0 ≤ x) (h : x < pow2 k) :
    |rnd x - x| ≤ pow2 (k - 25) := by
  rcases h0.eq_or_lt with hz | hp
  · rw [← hz, rnd_zero]; simp [(pow2_pos _).le]
  rw [rnd_of_nonneg h0]
  have h1 := rndPos_err (q := x)
  have hex : expo x ≤ k - 1 := by
    have := pow2_lt_iff.mp (lt_of_le_of_lt (ilog2_spec hp).1 h)
    unfold expo; omega
  have h2 : ulp x ≤ pow2 (k - 24) := by
    unfold ulp; exact pow2_mono (by omega)
  have e : pow2 (k - 24) = 2 * pow2 (k - 25) := by
    rw [← pow2_succ]; congr 1; ring
  linarith

/-- A float at least 2^k is a multiple of 2^(k-23). -/
theorem isFloat_multiple {x : ℚ} {k : Int} (hf : IsFloat x) (hx : pow2 k ≤ x) :
    ∃ z : Int, x = z * pow2 (k - 23) := by
  obtain ⟨m, e, ha, hm, he, -⟩ := hf
  have hpe := pow2_pos e
  have hpos : 0 < x := lt_of_lt_of_le (pow2_pos k) hx
  have hmpos : 0 < m := by
    by_contra hc; push Not at hc
    have : (m : ℚ) * pow2 e ≤ 0 := mul_nonpos_of_nonpos_of_nonneg (by exact_mod_cast hc) hpe.le
    rw [← ha] at this; linarith
  rw [abs_of_nonneg hmpos.le] at hm
  have hmq : (m : ℚ) < pow2 24 := by
    have e24 : pow2 24 = ((2 ^ 24 : Int) : ℚ) := by decide +kernel
    rw [e24]; exact_mod_cast hm
  have hle : k - 23 ≤ e := by
    have h1 : x < pow2 (24 + e) := by
      rw [ha, pow2_add]; exact mul_lt_mul_of_pos_right hmq hpe
    have := pow2_lt_iff.mp (lt_of_le_of_lt hx h1)
    omega
  obtain ⟨j, hj⟩ := Int.eq_ofNat_of_zero_le (show 0 ≤ e - (k - 23) by omega)
  refine ⟨m * 2 ^ j, ?_⟩
  rw [ha, show e = (j : Int) + (k - 23) from by omega, pow2_add, pow2_nat]
  push_cast
  ring

end Acl.F32
