import Verif.Transform.Rotation
import Verif.Core.LerpLemmas
import Mathlib.Tactic.Linarith
import Mathlib.Tactic.Positivity
import Mathlib.Tactic.LinearCombination
/-
Lengths of decoded rotations, with rounding errors.
-/
namespace Acl.Rotation
open Acl.F32 Acl.Lerp Acl.Convert
open Acl.Transform hiding Quat

/-- The square of the length. -/
def lengthSquared (q : Quat) : ℚ := q.x * q.x + q.y * q.y + q.z * q.z + q.w * q.w

/-- The components are at most `B` in magnitude. -/
def Within (B : ℚ) (q : Quat) : Prop := |q.x| ≤ B ∧ |q.y| ≤ B ∧ |q.z| ≤ B ∧ |q.w| ≤ B

/-- The exact dot product. -/
def exactDot (s e : Quat) : ℚ := s.x * e.x + s.y * e.y + s.z * e.z + s.w * e.w

/-- What is assumed of a square root: never negative, and accurate to 22 bits. -/
structure SqrtLaw (sqrt : ℚ → ℚ) : Prop where
  nonneg : ∀ x, 0 ≤ sqrt x
  close : ∀ x, 0 ≤ x → |sqrt x * sqrt x - x| ≤ x / 2 ^ 22

/-- What is assumed of a dot product: a few roundings, in any order. -/
structure DotLaw (dot : Quat → Quat → ℚ) : Prop where
  close : ∀ s e, Within 4 s → Within 4 e → |dot s e - exactDot s e| ≤ 1 / 2 ^ 15
  self : ∀ q, |dot q q - lengthSquared q| ≤ lengthSquared q * 6 / 2 ^ 24 + 1 / 2 ^ 100

theorem tiny : (0 : ℚ) < pow2 (-150) ∧ pow2 (-150) ≤ 1 / 2 ^ 120 ∧ pow2 (-148) ≤ 1 / 2 ^ 120 ∧ pow2 (-146) ≤ 1 / 2 ^ 120 :=
  ⟨pow2_pos _, by decide +kernel, by decide +kernel, by decide +kernel⟩

theorem mul_within {a b : ℚ} (ha : |a| ≤ 4) (hb : |b| ≤ 4) : |a * b| ≤ 16 := by
  rw [abs_mul]; nlinarith [abs_nonneg a, abs_nonneg b]

theorem dotLaw_group (fused : Bool) : DotLaw (dot fused) := by
  obtain ⟨t0, t1, t2, -⟩ := tiny
  constructor
  · rintro s e ⟨sx, sy, sz, sw⟩ ⟨ex, ey, ez, ew⟩
    have px := mul_within sx ex
    have py := mul_within sy ey
    have pz := mul_within sz ez
    have pw := mul_within sw ew
    unfold dot exactDot fmul
    have e0 := rnd_err' px
    generalize rnd (s.x * e.x) = r0 at *
    rw [abs_le] at e0
    have q1 : |s.y * e.y + r0| ≤ 33 := by rw [abs_le] at *; constructor <;> linarith
    have e1 := mulAdd_err fused py q1
    generalize mulAdd fused s.y e.y r0 = r1 at *
    rw [abs_le] at e1
    have q2 : |s.z * e.z + r1| ≤ 50 := by rw [abs_le] at *; constructor <;> linarith
    have e2 := mulAdd_err fused pz q2
    generalize mulAdd fused s.z e.z r1 = r2 at *
    rw [abs_le] at e2
    have q3 : |s.w * e.w + r2| ≤ 67 := by rw [abs_le] at *; constructor <;> linarith
    have e3 := mulAdd_err fused pw q3
    generalize mulAdd fused s.w e.w r2 = r3 at *
    rw [abs_le] at e3 ⊢
    constructor <;> linarith
  · intro q
    unfold dot lengthSquared fmul
    have hx := mul_self_nonneg q.x
    have hy := mul_self_nonneg q.y
    have hz := mul_self_nonneg q.z
    have hw := mul_self_nonneg q.w
    have e0 := rnd_err' (q := q.x * q.x) (B := q.x * q.x) (by rw [abs_of_nonneg hx])
    generalize rnd (q.x * q.x) = r0 at *
    rw [abs_le] at e0
    have q1 : |q.y * q.y + r0| ≤ q.y * q.y + q.x * q.x * (1 + 1 / 2 ^ 24) + 1 / 2 ^ 120 := by rw [abs_le]; constructor <;> linarith
    have e1 := mulAdd_err fused (by rw [abs_of_nonneg hy]) q1
    generalize mulAdd fused q.y q.y r0 = r1 at *
    rw [abs_le] at e1
    have q2 : |q.z * q.z + r1| ≤ q.z * q.z + (q.x * q.x + q.y * q.y) * (1 + 4 / 2 ^ 24) + 1 / 2 ^ 118 := by rw [abs_le]; constructor <;> linarith
    have e2 := mulAdd_err fused (by rw [abs_of_nonneg hz]) q2
    generalize mulAdd fused q.z q.z r1 = r2 at *
    rw [abs_le] at e2
    have q3 : |q.w * q.w + r2| ≤ q.w * q.w + (q.x * q.x + q.y * q.y + q.z * q.z) * (1 + 6 / 2 ^ 24) + 1 / 2 ^ 116 := by rw [abs_le]; constructor <;> linarith
    have e3 := mulAdd_err fused (by rw [abs_of_nonneg hw]) q3
    generalize mulAdd fused q.w q.w r2 = r3 at *
    rw [abs_le] at e3 ⊢
    constructor <;> linarith

/-- A sum of two sums of two products. -/
theorem pairs_law {a b c d : ℚ} {B : ℚ} (ha : |a| ≤ B) (hb : |b| ≤ B) (hc : |c| ≤ B) (hd : |d| ≤ B) (hB : B ≤ 16) :
    |fadd (fadd (rnd a) (rnd b)) (fadd (rnd c) (rnd d)) - (a + b + c + d)| ≤ 1 / 2 ^ 15 := by
  obtain ⟨t0, t1, t2, -⟩ := tiny
  unfold fadd
  have ea := rnd_err' (ha.trans hB)
  have eb := rnd_err' (hb.trans hB)
  have ec := rnd_err' (hc.trans hB)
  have ed := rnd_err' (hd.trans hB)
  generalize rnd a = a' at *
  generalize rnd b = b' at *
  generalize rnd c = c' at *
  generalize rnd d = d' at *
  rw [abs_le] at ea eb ec ed ha hb hc hd
  have e1 := rnd_err' (q := a' + b') (B := 33) (by rw [abs_le]; constructor <;> linarith)
  have e2 := rnd_err' (q := c' + d') (B := 33) (by rw [abs_le]; constructor <;> linarith)
  generalize rnd (a' + b') = r1 at *
  generalize rnd (c' + d') = r2 at *
  rw [abs_le] at e1 e2
  have e3 := rnd_err' (q := r1 + r2) (B := 67) (by rw [abs_le]; constructor <;> linarith)
  generalize rnd (r1 + r2) = r3 at *
  rw [abs_le] at e3 ⊢
  constructor <;> linarith

theorem pairs_self {a b c d : ℚ} (ha : 0 ≤ a) (hb : 0 ≤ b) (hc : 0 ≤ c) (hd : 0 ≤ d) :
    |fadd (fadd (rnd a) (rnd b)) (fadd (rnd c) (rnd d)) - (a + b + c + d)| ≤ (a + b + c + d) * 6 / 2 ^ 24 + 1 / 2 ^ 100 := by
  obtain ⟨t0, t1, t2, -⟩ := tiny
  unfold fadd
  have ea := rnd_err' (abs_of_nonneg ha).le
  have eb := rnd_err' (abs_of_nonneg hb).le
  have ec := rnd_err' (abs_of_nonneg hc).le
  have ed := rnd_err' (abs_of_nonneg hd).le
  generalize rnd a = a' at *
  generalize rnd b = b' at *
  generalize rnd c = c' at *
  generalize rnd d = d' at *
  rw [abs_le] at ea eb ec ed
  have e1 := rnd_err' (q := a' + b') (B := (a + b) * (1 + 1 / 2 ^ 24) + 1 / 2 ^ 119) (by rw [abs_le]; constructor <;> linarith)
  have e2 := rnd_err' (q := c' + d') (B := (c + d) * (1 + 1 / 2 ^ 24) + 1 / 2 ^ 119) (by rw [abs_le]; constructor <;> linarith)
  generalize rnd (a' + b') = r1 at *
  generalize rnd (c' + d') = r2 at *
  rw [abs_le] at e1 e2
  have e3 := rnd_err' (q := r1 + r2) (B := (a + b + c + d) * (1 + 3 / 2 ^ 24) + 1 / 2 ^ 116) (by rw [abs_le]; constructor <;> linarith)
  generalize rnd (r1 + r2) = r3 at *
  rw [abs_le] at e3 ⊢
  constructor <;> linarith

theorem dotLaw_sse2 : DotLaw dotSse2 := by
  constructor
  · rintro s e ⟨sx, sy, sz, sw⟩ ⟨ex, ey, ez, ew⟩
    unfold dotSse2 exactDot fmul
    have := pairs_law (mul_within sx ex) (mul_within sz ez) (mul_within sy ey) (mul_within sw ew) le_rfl
    rwa [show s.x * e.x + s.y * e.y + s.z * e.z + s.w * e.w = s.x * e.x + s.z * e.z + s.y * e.y + s.w * e.w by ring]
  · intro q
    unfold dotSse2 lengthSquared fmul
    have := pairs_self (mul_self_nonneg q.x) (mul_self_nonneg q.z) (mul_self_nonneg q.y) (mul_self_nonneg q.w)
    rwa [show q.x * q.x + q.y * q.y + q.z * q.z + q.w * q.w = q.x * q.x + q.z * q.z + q.y * q.y + q.w * q.w by ring]

theorem dotLaw_sse4 : DotLaw dotSse4 := by
  constructor
  · rintro s e ⟨sx, sy, sz, sw⟩ ⟨ex, ey, ez, ew⟩
    exact pairs_law (mul_within sx ex) (mul_within sy ey) (mul_within sz ez) (mul_within sw ew) le_rfl
  · intro q
    exact pairs_self (mul_self_nonneg q.x) (mul_self_nonneg q.y) (mul_self_nonneg q.z) (mul_self_nonneg q.w)

/-! ## Normalization -/

/-- Rounding changes the square of a number by two units of rounding. -/
theorem square_rnd {g B : ℚ} (hg : |g| ≤ B) (hB : B ≤ 2 ^ 10) : |rnd g * rnd g - g * g| ≤ g * g * 21 / 10 / 2 ^ 24 + 1 / 2 ^ 100 := by
  obtain ⟨t0, t1, -, -⟩ := tiny
  have e := rnd_err' (le_refl |g|)
  generalize rnd g = v at *
  have hg2 : |g| * |g| = g * g := abs_mul_abs_self g
  have h0 := abs_nonneg g
  rw [show v * v - g * g = (v - g) * (2 * g + (v - g)) by ring, abs_mul]
  have h2 : |2 * g + (v - g)| ≤ 2 * |g| + (|g| / 2 ^ 24 + pow2 (-150)) :=
    (abs_add_le _ _).trans (by rw [abs_mul, abs_of_pos (by norm_num : (0 : ℚ) < 2)]; linarith)
  refine (mul_le_mul e h2 (abs_nonneg _) (by positivity)).trans ?_
  rw [← hg2]
  generalize |g| = a at *
  generalize pow2 (-150) = t at *
  have ha : a ≤ 2 ^ 10 := by linarith
  have h3 : a * t ≤ 2 ^ 10 * (1 / 2 ^ 120) := mul_le_mul ha t1 t0.le (by norm_num)
  have h4 : t * t ≤ 1 * (1 / 2 ^ 120) := mul_le_mul (by linarith) t1 t0.le (by norm_num)
  nlinarith [mul_self_nonneg a]

/-- **Normalization.** A rotation whose length is not too far from one is normalized to within a few units of rounding. -/
theorem normalize_unit {dot : Quat → Quat → ℚ} (hd : DotLaw dot) {sqrt : ℚ → ℚ} (hs : SqrtLaw sqrt) {q : Quat} (h1 : 1 / 4 ≤ lengthSquared q)
    (h2 : lengthSquared q ≤ 64) : |lengthSquared (normalize dot sqrt q) - 1| ≤ 1 / 2 ^ 20 := by
  obtain ⟨t0, t1, -, -⟩ := tiny
  have e1 := hd.self q
  have e3 := hs.nonneg (dot q q)
  rw [abs_le] at e1
  have hD : 1 / 5 ≤ dot q q := by linarith [e1.1]
  have e2 := hs.close (dot q q) (by linarith)
  unfold normalize invLength
  generalize dot q q = D at *
  generalize sqrt D = L at *
  rw [abs_le] at e2
  have hLL : 1 / 6 ≤ L * L := by linarith
  have hLL2 : L * L ≤ 65 := by linarith
  have hL : 1 / 4 ≤ L := by nlinarith
  have hL2 : L ≤ 9 := by nlinarith
  have hLp : 0 < L := by linarith
  have hi : |1 / L| ≤ 4 := by
    rw [abs_of_pos (by positivity), div_le_iff₀ hLp]; linarith
  -- the inverse of the length
  have e4 := square_rnd hi (by norm_num)
  unfold fdiv
  generalize hI : rnd (1 / L) = I at *
  rw [abs_le] at e4
  have e5 : |I * I * (L * L) - 1| ≤ 22 / 10 / 2 ^ 24 := by
    have e6 : 1 / L * (1 / L) * (L * L) = 1 := by field_simp
    rw [show I * I * (L * L) - 1 = (I * I - 1 / L * (1 / L)) * (L * L) by rw [sub_mul, e6], abs_mul, abs_of_nonneg (by positivity : 0 ≤ L * L)]
    have : |I * I - 1 / L * (1 / L)| ≤ 1 / L * (1 / L) * 21 / 10 / 2 ^ 24 + 1 / 2 ^ 100 := abs_le.2 e4
    refine (mul_le_mul_of_nonneg_right this (by positivity)).trans ?_
    rw [add_mul, show 1 / L * (1 / L) * 21 / 10 / 2 ^ 24 * (L * L) = 1 / L * (1 / L) * (L * L) * (21 / 10 / 2 ^ 24) by ring, e6]
    linarith
  have hII : 0 ≤ I * I := mul_self_nonneg I
  have hIb : |I| ≤ 5 := by
    have : I * I ≤ 25 := by
      rw [abs_le] at e5
      nlinarith
    rw [abs_le]; constructor <;> nlinarith
  -- the exact length after scaling
  have e7 : |lengthSquared q * (I * I) - 1| ≤ 13 / 2 ^ 24 := by
    rw [abs_le] at e5 ⊢
    generalize lengthSquared q = d at *
    generalize I * I = J at *
    generalize L * L = K at *
    have k1 : K ≤ d * (1 + 101 / 10 / 2 ^ 24) := by linarith
    have k2 : d * (1 - 101 / 10 / 2 ^ 24) ≤ K := by linarith
    have hJ : J ≤ 7 := by nlinarith
    constructor
    · have := mul_le_mul_of_nonneg_left k1 hII
      nlinarith
    · have := mul_le_mul_of_nonneg_left k2 hII
      nlinarith
  -- the components
  have hc : ∀ c : ℚ, c * c ≤ 64 → |rnd (c * I) * rnd (c * I) - c * I * (c * I)| ≤ c * I * (c * I) * 21 / 10 / 2 ^ 24 + 1 / 2 ^ 100 := by
    intro c hc
    refine square_rnd (B := 2 ^ 10) ?_ le_rfl
    have : |c| ≤ 8 := by rw [abs_le]; constructor <;> nlinarith
    rw [abs_mul]
    have := mul_le_mul this hIb (abs_nonneg _) (by norm_num)
    linarith
  have sx := mul_self_nonneg q.x
  have sy := mul_self_nonneg q.y
  have sz := mul_self_nonneg q.z
  have sw := mul_self_nonneg q.w
  unfold lengthSquared at *
  have cx := hc q.x (by linarith)
  have cy := hc q.y (by linarith)
  have cz := hc q.z (by linarith)
  have cw := hc q.w (by linarith)
  dsimp only [fmul]
  rw [abs_le] at *
  have es : (q.x * q.x + q.y * q.y + q.z * q.z + q.w * q.w) * (I * I) =
    q.x * I * (q.x * I) + q.y * I * (q.y * I) + q.z * I * (q.z * I) + q.w * I * (q.w * I) := by ring
  rw [es] at e7
  constructor <;> linarith [e7.1, e7.2]

/-! ## The W component -/

/-- The square of the reconstructed component. -/
theorem positiveW_close (fused : Bool) {sqrt : ℚ → ℚ} (hs : SqrtLaw sqrt) {x y z : ℚ} (hx : |x| ≤ 3 / 2) (hy : |y| ≤ 3 / 2) (hz : |z| ≤ 3 / 2) :
    |positiveW fused sqrt x y z * positiveW fused sqrt x y z - (|1 - (x * x + y * y + z * z)|)| ≤ 1 / 2 ^ 18 := by
  obtain ⟨t0, t1, t2, -⟩ := tiny
  have hsq : ∀ {a : ℚ}, |a| ≤ 3 / 2 → a * a ≤ 9 / 4 ∧ |(-a) * a| ≤ 9 / 4 := by
    intro a ha
    have h : a * a ≤ 9 / 4 := by rw [← abs_mul_abs_self]; nlinarith [abs_nonneg a]
    refine ⟨h, ?_⟩
    rw [neg_mul, abs_neg, abs_of_nonneg (mul_self_nonneg a)]
    exact h
  obtain ⟨sx, px⟩ := hsq hx
  obtain ⟨sy, py⟩ := hsq hy
  obtain ⟨sz, pz⟩ := hsq hz
  have nx := mul_self_nonneg x
  have ny := mul_self_nonneg y
  have nz := mul_self_nonneg z
  unfold positiveW
  rw [negMulSub_eq, negMulSub_eq, negMulSub_eq]
  have e1 := mulAdd_err fused (c := 1) (Q := 5 / 4) px (by rw [abs_le]; constructor <;> linarith)
  generalize mulAdd fused (-x) x 1 = r1 at *
  rw [abs_le] at e1
  have e2 := mulAdd_err fused (c := r1) (Q := 4) py (by rw [abs_le]; constructor <;> linarith)
  generalize mulAdd fused (-y) y r1 = r2 at *
  rw [abs_le] at e2
  have e3 := mulAdd_err fused (c := r2) (Q := 6) pz (by rw [abs_le]; constructor <;> linarith)
  generalize mulAdd fused (-z) z r2 = r3 at *
  rw [abs_le] at e3
  have e4 : |r3 - (1 - (x * x + y * y + z * z))| ≤ 26 / 2 ^ 24 := by rw [abs_le]; constructor <;> linarith
  have e5 : |(|r3|) - (|1 - (x * x + y * y + z * z)|)| ≤ 26 / 2 ^ 24 := (abs_abs_sub_abs_le _ _).trans e4
  have e6 : |r3| ≤ 6 := by rw [abs_le]; constructor <;> linarith
  have e7 := hs.close |r3| (abs_nonneg _)
  rw [abs_le] at e5 e7 ⊢
  constructor <;> linarith

/-- The length of a rotation whose W component was reconstructed. -/
theorem reconstructed (fused : Bool) {sqrt : ℚ → ℚ} (hs : SqrtLaw sqrt) {x y z : ℚ} (hx : |x| ≤ 3 / 2) (hy : |y| ≤ 3 / 2) (hz : |z| ≤ 3 / 2) :
    |lengthSquared ⟨x, y, z, positiveW fused sqrt x y z⟩ - max 1 (2 * (x * x + y * y + z * z) - 1)| ≤ 1 / 2 ^ 18 := by
  have h := positiveW_close fused hs hx hy hz
  unfold lengthSquared
  dsimp only
  generalize positiveW fused sqrt x y z = w at *
  generalize hS : x * x + y * y + z * z = S at *
  rw [abs_le] at h ⊢
  rcases le_total S 1 with h1 | h1
  · rw [max_eq_left (by linarith)]
    rw [abs_of_nonneg (by linarith)] at h
    constructor <;> linarith
  · rw [max_eq_right (by linarith)]
    rw [abs_of_nonpos (by linarith)] at h
    constructor <;> linarith

theorem reconstructed_bounds (fused : Bool) {sqrt : ℚ → ℚ} (hs : SqrtLaw sqrt) {x y z : ℚ} (hx : |x| ≤ 3 / 2) (hy : |y| ≤ 3 / 2) (hz : |z| ≤ 3 / 2) :
    3 / 4 ≤ lengthSquared ⟨x, y, z, positiveW fused sqrt x y z⟩ ∧ lengthSquared ⟨x, y, z, positiveW fused sqrt x y z⟩ ≤ 16 := by
  have h := reconstructed fused hs hx hy hz
  have hsq : ∀ {a : ℚ}, |a| ≤ 3 / 2 → a * a ≤ 9 / 4 := by
    intro a ha
    rw [← abs_mul_abs_self]; nlinarith [abs_nonneg a]
  have := hsq hx
  have := hsq hy
  have := hsq hz
  rw [abs_le] at h
  have h1 := le_max_left 1 (2 * (x * x + y * y + z * z) - 1)
  have h2 : max 1 (2 * (x * x + y * y + z * z) - 1) ≤ 13 := max_le (by norm_num) (by linarith)
  constructor <;> linarith

/-! ## Blending -/

theorem within_of_length {q : Quat} (h : lengthSquared q ≤ 16) : Within 4 q := by
  unfold lengthSquared at h
  have hx := mul_self_nonneg q.x
  have hy := mul_self_nonneg q.y
  have hz := mul_self_nonneg q.z
  have hw := mul_self_nonneg q.w
  refine ⟨?_, ?_, ?_, ?_⟩ <;> rw [abs_le] <;> constructor <;> nlinarith

theorem weighted_low {alpha A S E D : ℚ} (hA : 0 ≤ A) (a1 : alpha * (1 - alpha) ≤ 1 / 4)
    (l1 : (1 - alpha) * (1 - alpha) * A ≤ (1 - alpha) * (1 - alpha) * S) (l2 : alpha * alpha * A ≤ alpha * alpha * E)
    (d1 : alpha * (1 - alpha) * (-(1 / 2 ^ 15)) ≤ alpha * (1 - alpha) * D) :
    A / 2 - 1 / 2 ^ 16 ≤ (1 - alpha) * (1 - alpha) * S + 2 * (alpha * (1 - alpha)) * D + alpha * alpha * E := by
  have h := mul_nonneg hA (mul_self_nonneg (2 * alpha - 1))
  have e : (1 - alpha) * (1 - alpha) * A + alpha * alpha * A = A / 2 + A * ((2 * alpha - 1) * (2 * alpha - 1)) / 2 := by ring
  rw [show 2 * (alpha * (1 - alpha)) * D = 2 * (alpha * (1 - alpha) * D) by ring]
  linarith

theorem weighted_up {alpha B S E D : ℚ} (l3 : (1 - alpha) * (1 - alpha) * S ≤ (1 - alpha) * (1 - alpha) * B) (l4 : alpha * alpha * E ≤ alpha * alpha * B)
    (d2 : alpha * (1 - alpha) * D ≤ alpha * (1 - alpha) * B) :
    (1 - alpha) * (1 - alpha) * S + 2 * (alpha * (1 - alpha)) * D + alpha * alpha * E ≤ B := by
  have e : (1 - alpha) * (1 - alpha) * B + 2 * (alpha * (1 - alpha) * B) + alpha * alpha * B = B := by ring
  rw [show 2 * (alpha * (1 - alpha)) * D = 2 * (alpha * (1 - alpha) * D) by ring]
  linarith

/-- The exact blend, with `f` the sign the dot product gave. -/
theorem blend_length {dot : Quat → Quat → ℚ} (hd : DotLaw dot) (fused : Bool) {s e : Quat} {alpha : ℚ} (h0 : 0 ≤ alpha) (h1 : alpha ≤ 1)
    {A B : ℚ} (hA : 0 ≤ A) (hB1 : 1 ≤ B) (hB : B ≤ 16)
    (hs : A ≤ lengthSquared s ∧ lengthSquared s ≤ B) (he : A ≤ lengthSquared e ∧ lengthSquared e ≤ B) :
    A / 2 - 1 / 2 ^ 12 ≤ lengthSquared (blend dot fused s e alpha) ∧ lengthSquared (blend dot fused s e alpha) ≤ B + 1 / 2 ^ 12 := by
  obtain ⟨-, -, -, t3⟩ := tiny
  have ws := within_of_length (hs.2.trans hB)
  have we := within_of_length (he.2.trans hB)
  have hdot := hd.close s e ws we
  have hf : flip dot s e * flip dot s e = 1 := by unfold flip; split <;> norm_num
  have hfa : |flip dot s e| = 1 := by unfold flip; split <;> norm_num
  have hfd : -(1 / 2 ^ 15) ≤ flip dot s e * exactDot s e := by
    rw [abs_le] at hdot
    unfold flip
    split <;> linarith
  have hcs : exactDot s e * exactDot s e ≤ lengthSquared s * lengthSquared e := by
    unfold exactDot lengthSquared
    nlinarith [mul_self_nonneg (s.x * e.y - s.y * e.x), mul_self_nonneg (s.x * e.z - s.z * e.x), mul_self_nonneg (s.x * e.w - s.w * e.x),
      mul_self_nonneg (s.y * e.z - s.z * e.y), mul_self_nonneg (s.y * e.w - s.w * e.y), mul_self_nonneg (s.z * e.w - s.w * e.z)]
  unfold blend
  generalize flip dot s e = f at *
  have hfu : f * exactDot s e ≤ B := by
    have : (f * exactDot s e) * (f * exactDot s e) ≤ B * B := by
      rw [show f * exactDot s e * (f * exactDot s e) = f * f * (exactDot s e * exactDot s e) by ring, hf, one_mul]
      refine hcs.trans (mul_le_mul hs.2 he.2 ?_ (by linarith))
      unfold lengthSquared; nlinarith [mul_self_nonneg e.x, mul_self_nonneg e.y, mul_self_nonneg e.z, mul_self_nonneg e.w]
    nlinarith
  -- every component is close to the exact one
  have hc : ∀ {a b : ℚ}, |a| ≤ 4 → |b| ≤ 4 → ∀ v, v = lerp fused a (f * b) alpha →
      |v * v - ((1 - alpha) * a + alpha * (f * b)) * ((1 - alpha) * a + alpha * (f * b))| ≤ 1 / 2 ^ 15 := by
    intro a b ha hb v hv
    have hfb : |f * b| ≤ 4 := by rw [abs_mul, hfa, one_mul]; exact hb
    have herr := lerp_err fused ha hfb h0 h1
    rw [← hv] at herr
    have hm : |(1 - alpha) * a + alpha * (f * b)| ≤ 4 := by
      rw [abs_le] at *
      constructor <;> nlinarith
    generalize (1 - alpha) * a + alpha * (f * b) = m at *
    have herr' : |v - m| ≤ 5 / 2 ^ 21 := by linarith
    rw [show v * v - m * m = (v - m) * (2 * m + (v - m)) by ring, abs_mul]
    have h2 : |2 * m + (v - m)| ≤ 9 := by rw [abs_le] at *; constructor <;> linarith
    have := mul_le_mul herr' h2 (abs_nonneg _) (by norm_num)
    linarith
  have cx := hc ws.1 we.1 _ rfl
  have cy := hc ws.2.1 we.2.1 _ rfl
  have cz := hc ws.2.2.1 we.2.2.1 _ rfl
  have cw := hc ws.2.2.2 we.2.2.2 _ rfl
  -- the exact blend
  have hm : ((1 - alpha) * s.x + alpha * (f * e.x)) * ((1 - alpha) * s.x + alpha * (f * e.x)) +
      ((1 - alpha) * s.y + alpha * (f * e.y)) * ((1 - alpha) * s.y + alpha * (f * e.y)) +
      ((1 - alpha) * s.z + alpha * (f * e.z)) * ((1 - alpha) * s.z + alpha * (f * e.z)) +
      ((1 - alpha) * s.w + alpha * (f * e.w)) * ((1 - alpha) * s.w + alpha * (f * e.w)) =
      (1 - alpha) * (1 - alpha) * lengthSquared s + 2 * (alpha * (1 - alpha)) * (f * exactDot s e) + alpha * alpha * lengthSquared e := by
    unfold lengthSquared exactDot
    linear_combination (alpha * alpha) * (e.x * e.x + e.y * e.y + e.z * e.z + e.w * e.w) * hf
  have a0 : 0 ≤ alpha * (1 - alpha) := mul_nonneg h0 (by linarith)
  have a1 : alpha * (1 - alpha) ≤ 1 / 4 := by nlinarith [mul_self_nonneg (2 * alpha - 1)]
  have l1 : (1 - alpha) * (1 - alpha) * A ≤ (1 - alpha) * (1 - alpha) * lengthSquared s := mul_le_mul_of_nonneg_left hs.1 (mul_self_nonneg _)
  have l2 : alpha * alpha * A ≤ alpha * alpha * lengthSquared e := mul_le_mul_of_nonneg_left he.1 (mul_self_nonneg _)
  have l3 : (1 - alpha) * (1 - alpha) * lengthSquared s ≤ (1 - alpha) * (1 - alpha) * B := mul_le_mul_of_nonneg_left hs.2 (mul_self_nonneg _)
  have l4 : alpha * alpha * lengthSquared e ≤ alpha * alpha * B := mul_le_mul_of_nonneg_left he.2 (mul_self_nonneg _)
  have d1 : alpha * (1 - alpha) * (-(1 / 2 ^ 15)) ≤ alpha * (1 - alpha) * (f * exactDot s e) := mul_le_mul_of_nonneg_left hfd a0
  have d2 : alpha * (1 - alpha) * (f * exactDot s e) ≤ alpha * (1 - alpha) * B := mul_le_mul_of_nonneg_left hfu a0
  have hlow := weighted_low hA a1 l1 l2 d1
  have hup := weighted_up l3 l4 d2
  rw [← hm] at hlow hup
  unfold lengthSquared
  dsimp only
  rw [abs_le] at cx cy cz cw
  constructor <;> linarith

end Acl.Rotation
