import Verif.Core.Lerp
import Mathlib.Tactic.Linarith
import Mathlib.Tactic.Positivity
/- Error analysis of multiply-add and of the linear interpolation. -/
namespace Acl.Lerp
open Acl.F32

/-- Error of one rounding, with numerals. -/
theorem rnd_err' {q B : ℚ} (h : |q| ≤ B) : |rnd q - q| ≤ B / 2 ^ 24 + pow2 (-150) := by
  have h1 := rnd_err q
  have e : pow2 (-24) = 1 / 2 ^ 24 := by decide +kernel
  rw [e] at h1
  have : 1 / 2 ^ 24 * |q| ≤ 1 / 2 ^ 24 * B := mul_le_mul_of_nonneg_left h (by positivity)
  linarith

theorem mulAdd_err (fused : Bool) {a b c P Q : ℚ} (hP : |a * b| ≤ P) (hQ : |a * b + c| ≤ Q) :
    |mulAdd fused a b c - (a * b + c)| ≤ P / 2 ^ 23 + Q / 2 ^ 24 + pow2 (-148) := by
  have ht := pow2_pos (-150)
  have e : pow2 (-148) = 4 * pow2 (-150) := by decide +kernel
  have hP0 : 0 ≤ P := (abs_nonneg _).trans hP
  have hQ0 : 0 ≤ Q := (abs_nonneg _).trans hQ
  rw [e]
  cases fused
  · simp only [mulAdd, Bool.false_eq_true, if_false, fadd, fmul]
    have h1 := rnd_err' hP
    have h2 : |rnd (a * b) + c| ≤ Q + (P / 2 ^ 24 + pow2 (-150)) := by
      have := abs_add_le (a * b + c) (rnd (a * b) - a * b)
      rw [show a * b + c + (rnd (a * b) - a * b) = rnd (a * b) + c from by ring] at this
      linarith
    have h3 := rnd_err' h2
    have h4 := abs_add_le (rnd (rnd (a * b) + c) - (rnd (a * b) + c)) (rnd (a * b) - a * b)
    rw [show rnd (rnd (a * b) + c) - (rnd (a * b) + c) + (rnd (a * b) - a * b) =
      rnd (rnd (a * b) + c) - (a * b + c) from by ring] at h4
    linarith
  · simp only [mulAdd, if_true]
    have := rnd_err' hQ
    linarith

theorem negMulSub_eq (fused : Bool) (a b c : ℚ) : negMulSub fused a b c = mulAdd fused (-a) b c := by
  cases fused
  · simp only [negMulSub, mulAdd, Bool.false_eq_true, if_false, fadd, fmul, fsub]
    rw [neg_mul, rnd_neg]; congr 1; ring
  · simp only [negMulSub, mulAdd, if_true]; congr 1; ring

theorem lerp_err (fused : Bool) {s e a B : ℚ} (hs : |s| ≤ B) (he : |e| ≤ B) (h0 : 0 ≤ a) (h1 : a ≤ 1) :
    |lerp fused s e a - ((1 - a) * s + a * e)| ≤ B / 2 ^ 21 + pow2 (-146) := by
  have ht := pow2_pos (-148)
  have et : pow2 (-146) = 4 * pow2 (-148) := by decide +kernel
  have hB : 0 ≤ B := (abs_nonneg _).trans hs
  have p1 : |(-s) * a| ≤ B := by
    rw [abs_mul, abs_neg, abs_of_nonneg h0]; nlinarith [abs_nonneg s]
  have p2 : |e * a| ≤ B := by
    rw [abs_mul, abs_of_nonneg h0]; nlinarith [abs_nonneg e]
  have q1 : |(-s) * a + s| ≤ B := by
    rw [show (-s) * a + s = s * (1 - a) from by ring, abs_mul, abs_of_nonneg (show 0 ≤ 1 - a by linarith)]
    nlinarith [abs_nonneg s]
  have q2 : |(1 - a) * s + a * e| ≤ B := by
    obtain ⟨s1, s2⟩ := abs_le.mp hs
    obtain ⟨e1, e2⟩ := abs_le.mp he
    rw [abs_le]; constructor <;> nlinarith
  unfold lerp
  rw [negMulSub_eq]
  have m1 := mulAdd_err fused p1 q1
  set d := mulAdd fused (-s) a s with hd
  have q3 : |e * a + d| ≤ B + (B / 2 ^ 23 + B / 2 ^ 24 + pow2 (-148)) := by
    have := abs_add_le ((1 - a) * s + a * e) (d - ((-s) * a + s))
    rw [show (1 - a) * s + a * e + (d - ((-s) * a + s)) = e * a + d from by ring] at this
    linarith
  have m2 := mulAdd_err fused p2 q3
  have h4 := abs_add_le (mulAdd fused e a d - (e * a + d)) (d - ((-s) * a + s))
  rw [show mulAdd fused e a d - (e * a + d) + (d - ((-s) * a + s)) =
    mulAdd fused e a d - ((1 - a) * s + a * e) from by ring] at h4
  linarith

theorem lerp_zero (fused : Bool) {s e : ℚ} (hs : IsFloat s) : lerp fused s e 0 = s := by
  have h := rnd_of_isFloat hs
  cases fused <;>
    simp [lerp, mulAdd, negMulSub, fadd, fsub, fmul, h, rnd_zero]

theorem lerp_one (fused : Bool) {s e : ℚ} (hs : IsFloat s) (he : IsFloat e) : lerp fused s e 1 = e := by
  have h := rnd_of_isFloat he
  have h' := rnd_of_isFloat hs
  cases fused <;>
    simp [lerp, mulAdd, negMulSub, fadd, fsub, fmul, h, h', rnd_zero]

theorem abs_mul_le_one {a b : ℚ} (ha : |a| ≤ 1) (hb : |b| ≤ 1) : |a * b| ≤ 1 := by
  rw [abs_mul]; nlinarith [abs_nonneg a, abs_nonneg b]

/-- Error of the dot product for components at most 1. -/
theorem dot_err (fused : Bool) {s e : Quat}
    (hs : |s.x| ≤ 1 ∧ |s.y| ≤ 1 ∧ |s.z| ≤ 1 ∧ |s.w| ≤ 1) (he : |e.x| ≤ 1 ∧ |e.y| ≤ 1 ∧ |e.z| ≤ 1 ∧ |e.w| ≤ 1) :
    |dot fused s e - (s.x * e.x + s.y * e.y + s.z * e.z + s.w * e.w)| ≤ 1 / 2 ^ 19 := by
  have et : pow2 (-148) ≤ 1 / 2 ^ 40 := by decide +kernel
  have et' : pow2 (-150) ≤ 1 / 2 ^ 40 := by decide +kernel
  unfold dot fmul
  have px := abs_mul_le_one hs.1 he.1
  have py := abs_mul_le_one hs.2.1 he.2.1
  have pz := abs_mul_le_one hs.2.2.1 he.2.2.1
  have pw := abs_mul_le_one hs.2.2.2 he.2.2.2
  have m0 := rnd_err' px
  set d0 := rnd (s.x * e.x)
  obtain ⟨px1, px2⟩ := abs_le.mp px
  obtain ⟨py1, py2⟩ := abs_le.mp py
  obtain ⟨pz1, pz2⟩ := abs_le.mp pz
  obtain ⟨pw1, pw2⟩ := abs_le.mp pw
  obtain ⟨a1, a2⟩ := abs_le.mp m0
  have m1 := mulAdd_err fused py (Q := 3) (c := d0) (by rw [abs_le]; constructor <;> linarith)
  set d1 := mulAdd fused s.y e.y d0
  obtain ⟨b1, b2⟩ := abs_le.mp m1
  have m2 := mulAdd_err fused pz (Q := 4) (c := d1) (by rw [abs_le]; constructor <;> linarith)
  set d2 := mulAdd fused s.z e.z d1
  obtain ⟨c1, c2⟩ := abs_le.mp m2
  have m3 := mulAdd_err fused pw (Q := 5) (c := d2) (by rw [abs_le]; constructor <;> linarith)
  obtain ⟨e1, e2⟩ := abs_le.mp m3
  rw [abs_le]; constructor <;> linarith

theorem isFloat_neg {x : ℚ} (h : IsFloat x) : IsFloat (-x) := by
  obtain ⟨m, e, rfl, hm, h1, h2⟩ := h
  exact ⟨-m, e, by push_cast; ring, by rwa [abs_neg], h1, h2⟩

end Acl.Lerp
