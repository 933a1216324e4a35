import Verif.Transform.ErrorMetric
import Mathlib.Tactic.Ring
import Mathlib.Tactic.Linarith
import Mathlib.Tactic.Positivity
import Mathlib.Tactic.FieldSimp
/-
Lemmas about the vectors and quaternions of the error metrics.
-/
namespace Acl.Metric

theorem V3.ext' {a b : V3} (hx : a.x = b.x) (hy : a.y = b.y) (hz : a.z = b.z) : a = b := by
  cases a; cases b; simp_all

theorem Quat.ext' {a b : Quat} (hx : a.x = b.x) (hy : a.y = b.y) (hz : a.z = b.z) (hw : a.w = b.w) : a = b := by
  cases a; cases b; simp_all

def V3.scaled (k : ℝ) (a : V3) : V3 := ⟨k * a.x, k * a.y, k * a.z⟩

theorem V3.normSq_nonneg (a : V3) : 0 ≤ a.normSq := by unfold V3.normSq; positivity

theorem V3.norm_nonneg (a : V3) : 0 ≤ a.norm := Real.sqrt_nonneg _

theorem V3.norm_sq (a : V3) : a.norm ^ 2 = a.normSq := Real.sq_sqrt a.normSq_nonneg

theorem V3.norm_le_iff {a : V3} {k : ℝ} (hk : 0 ≤ k) : a.norm ≤ k ↔ a.normSq ≤ k ^ 2 := Real.sqrt_le_left hk

theorem V3.norm_scaled (k : ℝ) (a : V3) : (a.scaled k).norm = |k| * a.norm := by
  have : (a.scaled k).normSq = k ^ 2 * a.normSq := by simp only [V3.scaled, V3.normSq]; ring
  unfold V3.norm
  rw [this, Real.sqrt_mul (sq_nonneg k), Real.sqrt_sq_eq_abs]

theorem V3.dot_le (a b : V3) : a.x * b.x + a.y * b.y + a.z * b.z ≤ a.norm * b.norm := by
  have h : (a.x * b.x + a.y * b.y + a.z * b.z) ^ 2 ≤ (a.norm * b.norm) ^ 2 := by
    rw [mul_pow, a.norm_sq, b.norm_sq]
    unfold V3.normSq
    nlinarith [sq_nonneg (a.x * b.y - a.y * b.x), sq_nonneg (a.x * b.z - a.z * b.x), sq_nonneg (a.y * b.z - a.z * b.y)]
  exact le_trans (le_abs_self _) (abs_le_of_sq_le_sq h (mul_nonneg a.norm_nonneg b.norm_nonneg))

theorem V3.norm_add (a b : V3) : (a.add b).norm ≤ a.norm + b.norm := by
  rw [V3.norm_le_iff (add_nonneg a.norm_nonneg b.norm_nonneg), add_sq, a.norm_sq, b.norm_sq]
  have := a.dot_le b
  simp only [V3.add, V3.normSq] at *
  nlinarith

theorem V3.norm_zero : (V3.mk 0 0 0).norm = 0 := by simp [V3.norm, V3.normSq]

theorem V3.eq_zero {a : V3} (h : a.norm = 0) : a = ⟨0, 0, 0⟩ := by
  have h2 := a.norm_sq
  rw [h] at h2
  unfold V3.normSq at h2
  apply V3.ext' <;> simp only <;> nlinarith [sq_nonneg a.x, sq_nonneg a.y, sq_nonneg a.z]

theorem distance_nonneg (a b : V3) : 0 ≤ distance a b := V3.norm_nonneg _

theorem distance_self (a : V3) : distance a a = 0 := by simp [distance, V3.sub, V3.norm, V3.normSq]

theorem distance_comm (a b : V3) : distance a b = distance b a := by
  simp only [distance, V3.sub, V3.norm, V3.normSq]
  congr 1
  ring

theorem distance_eq_zero {a b : V3} (h : distance a b = 0) : a = b := by
  have := V3.eq_zero h
  simp only [V3.sub, V3.mk.injEq] at this
  exact V3.ext' (by linarith [this.1]) (by linarith [this.2.1]) (by linarith [this.2.2])

/-! ## Quaternions -/

theorem quatMul_assoc (a b c : Quat) : quatMul (quatMul a b) c = quatMul a (quatMul b c) := by
  apply Quat.ext' <;> simp only [quatMul] <;> ring

theorem quatMul_normSq (a b : Quat) : (quatMul a b).normSq = a.normSq * b.normSq := by
  simp only [quatMul, Quat.normSq]; ring

theorem conjugate_normSq (a : Quat) : (conjugate a).normSq = a.normSq := by simp only [conjugate, Quat.normSq]; ring

theorem rotate_add (a b : V3) (q : Quat) : rotate (a.add b) q = (rotate a q).add (rotate b q) := by
  apply V3.ext' <;> simp only [rotate, toVector, quatMul, conjugate, ofVector, V3.add] <;> ring

theorem rotate_sub (a b : V3) (q : Quat) : rotate (a.sub b) q = (rotate a q).sub (rotate b q) := by
  apply V3.ext' <;> simp only [rotate, toVector, quatMul, conjugate, ofVector, V3.sub] <;> ring

theorem rotate_scaled (k : ℝ) (a : V3) (q : Quat) : rotate (a.scaled k) q = (rotate a q).scaled k := by
  apply V3.ext' <;> simp only [rotate, toVector, quatMul, conjugate, ofVector, V3.scaled] <;> ring

def quatSub (a b : Quat) : Quat := ⟨a.x - b.x, a.y - b.y, a.z - b.z, a.w - b.w⟩

def quatScaled (k : ℝ) (a : Quat) : Quat := ⟨k * a.x, k * a.y, k * a.z, k * a.w⟩

/-- The relative rotation: what takes the lossy rotation to the raw one. -/
def relative (q1 q2 : Quat) : Quat := quatMul q1 (conjugate q2)

/-- The displacement of a point by two rotations about the same origin. -/
theorem rotate_sub_normSq {q1 q2 : Quat} (h1 : q1.normSq = 1) (h2 : q2.normSq = 1) (p : V3) :
    ((rotate p q1).sub (rotate p q2)).normSq
      = 4 * (((relative q1 q2).y * p.z - (relative q1 q2).z * p.y) ^ 2 + ((relative q1 q2).z * p.x - (relative q1 q2).x * p.z) ^ 2
        + ((relative q1 q2).x * p.y - (relative q1 q2).y * p.x) ^ 2) := by
  have hd : (quatSub (quatMul (quatMul (conjugate q1) (ofVector p)) q1) (quatMul (quatMul (conjugate q2) (ofVector p)) q2)).normSq
      = ((rotate p q1).sub (rotate p q2)).normSq := by
    simp only [quatSub, Quat.normSq, V3.normSq, V3.sub, rotate, toVector, quatMul, conjugate, ofVector]
    ring
  have hm : quatMul (quatMul q2 (quatSub (quatMul (quatMul (conjugate q1) (ofVector p)) q1) (quatMul (quatMul (conjugate q2) (ofVector p)) q2)))
      (conjugate q1) = quatSub (quatMul (conjugate (relative q1 q2)) (ofVector p)) (quatMul (ofVector p) (conjugate (relative q1 q2))) := by
    have e : quatMul (quatMul q2 (quatSub (quatMul (quatMul (conjugate q1) (ofVector p)) q1)
        (quatMul (quatMul (conjugate q2) (ofVector p)) q2))) (conjugate q1)
        = quatSub (quatScaled q1.normSq (quatMul (conjugate (relative q1 q2)) (ofVector p)))
          (quatScaled q2.normSq (quatMul (ofVector p) (conjugate (relative q1 q2)))) := by
      apply Quat.ext' <;> simp only [quatSub, quatScaled, Quat.normSq, quatMul, conjugate, ofVector, relative] <;> ring
    rw [e, h1, h2]
    apply Quat.ext' <;> simp only [quatScaled, one_mul]
  rw [← hd]
  have hn := congrArg Quat.normSq hm
  rw [quatMul_normSq, quatMul_normSq, conjugate_normSq, h1, h2, one_mul, mul_one] at hn
  rw [hn]
  generalize relative q1 q2 = c
  simp only [quatSub, Quat.normSq, quatMul, conjugate, ofVector]
  ring

end Acl.Metric
