import Verif.Transform.ErrorMetricLemmas
/-
C67: what the error metric says about the points the user attached to a bone: a measured error bounds the displacement of every
point within the shell distance, up to a factor that cannot be improved, and what it cannot see.

Numbers are exact (reals): rounding is not part of this property.
-/
namespace Acl.C67

open Acl.Metric

/-! ## Specification -/

/-- How far apart a point attached to the bone ends up, placed by the raw transform and by the lossy one. -/
noncomputable def displacement (raw lossy : Qvv) (p : V3) : ℝ := distance (mulPoint p raw) (mulPoint p lossy)

/-- The same when the clip has no scale. -/
noncomputable def displacementNoScale (raw lossy : Qvv) (p : V3) : ℝ := distance (mulPointNoScale p raw) (mulPointNoScale p lossy)

/-- The same for transforms that are matrices. -/
noncomputable def displacementMatrix (raw lossy : Matrix) (p : V3) : ℝ := distance (Matrix.mulPoint p raw) (Matrix.mulPoint p lossy)

/-- A point within the shell distance `r` of the bone. -/
def Within (r : ℝ) (p : V3) : Prop := p.x ^ 2 + p.y ^ 2 + p.z ^ 2 ≤ r ^ 2

/-- A rotation. -/
def Unit (q : Quat) : Prop := q.x ^ 2 + q.y ^ 2 + q.z ^ 2 + q.w ^ 2 = 1

/-- The transform that moves nothing. -/
def identity : Qvv := ⟨⟨0, 0, 0, 1⟩, ⟨0, 0, 0⟩, one⟩

theorem norm_of_normSq {v : V3} {k : ℝ} (hk : 0 ≤ k) (h : v.normSq = k ^ 2) : v.norm = k := by
  unfold V3.norm
  rw [h, Real.sqrt_sq hk]

/-! ## Affine differences -/

def Affine (D : V3 → V3) : Prop :=
  ∀ r p, (D p).scaled r = ((((D (shellX r)).scaled p.x).add ((D (shellY r)).scaled p.y)).add ((D (shellZ r)).scaled p.z)).add
    ((D ⟨0, 0, 0⟩).scaled (r - (p.x + p.y + p.z)))

theorem affine_qvv (raw lossy : Qvv) : Affine (fun p => (mulPoint p raw).sub (mulPoint p lossy)) := by
  intro r p
  apply V3.ext' <;>
    simp only [mulPoint, rotate, toVector, quatMul, conjugate, ofVector, V3.add, V3.sub, V3.mul, V3.scaled, shellX, shellY, shellZ] <;> ring

theorem affine_noScale (raw lossy : Qvv) : Affine (fun p => (mulPointNoScale p raw).sub (mulPointNoScale p lossy)) := by
  intro r p
  apply V3.ext' <;>
    simp only [mulPointNoScale, rotate, toVector, quatMul, conjugate, ofVector, V3.add, V3.sub, V3.scaled, shellX, shellY, shellZ] <;> ring

theorem affine_matrix (raw lossy : Matrix) : Affine (fun p => (Matrix.mulPoint p raw).sub (Matrix.mulPoint p lossy)) := by
  intro r p
  apply V3.ext' <;> simp only [Matrix.mulPoint, V3.add, V3.sub, V3.scaled, shellX, shellY, shellZ] <;> ring

theorem affine_norm {D : V3 → V3} (hD : Affine D) {r : ℝ} (hr : 0 < r) (p : V3) :
    r * (D p).norm ≤ |p.x| * (D (shellX r)).norm + |p.y| * (D (shellY r)).norm + |p.z| * (D (shellZ r)).norm
      + |r - (p.x + p.y + p.z)| * (D ⟨0, 0, 0⟩).norm := by
  have h := congrArg V3.norm (hD r p)
  rw [V3.norm_scaled, abs_of_pos hr] at h
  rw [h]
  refine le_trans (V3.norm_add _ _) ?_
  rw [V3.norm_scaled]
  refine add_le_add (le_trans (V3.norm_add _ _) ?_) (le_refl _)
  rw [V3.norm_scaled]
  refine add_le_add (le_trans (V3.norm_add _ _) ?_) (le_refl _)
  rw [V3.norm_scaled, V3.norm_scaled]

theorem sum_abs_le {r : ℝ} (hr : 0 < r) {p : V3} (hp : Within r p) : |p.x| + |p.y| + |p.z| ≤ Real.sqrt 3 * r := by
  have h3 : Real.sqrt 3 ^ 2 = 3 := Real.sq_sqrt (by norm_num)
  have hs := Real.sqrt_nonneg 3
  unfold Within at hp
  have hx := sq_abs p.x
  have hy := sq_abs p.y
  have hz := sq_abs p.z
  refine abs_le_of_sq_le_sq' ?_ (by positivity) |>.2
  rw [mul_pow, h3]
  nlinarith [sq_nonneg (|p.x| - |p.y|), sq_nonneg (|p.x| - |p.z|), sq_nonneg (|p.y| - |p.z|)]

theorem ball_bound {D : V3 → V3} (hD : Affine D) {r m d : ℝ} (hr : 0 < r) (hx : (D (shellX r)).norm ≤ m) (hy : (D (shellY r)).norm ≤ m)
    (hz : (D (shellZ r)).norm ≤ m) (h0 : (D ⟨0, 0, 0⟩).norm = d) {p : V3} (hp : Within r p) :
    (D p).norm ≤ Real.sqrt 3 * (m + d) + d := by
  have h := affine_norm hD hr p
  have hs := sum_abs_le hr hp
  have hd : 0 ≤ d := h0 ▸ V3.norm_nonneg _
  have hm : 0 ≤ m := le_trans (V3.norm_nonneg _) hx
  have ha : |r - (p.x + p.y + p.z)| ≤ r + (|p.x| + |p.y| + |p.z|) := by
    refine le_trans (abs_sub _ _) ?_
    rw [abs_of_pos hr]
    exact add_le_add (le_refl _) (le_trans (abs_add_le _ _) (add_le_add (abs_add_le _ _) (le_refl _)))
  rw [h0] at h
  have h1 := mul_le_mul_of_nonneg_left hx (abs_nonneg p.x)
  have h2 := mul_le_mul_of_nonneg_left hy (abs_nonneg p.y)
  have h3 := mul_le_mul_of_nonneg_left hz (abs_nonneg p.z)
  have h4 := mul_le_mul_of_nonneg_right ha hd
  have h5 := mul_le_mul_of_nonneg_right hs hm
  have h6 := mul_le_mul_of_nonneg_right hs hd
  have : r * (D p).norm ≤ r * (Real.sqrt 3 * (m + d) + d) := by nlinarith
  exact le_of_mul_le_mul_left this hr

theorem hull_bound {D : V3 → V3} (hD : Affine D) {r m : ℝ} (hr : 0 < r) (hx : (D (shellX r)).norm ≤ m) (hy : (D (shellY r)).norm ≤ m)
    {a b c : ℝ} (hz : c = 0 ∨ (D (shellZ r)).norm ≤ m) (ha : 0 ≤ a) (hb : 0 ≤ b) (hc : 0 ≤ c) (hs : a + b + c = 1) :
    (D ⟨a * r, b * r, c * r⟩).norm ≤ m := by
  have h := affine_norm hD hr ⟨a * r, b * r, c * r⟩
  have e : r - (a * r + b * r + c * r) = 0 := by rw [← add_mul, ← add_mul, hs]; ring
  simp only [e, abs_zero, zero_mul, add_zero, abs_of_nonneg (mul_nonneg ha hr.le), abs_of_nonneg (mul_nonneg hb hr.le),
    abs_of_nonneg (mul_nonneg hc hr.le)] at h
  have h1 := mul_le_mul_of_nonneg_left hx (mul_nonneg ha hr.le)
  have h2 := mul_le_mul_of_nonneg_left hy (mul_nonneg hb hr.le)
  have h3 : c * r * (D (shellZ r)).norm ≤ c * r * m := by
    cases hz with
    | inl h => rw [h]; simp
    | inr h => exact mul_le_mul_of_nonneg_left h (mul_nonneg hc hr.le)
  have : r * (D ⟨a * r, b * r, c * r⟩).norm ≤ r * m := by
    calc _ ≤ a * r * m + b * r * m + c * r * m := by linarith
      _ = (a + b + c) * (r * m) := by ring
      _ = r * m := by rw [hs, one_mul]
  exact le_of_mul_le_mul_left this hr

/-! ## What is measured -/

/-- Nothing is measured between a transform and itself, and the order of the two does not matter. -/
theorem C67_zero (r : ℝ) (raw lossy : Qvv) (m1 m2 : Matrix) :
    calculateError r raw raw = 0 ∧ calculateErrorNoScale r raw raw = 0 ∧ calculateErrorMatrix r m1 m1 = 0
      ∧ calculateError r raw lossy = calculateError r lossy raw ∧ calculateErrorNoScale r raw lossy = calculateErrorNoScale r lossy raw
      ∧ calculateErrorMatrix r m1 m2 = calculateErrorMatrix r m2 m1 := by
  refine ⟨by simp [calculateError, distance_self], by simp [calculateErrorNoScale, distance_self],
    by simp [calculateErrorMatrix, distance_self], ?_, ?_, ?_⟩
  · simp only [calculateError, distance_comm]
  · simp only [calculateErrorNoScale, distance_comm]
  · simp only [calculateErrorMatrix, distance_comm]

/-- The measured error is the displacement of a point at the shell distance, so never more than the largest displacement there. -/
theorem C67_attained (r : ℝ) (raw lossy : Qvv) (m1 m2 : Matrix) :
    (∃ p, Within r p ∧ displacement raw lossy p = calculateError r raw lossy)
      ∧ (∃ p, Within r p ∧ displacementNoScale raw lossy p = calculateErrorNoScale r raw lossy)
      ∧ (∃ p, Within r p ∧ displacementMatrix m1 m2 p = calculateErrorMatrix r m1 m2) := by
  have wx : Within r (shellX r) := by simp [Within, shellX]
  have wy : Within r (shellY r) := by simp [Within, shellY]
  have wz : Within r (shellZ r) := by simp [Within, shellZ]
  refine ⟨?_, ?_, ?_⟩
  · unfold calculateError
    rcases max_choice (max (distance (mulPoint (shellX r) raw) (mulPoint (shellX r) lossy))
      (distance (mulPoint (shellY r) raw) (mulPoint (shellY r) lossy))) (distance (mulPoint (shellZ r) raw) (mulPoint (shellZ r) lossy)) with h | h
    · rw [h]
      rcases max_choice (distance (mulPoint (shellX r) raw) (mulPoint (shellX r) lossy))
        (distance (mulPoint (shellY r) raw) (mulPoint (shellY r) lossy)) with h | h
      · exact ⟨_, wx, h.symm⟩
      · exact ⟨_, wy, h.symm⟩
    · exact ⟨_, wz, h.symm⟩
  · unfold calculateErrorNoScale
    rcases max_choice (distance (mulPointNoScale (shellX r) raw) (mulPointNoScale (shellX r) lossy))
      (distance (mulPointNoScale (shellY r) raw) (mulPointNoScale (shellY r) lossy)) with h | h
    · exact ⟨_, wx, h.symm⟩
    · exact ⟨_, wy, h.symm⟩
  · unfold calculateErrorMatrix
    rcases max_choice (max (distance (Matrix.mulPoint (shellX r) m1) (Matrix.mulPoint (shellX r) m2))
      (distance (Matrix.mulPoint (shellY r) m1) (Matrix.mulPoint (shellY r) m2)))
      (distance (Matrix.mulPoint (shellZ r) m1) (Matrix.mulPoint (shellZ r) m2)) with h | h
    · rw [h]
      rcases max_choice (distance (Matrix.mulPoint (shellX r) m1) (Matrix.mulPoint (shellX r) m2))
        (distance (Matrix.mulPoint (shellY r) m1) (Matrix.mulPoint (shellY r) m2)) with h | h
      · exact ⟨_, wx, h.symm⟩
      · exact ⟨_, wy, h.symm⟩
    · exact ⟨_, wz, h.symm⟩

/-- No point between the measured ones moves by more than what was measured. -/
theorem C67_between {r : ℝ} (hr : 0 < r) (raw lossy : Qvv) (m1 m2 : Matrix) {a b c : ℝ} (ha : 0 ≤ a) (hb : 0 ≤ b) (hc : 0 ≤ c)
    (hs : a + b + c = 1) :
    displacement raw lossy ⟨a * r, b * r, c * r⟩ ≤ calculateError r raw lossy
      ∧ displacementMatrix m1 m2 ⟨a * r, b * r, c * r⟩ ≤ calculateErrorMatrix r m1 m2
      ∧ (c = 0 → displacementNoScale raw lossy ⟨a * r, b * r, c * r⟩ ≤ calculateErrorNoScale r raw lossy) := by
  refine ⟨?_, ?_, fun h0 => ?_⟩
  · exact hull_bound (affine_qvv raw lossy) hr (le_trans (le_max_left _ _) (le_max_left _ _))
      (le_trans (le_max_right _ _) (le_max_left _ _)) (.inr (le_max_right _ _)) ha hb hc hs
  · exact hull_bound (affine_matrix m1 m2) hr (le_trans (le_max_left _ _) (le_max_left _ _))
      (le_trans (le_max_right _ _) (le_max_left _ _)) (.inr (le_max_right _ _)) ha hb hc hs
  · exact hull_bound (affine_noScale raw lossy) hr (le_max_left _ _) (le_max_right _ _) (.inl h0) ha hb hc hs

/-- With three points: every point within the shell distance moves by at most √3 times what was measured, when the bone itself does
not move; otherwise the distance `d` the bone moves comes on top. For any transforms, matrices included. -/
theorem C67_three_points {r : ℝ} (hr : 0 < r) {p : V3} (hp : Within r p) (raw lossy : Qvv) (m1 m2 : Matrix) :
    (∀ d, distance raw.translation lossy.translation = d →
        displacement raw lossy p ≤ Real.sqrt 3 * (calculateError r raw lossy + d) + d)
      ∧ (∀ d, distance m1.wAxis m2.wAxis = d →
        displacementMatrix m1 m2 p ≤ Real.sqrt 3 * (calculateErrorMatrix r m1 m2 + d) + d) := by
  refine ⟨fun d hd => ?_, fun d hd => ?_⟩
  · refine ball_bound (affine_qvv raw lossy) hr (le_trans (le_max_left _ _) (le_max_left _ _))
      (le_trans (le_max_right _ _) (le_max_left _ _)) (le_max_right _ _) ?_ hp
    rw [← hd]
    show V3.norm _ = V3.norm _
    congr 1
    apply V3.ext' <;> simp only [mulPoint, rotate, toVector, quatMul, conjugate, ofVector, V3.add, V3.sub, V3.mul] <;> ring
  · refine ball_bound (affine_matrix m1 m2) hr (le_trans (le_max_left _ _) (le_max_left _ _))
      (le_trans (le_max_right _ _) (le_max_left _ _)) (le_max_right _ _) ?_ hp
    rw [← hd]
    show V3.norm _ = V3.norm _
    congr 1
    apply V3.ext' <;> simp only [Matrix.mulPoint, V3.sub] <;> ring

/-! ## Two points -/

theorem rotations_bound {r m : ℝ} (hr : 0 < r) {q1 q2 : Quat} (h1 : Unit q1) (h2 : Unit q2)
    (hx : ((rotate (shellX r) q1).sub (rotate (shellX r) q2)).norm ≤ m) (hy : ((rotate (shellY r) q1).sub (rotate (shellY r) q2)).norm ≤ m)
    {p : V3} (hp : Within r p) : ((rotate p q1).sub (rotate p q2)).norm ≤ Real.sqrt 2 * m := by
  have hm : 0 ≤ m := le_trans (V3.norm_nonneg _) hx
  have hs : Real.sqrt 2 ^ 2 = 2 := Real.sq_sqrt (by norm_num)
  rw [V3.norm_le_iff hm, rotate_sub_normSq h1 h2] at hx hy
  rw [V3.norm_le_iff (mul_nonneg (Real.sqrt_nonneg _) hm), rotate_sub_normSq h1 h2, mul_pow, hs]
  generalize relative q1 q2 = u at *
  simp only [shellX, shellY] at hx hy
  unfold Within at hp
  have hc : (u.y * p.z - u.z * p.y) ^ 2 + (u.z * p.x - u.x * p.z) ^ 2 + (u.x * p.y - u.y * p.x) ^ 2
      ≤ (u.x ^ 2 + u.y ^ 2 + u.z ^ 2) * (p.x ^ 2 + p.y ^ 2 + p.z ^ 2) := by
    nlinarith [sq_nonneg (u.x * p.x + u.y * p.y + u.z * p.z)]
  have hu := mul_le_mul_of_nonneg_left hp (show 0 ≤ u.x ^ 2 + u.y ^ 2 + u.z ^ 2 by positivity)
  nlinarith [sq_nonneg (u.z * r)]

/-- With two points, for clips without scale: every point within the shell distance moves by at most √2 times what was measured, when
the bone itself does not move; otherwise the distance the bone moves comes on top. -/
theorem C67_two_points {r : ℝ} (hr : 0 < r) {p : V3} (hp : Within r p) (raw lossy : Qvv) (h1 : Unit raw.rotation) (h2 : Unit lossy.rotation) :
    ∀ d, distance raw.translation lossy.translation = d →
      displacementNoScale raw lossy p ≤ Real.sqrt 2 * (calculateErrorNoScale r raw lossy + d) + d := by
  intro d hd
  have split : ∀ v : V3, (mulPointNoScale v raw).sub (mulPointNoScale v lossy)
      = ((rotate v raw.rotation).sub (rotate v lossy.rotation)).add (raw.translation.sub lossy.translation) := by
    intro v
    apply V3.ext' <;> simp only [mulPointNoScale, V3.add, V3.sub] <;> ring
  have back : ∀ v : V3, ((rotate v raw.rotation).sub (rotate v lossy.rotation)).norm
      ≤ distance (mulPointNoScale v raw) (mulPointNoScale v lossy) + d := by
    intro v
    have e : (rotate v raw.rotation).sub (rotate v lossy.rotation)
        = ((mulPointNoScale v raw).sub (mulPointNoScale v lossy)).add (lossy.translation.sub raw.translation) := by
      apply V3.ext' <;> simp only [mulPointNoScale, V3.add, V3.sub] <;> ring
    rw [e]
    refine le_trans (V3.norm_add _ _) (add_le_add (le_refl _) ?_)
    rw [← hd, distance_comm]
    exact le_refl _
  have hb := rotations_bound hr h1 h2 (m := calculateErrorNoScale r raw lossy + d)
    (le_trans (back _) (add_le_add (le_max_left _ _) (le_refl _))) (le_trans (back _) (add_le_add (le_max_right _ _) (le_refl _))) hp
  show V3.norm _ ≤ _
  rw [split]
  refine le_trans (V3.norm_add _ _) (add_le_add hb (le_of_eq ?_))
  rw [← hd]
  rfl

/-- The factor of two points cannot be improved: whatever the shell distance there are rotations, equal translations, a measured error
that is not zero, and a point at the shell distance that moves by √2 times the measured error. -/
theorem C67_two_points_sharp {r : ℝ} (hr : 0 < r) : ∃ raw lossy : Qvv, Unit raw.rotation ∧ Unit lossy.rotation
    ∧ raw.translation = lossy.translation ∧ 0 < calculateErrorNoScale r raw lossy
    ∧ ∃ p, Within r p ∧ displacementNoScale raw lossy p = Real.sqrt 2 * calculateErrorNoScale r raw lossy := by
  have e1 : distance (mulPointNoScale (shellX r) ⟨⟨2/3, 2/3, 0, 1/3⟩, ⟨0, 0, 0⟩, one⟩) (mulPointNoScale (shellX r) identity) = 4 / 3 * r := by
    refine norm_of_normSq (by positivity) ?_
    simp only [identity, mulPointNoScale, rotate, toVector, quatMul, conjugate, ofVector, V3.add, V3.sub, V3.normSq, shellX]
    ring
  have e2 : distance (mulPointNoScale (shellY r) ⟨⟨2/3, 2/3, 0, 1/3⟩, ⟨0, 0, 0⟩, one⟩) (mulPointNoScale (shellY r) identity) = 4 / 3 * r := by
    refine norm_of_normSq (by positivity) ?_
    simp only [identity, mulPointNoScale, rotate, toVector, quatMul, conjugate, ofVector, V3.add, V3.sub, V3.normSq, shellY]
    ring
  have em : calculateErrorNoScale r ⟨⟨2/3, 2/3, 0, 1/3⟩, ⟨0, 0, 0⟩, one⟩ identity = 4 / 3 * r := by
    unfold calculateErrorNoScale
    rw [e1, e2, max_self]
  refine ⟨⟨⟨2/3, 2/3, 0, 1/3⟩, ⟨0, 0, 0⟩, one⟩, identity, by norm_num [Unit], by norm_num [Unit, identity], rfl, ?_, shellZ r,
    by simp [Within, shellZ], ?_⟩
  · rw [em]; positivity
  · rw [em]
    refine norm_of_normSq (by positivity) ?_
    have hs : Real.sqrt 2 ^ 2 = 2 := Real.sq_sqrt (by norm_num)
    rw [mul_pow, hs]
    simp only [identity, mulPointNoScale, rotate, toVector, quatMul, conjugate, ofVector, V3.add, V3.sub, V3.normSq, shellZ]
    ring

/-- Nor can the factor of three points: whatever the shell distance there are matrices with the same origin, a measured error that is
not zero, and a point at the shell distance that moves by √3 times the measured error. -/
theorem C67_three_points_sharp {r : ℝ} (hr : 0 < r) : ∃ m1 m2 : Matrix, m1.wAxis = m2.wAxis ∧ 0 < calculateErrorMatrix r m1 m2
    ∧ ∃ p, Within r p ∧ displacementMatrix m1 m2 p = Real.sqrt 3 * calculateErrorMatrix r m1 m2 := by
  have hs : Real.sqrt 3 ^ 2 = 3 := Real.sq_sqrt (by norm_num)
  have hp : 0 < Real.sqrt 3 := Real.sqrt_pos.mpr (by norm_num)
  have e : calculateErrorMatrix r ⟨⟨2, 0, 0⟩, ⟨1, 1, 0⟩, ⟨1, 0, 1⟩, ⟨0, 0, 0⟩⟩ ⟨⟨1, 0, 0⟩, ⟨0, 1, 0⟩, ⟨0, 0, 1⟩, ⟨0, 0, 0⟩⟩ = r := by
    unfold calculateErrorMatrix
    have one : ∀ v, v = shellX r ∨ v = shellY r ∨ v = shellZ r →
        distance (Matrix.mulPoint v ⟨⟨2, 0, 0⟩, ⟨1, 1, 0⟩, ⟨1, 0, 1⟩, ⟨0, 0, 0⟩⟩)
          (Matrix.mulPoint v ⟨⟨1, 0, 0⟩, ⟨0, 1, 0⟩, ⟨0, 0, 1⟩, ⟨0, 0, 0⟩⟩) = r := by
      intro v hv
      refine norm_of_normSq hr.le ?_
      rcases hv with h | h | h <;> subst h <;> simp only [Matrix.mulPoint, V3.sub, V3.normSq, shellX, shellY, shellZ] <;> ring
    rw [one _ (.inl rfl), one _ (.inr (.inl rfl)), one _ (.inr (.inr rfl)), max_self, max_self]
  refine ⟨⟨⟨2, 0, 0⟩, ⟨1, 1, 0⟩, ⟨1, 0, 1⟩, ⟨0, 0, 0⟩⟩, ⟨⟨1, 0, 0⟩, ⟨0, 1, 0⟩, ⟨0, 0, 1⟩, ⟨0, 0, 0⟩⟩, rfl, by rw [e]; exact hr,
    ⟨r / Real.sqrt 3, r / Real.sqrt 3, r / Real.sqrt 3⟩, ?_, ?_⟩
  · unfold Within
    simp only [div_pow, hs]
    apply le_of_eq
    ring
  · rw [e]
    refine norm_of_normSq (by positivity) ?_
    simp only [Matrix.mulPoint, V3.sub, V3.normSq]
    have h2 : r / Real.sqrt 3 = Real.sqrt 3 * r / 3 := by
      rw [div_eq_div_iff hp.ne' (by norm_num)]
      nlinarith
    rw [h2]
    ring

/-! ## What the metrics cannot see -/

/-- Finding. The comment "when no scale is present, measuring any two points is sufficient" (transform_error_metrics.h:257) does not
hold: whatever rotation the lossy transform applies about the line through the two points, large or small, the measured error is zero,
although a point at the shell distance moves: by 2√2 shell distances for half a turn. -/
theorem C67_two_points_finding {r : ℝ} (hr : 0 < r) (a w : ℝ) (h : a ^ 2 + a ^ 2 + w ^ 2 = 1) : ∃ lossy : Qvv,
    lossy.rotation = ⟨a, -a, 0, w⟩ ∧ Unit lossy.rotation ∧ calculateErrorNoScale r identity lossy = 0
      ∧ Within r ⟨-r, 0, 0⟩ ∧ displacementNoScale identity lossy ⟨-r, 0, 0⟩ = 4 * |a| * r := by
  have hw : w ^ 2 = 1 - 2 * a ^ 2 := by linarith
  refine ⟨⟨⟨a, -a, 0, w⟩, (shellX r).sub (rotate (shellX r) ⟨a, -a, 0, w⟩), one⟩, rfl, ?_, ?_, by simp [Within], ?_⟩
  · unfold Unit; simp only; linarith
  · have ex : mulPointNoScale (shellX r) identity
        = mulPointNoScale (shellX r) ⟨⟨a, -a, 0, w⟩, (shellX r).sub (rotate (shellX r) ⟨a, -a, 0, w⟩), one⟩ := by
      apply V3.ext' <;> simp only [identity, mulPointNoScale, rotate, toVector, quatMul, conjugate, ofVector, V3.add, V3.sub, shellX] <;> ring
    have ey : mulPointNoScale (shellY r) identity
        = mulPointNoScale (shellY r) ⟨⟨a, -a, 0, w⟩, (shellX r).sub (rotate (shellX r) ⟨a, -a, 0, w⟩), one⟩ := by
      apply V3.ext' <;> simp only [identity, mulPointNoScale, rotate, toVector, quatMul, conjugate, ofVector, V3.add, V3.sub, shellX, shellY]
      · linear_combination r * h
      · linear_combination (-r) * h
      · ring
    unfold calculateErrorNoScale
    rw [← ex, ← ey, distance_self, distance_self, max_self]
  · refine norm_of_normSq (by positivity) ?_
    rw [mul_pow, mul_pow, sq_abs]
    simp only [identity, mulPointNoScale, rotate, toVector, quatMul, conjugate, ofVector, V3.add, V3.sub, V3.normSq, shellX]
    linear_combination 4 * r ^ 2 * (w ^ 2 - 1 + 2 * a ^ 2) * hw

/-- Three points do determine a transform without scale: if nothing is measured then no point moves. -/
theorem C67_three_points_rigid {r : ℝ} (hr : 0 < r) (raw lossy : Qvv) (h1 : Unit raw.rotation) (h2 : Unit lossy.rotation)
    (hs1 : raw.scale = one) (hs2 : lossy.scale = one) (h : calculateError r raw lossy = 0) : ∀ p, mulPoint p raw = mulPoint p lossy := by
  have hpos : ∀ v, 0 ≤ distance (mulPoint v raw) (mulPoint v lossy) := fun v => distance_nonneg _ _
  have split : ∀ v : V3, (mulPoint v raw).sub (mulPoint v lossy)
      = ((rotate v raw.rotation).sub (rotate v lossy.rotation)).add (raw.translation.sub lossy.translation) := by
    intro v
    have : v.mul one = v := by apply V3.ext' <;> simp only [V3.mul, one, mul_one]
    simp only [mulPoint, hs1, hs2, this]
    apply V3.ext' <;> simp only [V3.add, V3.sub] <;> ring
  have zero : ∀ v, distance (mulPoint v raw) (mulPoint v lossy) ≤ 0 →
      ((rotate v raw.rotation).sub (rotate v lossy.rotation)).add (raw.translation.sub lossy.translation) = ⟨0, 0, 0⟩ := by
    intro v hv
    have := V3.eq_zero (le_antisymm hv (hpos v))
    rwa [split] at this
  have hX := zero (shellX r) (le_trans (le_trans (le_max_left _ _) (le_max_left _ _)) h.le)
  have hY := zero (shellY r) (le_trans (le_trans (le_max_right _ _) (le_max_left _ _)) h.le)
  have hZ := zero (shellZ r) (le_trans (le_max_right _ _) h.le)
  have hXY : ((rotate ((shellX r).sub (shellY r)) raw.rotation).sub (rotate ((shellX r).sub (shellY r)) lossy.rotation)).normSq = 0 := by
    have e : (rotate ((shellX r).sub (shellY r)) raw.rotation).sub (rotate ((shellX r).sub (shellY r)) lossy.rotation) = ⟨0, 0, 0⟩ := by
      rw [rotate_sub, rotate_sub]
      simp only [V3.add, V3.sub, V3.mk.injEq] at hX hY ⊢
      refine ⟨by linarith [hX.1, hY.1], by linarith [hX.2.1, hY.2.1], by linarith [hX.2.2, hY.2.2]⟩
    rw [e]
    simp [V3.normSq]
  have hXZ : ((rotate ((shellX r).sub (shellZ r)) raw.rotation).sub (rotate ((shellX r).sub (shellZ r)) lossy.rotation)).normSq = 0 := by
    have e : (rotate ((shellX r).sub (shellZ r)) raw.rotation).sub (rotate ((shellX r).sub (shellZ r)) lossy.rotation) = ⟨0, 0, 0⟩ := by
      rw [rotate_sub, rotate_sub]
      simp only [V3.add, V3.sub, V3.mk.injEq] at hX hZ ⊢
      refine ⟨by linarith [hX.1, hZ.1], by linarith [hX.2.1, hZ.2.1], by linarith [hX.2.2, hZ.2.2]⟩
    rw [e]
    simp [V3.normSq]
  rw [rotate_sub_normSq h1 h2] at hXY hXZ
  have hu : (relative raw.rotation lossy.rotation).x = 0 ∧ (relative raw.rotation lossy.rotation).y = 0
      ∧ (relative raw.rotation lossy.rotation).z = 0 := by
    generalize relative raw.rotation lossy.rotation = u at hXY hXZ
    simp only [V3.sub, shellX, shellY, shellZ] at hXY hXZ
    have sq0 : ∀ a b : ℝ, (a * b) ^ 2 ≤ 0 → b ≠ 0 → a = 0 := by
      intro a b hab hb
      have : a * b = 0 := pow_eq_zero_iff (two_ne_zero) |>.mp (le_antisymm hab (sq_nonneg _))
      exact (mul_eq_zero.mp this).resolve_right hb
    have uz : u.z = 0 := sq0 _ r (by nlinarith [sq_nonneg (u.z * r), sq_nonneg (u.x * r + u.y * r)]) hr.ne'
    have uy : u.y = 0 := sq0 _ r (by nlinarith [sq_nonneg (u.y * r), sq_nonneg (u.x * r + u.z * r)]) hr.ne'
    refine ⟨sq0 _ r ?_ hr.ne', uy, uz⟩
    rw [uy, uz] at hXY
    nlinarith [sq_nonneg (u.x * r)]
  have same : ∀ p, rotate p raw.rotation = rotate p lossy.rotation := by
    intro p
    refine distance_eq_zero ?_
    unfold distance V3.norm
    rw [rotate_sub_normSq h1 h2, hu.1, hu.2.1, hu.2.2]
    simp
  have ht : raw.translation = lossy.translation := by
    rw [same] at hX
    simp only [V3.add, V3.sub, V3.mk.injEq, sub_self, zero_add] at hX
    exact V3.ext' (by linarith [hX.1]) (by linarith [hX.2.1]) (by linarith [hX.2.2])
  intro p
  unfold mulPoint
  rw [hs1, hs2, same, ht]

/-- Finding. Three points do not determine a transform whose scale may be negative: whatever the shell distance, the measured error of
a mirrored lossy transform may be zero, although the bone itself moves by more than the shell distance. -/
theorem C67_mirror_finding {r : ℝ} (hr : 0 < r) : ∃ lossy : Qvv, Unit lossy.rotation ∧ lossy.scale = ⟨-1, -1, -1⟩
    ∧ calculateError r identity lossy = 0 ∧ r < displacement identity lossy ⟨0, 0, 0⟩ := by
  have hs : Real.sqrt 3 ^ 2 = 3 := Real.sq_sqrt (by norm_num)
  have hk : (Real.sqrt 3 / 3) ^ 2 = 1 / 3 := by rw [div_pow, hs]; norm_num
  generalize Real.sqrt 3 / 3 = k at hk
  refine ⟨⟨⟨k, k, k, 0⟩, ⟨2 / 3 * r, 2 / 3 * r, 2 / 3 * r⟩, ⟨-1, -1, -1⟩⟩, ?_, rfl, ?_, ?_⟩
  · unfold Unit; simp only; linarith
  · have e : ∀ v, v = shellX r ∨ v = shellY r ∨ v = shellZ r →
        mulPoint v identity = mulPoint v ⟨⟨k, k, k, 0⟩, ⟨2 / 3 * r, 2 / 3 * r, 2 / 3 * r⟩, ⟨-1, -1, -1⟩⟩ := by
      intro v hv
      rcases hv with h | h | h <;> subst h <;> apply V3.ext' <;>
        simp only [identity, one, mulPoint, rotate, toVector, quatMul, conjugate, ofVector, V3.add, V3.mul, shellX, shellY, shellZ] <;> nlinarith
    unfold calculateError
    rw [← e _ (.inl rfl), ← e _ (.inr (.inl rfl)), ← e _ (.inr (.inr rfl)), distance_self, distance_self, distance_self, max_self, max_self]
  · unfold displacement distance V3.norm
    apply Real.lt_sqrt_of_sq_lt
    simp only [identity, one, mulPoint, rotate, toVector, quatMul, conjugate, ofVector, V3.add, V3.sub, V3.mul, V3.normSq]
    nlinarith [sq_pos_of_pos hr]

/-! ## Examples -/

/-- Two rotations a third of a turn apart or so, and a point on the shell. -/
example : Unit ⟨2/3, 2/3, 0, 1/3⟩ ∧ Unit ⟨0, 0, 0, 1⟩ ∧ Within 3 ⟨1, 2, -2⟩ := by
  refine ⟨by norm_num [Unit], by norm_num [Unit], by norm_num [Within]⟩

/-- A rotation and its opposite are the same rotation: nothing is measured. -/
example : calculateError 1 ⟨⟨2/3, 2/3, 0, 1/3⟩, ⟨1, 2, 3⟩, one⟩ ⟨⟨-2/3, -2/3, 0, -1/3⟩, ⟨1, 2, 3⟩, one⟩ = 0 := by
  have e : ∀ v, mulPoint v ⟨⟨2/3, 2/3, 0, 1/3⟩, ⟨1, 2, 3⟩, one⟩ = mulPoint v ⟨⟨-2/3, -2/3, 0, -1/3⟩, ⟨1, 2, 3⟩, one⟩ := by
    intro v
    apply V3.ext' <;> simp only [mulPoint, rotate, toVector, quatMul, conjugate, ofVector, V3.add, V3.mul] <;> ring
  unfold calculateError
  rw [e, e, e, distance_self, distance_self, distance_self, max_self, max_self]

end Acl.C67
