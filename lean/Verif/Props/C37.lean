import Verif.Core.LerpLemmas
/-
C37: linear blending stays between its end points.
A blended sample is within rounding of the exact blend, so between the two samples up to that slack, and it is
exactly the first sample at factor 0 and the second at factor 1; with and without fused multiply-add.
For rotations the second end point is `end` or its opposite (the same rotation).
-/
namespace Acl.C37
open Acl.F32 Acl.Lerp

/-- `v` is between `a` and `b`, give or take `slack`. -/
def Between (a b slack v : ℚ) : Prop := min a b - slack ≤ v ∧ v ≤ max a b + slack

/-- The allowed rounding error for samples of magnitude at most `max |s| |e|`. -/
def slack (s e : ℚ) : ℚ := max |s| |e| / 2 ^ 21 + 1 / 2 ^ 146

theorem slack_eq (s e : ℚ) : max |s| |e| / 2 ^ 21 + pow2 (-146) = slack s e := by
  unfold slack; congr 1

/-- The blend is within the slack of the exact one. -/
theorem C37_close (fused : Bool) (s e a : ℚ) (ha : 0 ≤ a ∧ a ≤ 1) :
    |lerp fused s e a - ((1 - a) * s + a * e)| ≤ slack s e := by
  rw [← slack_eq]
  exact lerp_err fused (le_max_left _ _) (le_max_right _ _) ha.1 ha.2

/-- The blend is between the two samples. -/
theorem C37_between (fused : Bool) (s e a : ℚ) (ha : 0 ≤ a ∧ a ≤ 1) :
    Between s e (slack s e) (lerp fused s e a) := by
  obtain ⟨h1, h2⟩ := abs_le.mp (C37_close fused s e a ha)
  obtain ⟨a0, a1⟩ := ha
  have m1 : min s e ≤ (1 - a) * s + a * e := by
    have := min_le_left s e; have := min_le_right s e; nlinarith
  have m2 : (1 - a) * s + a * e ≤ max s e := by
    have := le_max_left s e; have := le_max_right s e; nlinarith
  constructor <;> linarith

/-- The end points are exact. -/
theorem C37_end_points (fused : Bool) (s e : ℚ) (hs : IsFloat s) (he : IsFloat e) :
    lerp fused s e 0 = s ∧ lerp fused s e 1 = e :=
  ⟨lerp_zero fused hs, lerp_one fused hs he⟩

/-- A quaternion of floats. -/
def FloatQuat (q : Quat) : Prop := IsFloat q.x ∧ IsFloat q.y ∧ IsFloat q.z ∧ IsFloat q.w

/-- The opposite quaternion: the same rotation. -/
def opposite (q : Quat) : Quat := Quat.mk (-q.x) (-q.y) (-q.z) (-q.w)

/-- Rotations: exact end points, up to the sign of the quaternion. -/
theorem C37_rotation_end_points (fused : Bool) (s e : Quat) (hs : FloatQuat s) (he : FloatQuat e) :
    quatLerp fused s e 0 = s ∧ (quatLerp fused s e 1 = e ∨ quatLerp fused s e 1 = opposite e) := by
  obtain ⟨sx, sy, sz, sw⟩ := hs
  obtain ⟨ex, ey, ez, ew⟩ := he
  constructor
  · simp only [quatLerp, lerp_zero fused sx, lerp_zero fused sy, lerp_zero fused sz, lerp_zero fused sw]
  · by_cases h : dot fused s e < 0
    · right
      simp only [quatLerp, bias, if_pos h, neg_one_mul, opposite]
      rw [lerp_one fused sx (isFloat_neg ex), lerp_one fused sy (isFloat_neg ey),
        lerp_one fused sz (isFloat_neg ez), lerp_one fused sw (isFloat_neg ew)]
    · left
      simp only [quatLerp, bias, if_neg h, one_mul]
      rw [lerp_one fused sx ex, lerp_one fused sy ey, lerp_one fused sz ez, lerp_one fused sw ew]

/-- Rotations: every component is between the first rotation and the same sign of the second one. -/
theorem C37_rotation_between (fused : Bool) (s e : Quat) (a : ℚ) (ha : 0 ≤ a ∧ a ≤ 1) :
    ∃ e' : Quat, (e' = e ∨ e' = opposite e) ∧
      Between s.x e'.x (slack s.x e'.x) (quatLerp fused s e a).x ∧
      Between s.y e'.y (slack s.y e'.y) (quatLerp fused s e a).y ∧
      Between s.z e'.z (slack s.z e'.z) (quatLerp fused s e a).z ∧
      Between s.w e'.w (slack s.w e'.w) (quatLerp fused s e a).w := by
  by_cases h : dot fused s e < 0
  · refine ⟨opposite e, Or.inr rfl, ?_⟩
    simp only [quatLerp, bias, if_pos h, neg_one_mul, opposite]
    exact ⟨C37_between fused _ _ a ha, C37_between fused _ _ a ha, C37_between fused _ _ a ha,
      C37_between fused _ _ a ha⟩
  · refine ⟨e, Or.inl rfl, ?_⟩
    simp only [quatLerp, bias, if_neg h, one_mul]
    exact ⟨C37_between fused _ _ a ha, C37_between fused _ _ a ha, C37_between fused _ _ a ha,
      C37_between fused _ _ a ha⟩

/-- The exact dot product of two quaternions. -/
def exactDot (p q : Quat) : ℚ := p.x * q.x + p.y * q.y + p.z * q.z + p.w * q.w

/-- The blend takes the shorter way: for components at most 1 the sign of the second rotation is chosen such
that the two rotations are on the same side, up to rounding. -/
theorem C37_rotation_shorter (fused : Bool) (s e : Quat)
    (hs : |s.x| ≤ 1 ∧ |s.y| ≤ 1 ∧ |s.z| ≤ 1 ∧ |s.w| ≤ 1) (he : |e.x| ≤ 1 ∧ |e.y| ≤ 1 ∧ |e.z| ≤ 1 ∧ |e.w| ≤ 1) :
    ∃ e' : Quat, (e' = e ∨ e' = opposite e) ∧ -(1 / 2 ^ 19) ≤ exactDot s e' ∧
      quatLerp fused s e = fun a => Quat.mk (lerp fused s.x e'.x a) (lerp fused s.y e'.y a)
        (lerp fused s.z e'.z a) (lerp fused s.w e'.w a) := by
  have hd := dot_err fused hs he
  obtain ⟨d1, d2⟩ := abs_le.mp hd
  by_cases h : dot fused s e < 0
  · refine ⟨opposite e, Or.inr rfl, ?_, ?_⟩
    · simp only [exactDot, opposite]; linarith
    · funext a; simp only [quatLerp, bias, if_pos h, neg_one_mul, opposite]
  · refine ⟨e, Or.inl rfl, ?_, ?_⟩
    · simp only [exactDot]; linarith
    · funext a; simp only [quatLerp, bias, if_neg h, one_mul]

/-- The hypotheses are met. -/
example : IsFloat (3 / 4) ∧ IsFloat (-5 / 8) ∧ lerp true (3 / 4) (-5 / 8) (1 / 4) = 13 / 32 ∧
    lerp false (3 / 4) (-5 / 8) (1 / 4) = 13 / 32 :=
  ⟨⟨3, -2, by decide +kernel, by decide, by decide, by decide⟩,
   ⟨-5, -3, by decide +kernel, by decide, by decide, by decide⟩, by decide +kernel, by decide +kernel⟩

/-- Rounding does occur: two equal samples may blend to a different value. -/
theorem C37_equal_samples_finding : ∃ s a : ℚ, IsFloat s ∧ 0 ≤ a ∧ a ≤ 1 ∧ lerp false s s a ≠ s :=
  ⟨11 / 8 + 3 / 2 ^ 23, 3 / 16, ⟨(11 * 2 ^ 20 + 3), -23, by decide +kernel, by decide, by decide, by decide⟩,
    by norm_num, by norm_num, by decide +kernel⟩

end Acl.C37
