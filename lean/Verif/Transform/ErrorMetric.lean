import Mathlib.Analysis.SpecialFunctions.Sqrt
/-
The error metrics and the additive formats, in exact arithmetic.
/repo/includes/acl/compression/transform_error_metrics.h:260-265 (construct_sphere_shell), 335-380 (qvvf_transform_error_metric),
438-463 (qvvf_matrix3x4f_transform_error_metric)
/repo/includes/acl/core/additive_utils.h:43-67, 129-195

Numbers are reals: rounding is not modelled. The functions of RTM (quat_mul, quat_mul_vector3, qvv_mul_point3, qvv_mul_no_scale,
vector_distance3) are not in /repo; they are modelled as they are documented: `quat_mul(lhs, rhs)` is lhs followed by rhs, a point is
scaled, rotated, then translated.
-/
namespace Acl.Metric

structure V3 where
  x : ℝ
  y : ℝ
  z : ℝ

structure Quat where
  x : ℝ
  y : ℝ
  z : ℝ
  w : ℝ

/-- rtm::qvvf -/
structure Qvv where
  rotation : Quat
  translation : V3
  scale : V3

/-- rtm::vector_add -/
def V3.add (a b : V3) : V3 := ⟨a.x + b.x, a.y + b.y, a.z + b.z⟩

/-- rtm::vector_sub -/
def V3.sub (a b : V3) : V3 := ⟨a.x - b.x, a.y - b.y, a.z - b.z⟩

/-- rtm::vector_mul -/
def V3.mul (a b : V3) : V3 := ⟨a.x * b.x, a.y * b.y, a.z * b.z⟩

/-- rtm::vector_div, and a product with rtm::vector_reciprocal -/
noncomputable def V3.div (a b : V3) : V3 := ⟨a.x / b.x, a.y / b.y, a.z / b.z⟩

/-- rtm::vector_dot3 of a vector with itself -/
def V3.normSq (a : V3) : ℝ := a.x ^ 2 + a.y ^ 2 + a.z ^ 2

/-- rtm::vector_length3 -/
noncomputable def V3.norm (a : V3) : ℝ := Real.sqrt a.normSq

/-- rtm::vector_distance3 -/
noncomputable def distance (a b : V3) : ℝ := (a.sub b).norm

def one : V3 := ⟨1, 1, 1⟩

/-- rtm::quat_mul -/
def quatMul (lhs rhs : Quat) : Quat where
  x := rhs.w * lhs.x + rhs.x * lhs.w + rhs.y * lhs.z - rhs.z * lhs.y
  y := rhs.w * lhs.y - rhs.x * lhs.z + rhs.y * lhs.w + rhs.z * lhs.x
  z := rhs.w * lhs.z + rhs.x * lhs.y - rhs.y * lhs.x + rhs.z * lhs.w
  w := rhs.w * lhs.w - rhs.x * lhs.x - rhs.y * lhs.y - rhs.z * lhs.z

/-- rtm::quat_conjugate -/
def conjugate (q : Quat) : Quat := ⟨-q.x, -q.y, -q.z, q.w⟩

def Quat.normSq (q : Quat) : ℝ := q.x ^ 2 + q.y ^ 2 + q.z ^ 2 + q.w ^ 2

def ofVector (v : V3) : Quat := ⟨v.x, v.y, v.z, 0⟩

def toVector (q : Quat) : V3 := ⟨q.x, q.y, q.z⟩

/-- rtm::quat_mul_vector3 -/
def rotate (v : V3) (q : Quat) : V3 := toVector (quatMul (quatMul (conjugate q) (ofVector v)) q)

/-- rtm::qvv_mul_point3 -/
def mulPoint (p : V3) (t : Qvv) : V3 := (rotate (p.mul t.scale) t.rotation).add t.translation

/-- rtm::qvv_mul_point3_no_scale -/
def mulPointNoScale (p : V3) (t : Qvv) : V3 := (rotate p t.rotation).add t.translation

/-- transform_error_metrics.h:260-265 construct_sphere_shell: the points of the shell -/
def shellX (r : ℝ) : V3 := ⟨r, 0, 0⟩
def shellY (r : ℝ) : V3 := ⟨0, r, 0⟩
def shellZ (r : ℝ) : V3 := ⟨0, 0, r⟩

/-- transform_error_metrics.h:335-358 qvvf_transform_error_metric::calculate_error -/
noncomputable def calculateError (r : ℝ) (raw lossy : Qvv) : ℝ :=
  max (max (distance (mulPoint (shellX r) raw) (mulPoint (shellX r) lossy)) (distance (mulPoint (shellY r) raw) (mulPoint (shellY r) lossy)))
    (distance (mulPoint (shellZ r) raw) (mulPoint (shellZ r) lossy))

/-- transform_error_metrics.h:360-380 qvvf_transform_error_metric::calculate_error_no_scale -/
noncomputable def calculateErrorNoScale (r : ℝ) (raw lossy : Qvv) : ℝ :=
  max (distance (mulPointNoScale (shellX r) raw) (mulPointNoScale (shellX r) lossy))
    (distance (mulPointNoScale (shellY r) raw) (mulPointNoScale (shellY r) lossy))

/-- rtm::matrix3x4f -/
structure Matrix where
  xAxis : V3
  yAxis : V3
  zAxis : V3
  wAxis : V3

/-- rtm::matrix_mul_point3 -/
def Matrix.mulPoint (p : V3) (m : Matrix) : V3 :=
  ⟨p.x * m.xAxis.x + p.y * m.yAxis.x + p.z * m.zAxis.x + m.wAxis.x, p.x * m.xAxis.y + p.y * m.yAxis.y + p.z * m.zAxis.y + m.wAxis.y,
    p.x * m.xAxis.z + p.y * m.yAxis.z + p.z * m.zAxis.z + m.wAxis.z⟩

/-- transform_error_metrics.h:438-463 qvvf_matrix3x4f_transform_error_metric::calculate_error -/
noncomputable def calculateErrorMatrix (r : ℝ) (raw lossy : Matrix) : ℝ :=
  max (max (distance (Matrix.mulPoint (shellX r) raw) (Matrix.mulPoint (shellX r) lossy))
    (distance (Matrix.mulPoint (shellY r) raw) (Matrix.mulPoint (shellY r) lossy)))
    (distance (Matrix.mulPoint (shellZ r) raw) (Matrix.mulPoint (shellZ r) lossy))

/-! ## Additive clips -/

/-- additive_utils.h:43-67 additive_clip_format8 -/
inductive Additive where
  | none
  | relative
  | additive0
  | additive1
  deriving DecidableEq, Repr

/-- additive_utils.h:129-135 transform_add0 -/
def transformAdd0 (base additive : Qvv) : Qvv :=
  ⟨quatMul additive.rotation base.rotation, additive.translation.add base.translation, additive.scale.mul base.scale⟩

/-- additive_utils.h:137-143 transform_add1 -/
def transformAdd1 (base additive : Qvv) : Qvv :=
  ⟨quatMul additive.rotation base.rotation, additive.translation.add base.translation, (one.add additive.scale).mul base.scale⟩

/-- additive_utils.h:145-150 transform_add_no_scale -/
def transformAddNoScale (base additive : Qvv) : Qvv :=
  ⟨quatMul additive.rotation base.rotation, additive.translation.add base.translation, one⟩

/-- rtm::qvv_mul_no_scale -/
def qvvMulNoScale (lhs rhs : Qvv) : Qvv :=
  ⟨quatMul lhs.rotation rhs.rotation, (rotate lhs.translation rhs.rotation).add rhs.translation, one⟩

/-- rtm::qvv_mul, for scales that are not negative -/
def qvvMul (lhs rhs : Qvv) : Qvv :=
  ⟨quatMul lhs.rotation rhs.rotation, (rotate (lhs.translation.mul rhs.scale) rhs.rotation).add rhs.translation, lhs.scale.mul rhs.scale⟩

/-- rtm::qvv_inverse -/
noncomputable def qvvInverse (t : Qvv) : Qvv :=
  ⟨conjugate t.rotation, (V3.sub ⟨0, 0, 0⟩ (rotate (t.translation.mul (one.div t.scale)) (conjugate t.rotation))), one.div t.scale⟩

/-- additive_utils.h:152-162 apply_additive_to_base -/
def applyAdditive (format : Additive) (base additive : Qvv) : Qvv :=
  match format with
  | .none => additive
  | .relative => qvvMul additive base
  | .additive0 => transformAdd0 base additive
  | .additive1 => transformAdd1 base additive

/-- additive_utils.h:164-174 apply_additive_to_base_no_scale -/
def applyAdditiveNoScale (format : Additive) (base additive : Qvv) : Qvv :=
  match format with
  | .none => additive
  | .relative => qvvMulNoScale additive base
  | .additive0 => transformAddNoScale base additive
  | .additive1 => transformAddNoScale base additive

/-- additive_utils.h:176-179 convert_to_relative -/
noncomputable def convertToRelative (base transform : Qvv) : Qvv := qvvMul transform (qvvInverse base)

/-- additive_utils.h:181-187 convert_to_additive0 -/
noncomputable def convertToAdditive0 (base transform : Qvv) : Qvv :=
  ⟨quatMul transform.rotation (conjugate base.rotation), transform.translation.sub base.translation, transform.scale.div base.scale⟩

/-- additive_utils.h:189-195 convert_to_additive1 -/
noncomputable def convertToAdditive1 (base transform : Qvv) : Qvv :=
  ⟨quatMul transform.rotation (conjugate base.rotation), transform.translation.sub base.translation, (transform.scale.div base.scale).sub one⟩

/-- compress.transform.impl.h:211, 422-423: the default scale bit of the compressed clip. -/
def defaultScaleBit (format : Additive) : ℕ :=
  let isAdditive := format != .none
  if !isAdditive || format != .additive1 then 1 else 0

end Acl.Metric
