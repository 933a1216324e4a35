import Verif.Float.F32
/-
Linear interpolation of samples.
/repo/includes/acl/math/quatf.h:167-201 (four rotations at a time)
/repo/includes/acl/decompression/impl/decompression.scalar.h:311,350,389,428,467,577-697 (rtm::scalar_lerp, rtm::vector_lerp)
/repo/includes/acl/decompression/impl/animated_track_cache.transform.h:1821,1886,1943,2008 (rtm::vector_lerp)

RTM is not in the repository: vector_mul_add(a, b, c) is a * b + c and vector_neg_mul_sub(a, b, c) is
c - a * b, with one rounding when the target has fused multiply-add (`fused`) and two otherwise;
scalar_lerp and vector_lerp are the formula written out in quatf.h:193. A vector is one lane at a time.
-/
namespace Acl.Lerp
open Acl.F32

/-- rtm::vector_mul_add: `a * b + c` -/
def mulAdd (fused : Bool) (a b c : ℚ) : ℚ :=
  if fused then rnd (a * b + c) else fadd (fmul a b) c

/-- rtm::vector_neg_mul_sub: `c - a * b` -/
def negMulSub (fused : Bool) (a b c : ℚ) : ℚ :=
  if fused then rnd (c - a * b) else fsub c (fmul a b)

/-- rtm::scalar_lerp, and one lane of rtm::vector_lerp; quatf.h:192-194:
`(start - alpha * start) + (alpha * end)` -/
def lerp (fused : Bool) (s e alpha : ℚ) : ℚ :=
  mulAdd fused e alpha (negMulSub fused s alpha s)

/-- A quaternion of floats. -/
structure Quat where
  x : ℚ
  y : ℚ
  z : ℚ
  w : ℚ
  deriving DecidableEq

/-- quatf.h:177: the dot product of `start` and `end` -/
def dot (fused : Bool) (s e : Quat) : ℚ :=
  mulAdd fused s.w e.w (mulAdd fused s.z e.z (mulAdd fused s.y e.y (fmul s.x e.x)))

/-- quatf.h:181-188: flip `end` when the sign bit of the dot product is set. Simplification: a dot product of
minus zero is taken as positive. -/
def bias (fused : Bool) (s e : Quat) : ℚ := if dot fused s e < 0 then -1 else 1

/-- quatf.h:170-197 quat_lerp_no_normalization4, one of the four rotations -/
def quatLerp (fused : Bool) (s e : Quat) (alpha : ℚ) : Quat :=
  Quat.mk (lerp fused s.x (bias fused s e * e.x) alpha) (lerp fused s.y (bias fused s e * e.y) alpha)
    (lerp fused s.z (bias fused s e * e.z) alpha) (lerp fused s.w (bias fused s e * e.w) alpha)

end Acl.Lerp
