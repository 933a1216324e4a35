import Verif.Context.Convert
/-
From two key frames to the rotation that is written.
/repo/includes/acl/math/quatf.h:40-128 quat_lerp_no_normalization, 170-214 quat_lerp_no_normalization4, quat_normalize4
/repo/includes/acl/decompression/decompression_settings.h:52-62 rotation_normalization_policy_t
/repo/includes/acl/decompression/impl/animated_track_cache.transform.h:1411-1640 unpack_rotation_group, 1711-1765 unpack_rotation_within_group
/repo/includes/acl/decompression/impl/constant_track_cache.transform.h:156-184 (constant rotations), 235-263
/repo/includes/acl/decompression/impl/decompression_context.transform.h:188-201 should_interpolate_samples

One of the four rotations of a group. RTM is not in the repository: vector_div and vector_sqrt are a correctly rounded division and an arbitrary square root;
rtm::quat_lerp and rtm::quat_normalize, that only the functions for a single track use, are the functions of a group, with the dot product in any order.
Not modelled: the eight wide AVX variant, infinities and NaN.
-/
namespace Acl.Rotation
open Acl.F32 Acl.Interp Acl.Lerp Acl.Convert
open Acl.Transform hiding Quat

/-- decompression_settings.h:52-62 rotation_normalization_policy_t -/
inductive Policy where
  | never
  | lerpOnly
  | always
  deriving DecidableEq

/-- `policy >= rotation_normalization_policy_t::lerp_only` -/
def Policy.afterLerp : Policy → Bool
  | .never => false
  | _ => true

/-- quatf.h:202-206: the inverse of the length, with a dot product -/
def invLength (dot : Quat → Quat → ℚ) (sqrt : ℚ → ℚ) (q : Quat) : ℚ := fdiv 1 (sqrt (dot q q))

/-- quatf.h:200-213 quat_normalize4, one of the four rotations -/
def normalize (dot : Quat → Quat → ℚ) (sqrt : ℚ → ℚ) (q : Quat) : Quat :=
  ⟨fmul q.x (invLength dot sqrt q), fmul q.y (invLength dot sqrt q), fmul q.z (invLength dot sqrt q), fmul q.w (invLength dot sqrt q)⟩

/-- quatf.h:46-76: with the SSE2 instructions: `(xx + zz) + (yy + ww)` -/
def dotSse2 (s e : Quat) : ℚ := fadd (fadd (fmul s.x e.x) (fmul s.z e.z)) (fadd (fmul s.y e.y) (fmul s.w e.w))

/-- quatf.h:59: with the SSE4 instruction: `(xx + yy) + (zz + ww)` -/
def dotSse4 (s e : Quat) : ℚ := fadd (fadd (fmul s.x e.x) (fmul s.y e.y)) (fadd (fmul s.z e.z) (fmul s.w e.w))

/-- quatf.h:78-86: flip `end` when the dot product is negative -/
def flip (dot : Quat → Quat → ℚ) (s e : Quat) : ℚ := if dot s e < 0 then -1 else 1

/-- quatf.h:40-128 quat_lerp_no_normalization, and quat_lerp_no_normalization4 with the dot product of a group -/
def blend (dot : Quat → Quat → ℚ) (fused : Bool) (s e : Quat) (alpha : ℚ) : Quat :=
  ⟨lerp fused s.x (flip dot s e * e.x) alpha, lerp fused s.y (flip dot s e * e.y) alpha,
    lerp fused s.z (flip dot s e * e.z) alpha, lerp fused s.w (flip dot s e * e.w) alpha⟩

/-- What a decompression is compiled with: decompression_settings.h -/
structure Config where
  policy : Policy
  /-- is_per_track_rounding_supported -/
  perTrack : Bool
  /-- quatf_full is supported and no other rotation format is -/
  onlyFull : Bool
  fused : Bool
  sqrt : ℚ → ℚ
  /-- the dot product of the functions that decompress a single track -/
  singleDot : Quat → Quat → ℚ

/-- Whether the W component is stored: the format is quatf_full -/
def isFull (s : Sample) : Bool :=
  match s.raw with
  | .float4 _ => true
  | _ => false

/-- decompression_context.transform.h:192-201 should_interpolate_samples -/
def shouldInterpolate (c : Config) (alpha : ℚ) : Bool := if c.onlyFull then decide (0 < alpha ∧ alpha < 1) else true

/-- `p ? quat_normalize(q) : q` -/
def normalizeIf (p : Bool) (dot : Quat → Quat → ℚ) (sqrt : ℚ → ℚ) (q : Quat) : Quat := if p then normalize dot sqrt q else q

/-- animated_track_cache.transform.h:1411-1471: a rotation of a key frame, in a group -/
def groupKey (c : Config) (alpha : ℚ) (s : Sample) : Quat :=
  normalizeIf (!isFull s && decide (c.policy = .always) && (c.perTrack || !shouldInterpolate c alpha)) (dot c.fused) c.sqrt (keyRotation c.fused c.sqrt s)

/-- animated_track_cache.transform.h:1536-1549, 1593-1603: the interpolated rotation -/
def groupLerp (c : Config) (alpha : ℚ) (d0 d1 : Sample) : Quat :=
  normalizeIf c.policy.afterLerp (dot c.fused) c.sqrt (blend (dot c.fused) c.fused (groupKey c alpha d0) (groupKey c alpha d1) alpha)

/-- animated_track_cache.transform.h:1473-1640 with consume_rotation: the rotation decompress_tracks writes. `slot` is read when per track rounding is
supported, `contextAlpha` when it is not. -/
def groupRotation (c : Config) (alpha : ℚ) (d0 d1 : Sample) : Transform.Interp → Quat
  | .slot .floor => groupKey c alpha d0
  | .slot .ceil => groupKey c alpha d1
  | .slot .nearest => if alpha < 1 / 2 then groupKey c alpha d0 else groupKey c alpha d1
  | .slot _ => groupLerp c alpha d0 d1
  | _ =>
    if shouldInterpolate c alpha then groupLerp c alpha d0 d1
    else if alpha ≤ 0 then groupKey c alpha d0 else groupKey c alpha d1

/-- animated_track_cache.transform.h:1711-1765 unpack_rotation_within_group -/
def singleAt (c : Config) (alpha : ℚ) (d0 d1 : Sample) : Quat :=
  if shouldInterpolate c alpha then
    normalizeIf c.policy.afterLerp c.singleDot c.sqrt (blend c.singleDot c.fused (keyRotation c.fused c.sqrt d0) (keyRotation c.fused c.sqrt d1) alpha)
  else
    normalizeIf (!isFull d0 && decide (c.policy = .always)) c.singleDot c.sqrt
      (if alpha ≤ 0 then keyRotation c.fused c.sqrt d0 else keyRotation c.fused c.sqrt d1)

/-- decompression.transform.h:1970-1990: the rotation decompress_track writes -/
def singleRotation (c : Config) (alpha : ℚ) (d0 d1 : Sample) : Transform.Interp → Quat
  | .roundedAlpha p => singleAt c (applyRounding alpha p) d0 d1
  | _ => singleAt c alpha d0 d1

/-- constant_track_cache.transform.h:156-184, 235-263: a constant rotation whose W is not stored -/
def constantRotation (c : Config) (dot : Quat → Quat → ℚ) (x y z : ℚ) : Quat :=
  normalizeIf (decide (c.policy = .always)) dot c.sqrt ⟨x, y, z, positiveW c.fused c.sqrt x y z⟩

end Acl.Rotation
