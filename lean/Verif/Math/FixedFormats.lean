import Verif.Core.ScalarPacking
import Verif.Core.Lerp
/-
The vector and rotation formats of a fixed size.
/repo/includes/acl/math/vector4_packing.h:166-220 (vector4_64, vector4_32), 602-660 (u48, s48), 689-704, 740-755 (vector3_32), 757-825 (u24, s24)
/repo/includes/acl/math/quat_packing.h:62-93 (quat_48, quat_32)

A buffer is a list of bytes (numbers under 256) that starts where the pointer points. `none`: an access outside of the buffer, a shift by the width,
a conversion of a float that does not fit, a `safe_static_cast` that asserts. The target is little endian. `fused` says if the target has a fused
multiply-add. RTM is not in the repository: quat_ensure_positive_w negates a rotation when its w is negative, quat_from_positive_w is as in math/quatf.h
with an arbitrary square root; vector_neg_mul_sub is Lerp.negMulSub. Values are finite.
-/
namespace Acl.Fixed
open Acl.F32 Acl.ScalarPacking Acl.Lerp

structure V3 where
  x : ℚ
  y : ℚ
  z : ℚ
  deriving DecidableEq

structure V4 where
  x : ℚ
  y : ℚ
  z : ℚ
  w : ℚ
  deriving DecidableEq

abbrev Buffer := List Nat

/-- `is_unsigned ? pack_scalar_unsigned(..) : pack_scalar_signed(..)` -/
def packLane (isUnsigned : Bool) (x : ℚ) (n : Nat) : Option Nat :=
  if isUnsigned then packUnsigned x n else packSigned x n

/-- `is_unsigned ? unpack_scalar_unsigned(..) : unpack_scalar_signed(..)` -/
def unpackLane (isUnsigned : Bool) (v : Nat) (n : Nat) : ℚ :=
  if isUnsigned then unpackUnsigned v n else unpackSigned v n

/-- core/impl/memory_utils: safe_static_cast<uint16_t>: asserts that the value fits -/
def safe16 (k : Nat) : Option Nat := if k < 2 ^ 16 then some k else none

/-- safe_static_cast<uint8_t> -/
def safe8 (k : Nat) : Option Nat := if k < 2 ^ 8 then some k else none

/-- Writing a byte -/
def storeByte (m : Buffer) (i k : Nat) : Option Buffer := if i < m.length then some (m.set i k) else none

/-- Writing `data[i]` where data is a uint16_t*, little endian -/
def storeWord (m : Buffer) (i k : Nat) : Option Buffer :=
  (storeByte m (2 * i) (k % 256)).bind fun m => storeByte m (2 * i + 1) (k / 256)

/-- Reading `data[i]` where data is a uint16_t* -/
def loadWord (m : Buffer) (i : Nat) : Option Nat :=
  (m[2 * i]?).bind fun lo => (m[2 * i + 1]?).map fun hi => lo + 256 * hi

/-- vector4_packing.h:166-178 pack_vector4_64 -/
def packVector4_64 (v : V4) (isUnsigned : Bool) (m : Buffer) : Option Buffer :=
  (packLane isUnsigned v.x 16).bind fun x => (packLane isUnsigned v.y 16).bind fun y =>
  (packLane isUnsigned v.z 16).bind fun z => (packLane isUnsigned v.w 16).bind fun w =>
  (safe16 x).bind fun x => (storeWord m 0 x).bind fun m =>
  (safe16 y).bind fun y => (storeWord m 1 y).bind fun m =>
  (safe16 z).bind fun z => (storeWord m 2 z).bind fun m =>
  (safe16 w).bind fun w => storeWord m 3 w

/-- vector4_packing.h:180-192 unpack_vector4_64 -/
def unpackVector4_64 (m : Buffer) (isUnsigned : Bool) : Option V4 :=
  (loadWord m 0).bind fun x => (loadWord m 1).bind fun y => (loadWord m 2).bind fun z => (loadWord m 3).map fun w =>
  ⟨unpackLane isUnsigned x 16, unpackLane isUnsigned y 16, unpackLane isUnsigned z 16, unpackLane isUnsigned w 16⟩

/-- vector4_packing.h:194-205 pack_vector4_32 -/
def packVector4_32 (v : V4) (isUnsigned : Bool) (m : Buffer) : Option Buffer :=
  (packLane isUnsigned v.x 8).bind fun x => (packLane isUnsigned v.y 8).bind fun y =>
  (packLane isUnsigned v.z 8).bind fun z => (packLane isUnsigned v.w 8).bind fun w =>
  (safe8 x).bind fun x => (storeByte m 0 x).bind fun m =>
  (safe8 y).bind fun y => (storeByte m 1 y).bind fun m =>
  (safe8 z).bind fun z => (storeByte m 2 z).bind fun m =>
  (safe8 w).bind fun w => storeByte m 3 w

/-- vector4_packing.h:207-218 unpack_vector4_32 -/
def unpackVector4_32 (m : Buffer) (isUnsigned : Bool) : Option V4 :=
  (m[0]?).bind fun x => (m[1]?).bind fun y => (m[2]?).bind fun z => (m[3]?).map fun w =>
  ⟨unpackLane isUnsigned x 8, unpackLane isUnsigned y 8, unpackLane isUnsigned z 8, unpackLane isUnsigned w 8⟩

/-- vector4_packing.h:602-626 pack_vector3_u48_unsafe, pack_vector3_s48_unsafe -/
def packVector3_48 (isUnsigned : Bool) (v : V3) (m : Buffer) : Option Buffer :=
  (packLane isUnsigned v.x 16).bind fun x => (packLane isUnsigned v.y 16).bind fun y =>
  (packLane isUnsigned v.z 16).bind fun z =>
  (safe16 x).bind fun x => (storeWord m 0 x).bind fun m =>
  (safe16 y).bind fun y => (storeWord m 1 y).bind fun m =>
  (safe16 z).bind fun z => storeWord m 2 z

/-- vector4_packing.h:628-653 unpack_vector3_u48_unsafe with the SSE2 instructions: sixteen bytes are loaded -/
def unpackVector3_u48 (m : Buffer) : Option V3 :=
  if m.length < 16 then none else
  (loadWord m 0).bind fun x => (loadWord m 1).bind fun y => (loadWord m 2).map fun z =>
  ⟨fmul (ofNat x) (fdiv 1 65535), fmul (ofNat y) (fdiv 1 65535), fmul (ofNat z) (fdiv 1 65535)⟩

/-- vector4_packing.h:656-660, 821-825: from [0, 1] to [-1, 1] -/
def toSigned (fused : Bool) (v : V3) : V3 :=
  ⟨negMulSub fused v.x (-2) (-1), negMulSub fused v.y (-2) (-1), negMulSub fused v.z (-2) (-1)⟩

/-- vector4_packing.h:656-660 unpack_vector3_s48_unsafe -/
def unpackVector3_s48 (fused : Bool) (m : Buffer) : Option V3 := (unpackVector3_u48 m).map (toSigned fused)

/-- vector4_packing.h:757-779 pack_vector3_u24_unsafe, pack_vector3_s24_unsafe -/
def packVector3_24 (isUnsigned : Bool) (v : V3) (m : Buffer) : Option Buffer :=
  (packLane isUnsigned v.x 8).bind fun x => (packLane isUnsigned v.y 8).bind fun y =>
  (packLane isUnsigned v.z 8).bind fun z =>
  (safe8 x).bind fun x => (storeByte m 0 x).bind fun m =>
  (safe8 y).bind fun y => (storeByte m 1 y).bind fun m =>
  (safe8 z).bind fun z => storeByte m 2 z

/-- vector4_packing.h:781-819 unpack_vector3_u24_unsafe with the SSE2 instructions: sixteen bytes are loaded -/
def unpackVector3_u24 (m : Buffer) : Option V3 :=
  if m.length < 16 then none else
  (m[0]?).bind fun x => (m[1]?).bind fun y => (m[2]?).map fun z =>
  ⟨fmul (ofNat x) (fdiv 1 255), fmul (ofNat y) (fdiv 1 255), fmul (ofNat z) (fdiv 1 255)⟩

/-- vector4_packing.h:821-825 unpack_vector3_s24_unsafe -/
def unpackVector3_s24 (fused : Bool) (m : Buffer) : Option V3 := (unpackVector3_u24 m).map (toSigned fused)

/-- `value << count` on uint32_t -/
def shl32 (k count : Nat) : Option Nat := if count < 32 then some (k <<< count % 2 ^ 32) else none

/-- `value >> count` on uint32_t -/
def shr32 (k count : Nat) : Option Nat := if count < 32 then some (k >>> count) else none

/-- vector4_packing.h:689-704 pack_vector3_32. The assert on the sum of the bits is a hypothesis of the theorems. -/
def packVector3_32 (v : V3) (xBits yBits zBits : Nat) (isUnsigned : Bool) (m : Buffer) : Option Buffer :=
  (packLane isUnsigned v.x xBits).bind fun x => (packLane isUnsigned v.y yBits).bind fun y =>
  (packLane isUnsigned v.z zBits).bind fun z =>
  (shl32 x (yBits + zBits)).bind fun xs => (shl32 y zBits).bind fun ys =>
  let u := (xs ||| ys) ||| z
  (safe16 (u >>> 16)).bind fun hi => (storeWord m 0 hi).bind fun m =>
  (safe16 (u &&& 0xFFFF)).bind fun lo => storeWord m 1 lo

/-- vector4_packing.h:740-755 unpack_vector3_32 -/
def unpackVector3_32 (xBits yBits zBits : Nat) (isUnsigned : Bool) (m : Buffer) : Option V3 :=
  (loadWord m 0).bind fun hi => (loadWord m 1).bind fun lo =>
  let u := (hi <<< 16) ||| lo
  (shr32 u (yBits + zBits)).bind fun x => (shr32 u zBits).map fun y =>
  ⟨unpackLane isUnsigned x xBits, unpackLane isUnsigned (y &&& (1 <<< yBits - 1)) yBits,
    unpackLane isUnsigned (u &&& (1 <<< zBits - 1)) zBits⟩

/-- rtm::quat_ensure_positive_w, then without the w -/
def positiveXyz (q : Quat) : V3 := if q.w ≥ 0 then ⟨q.x, q.y, q.z⟩ else ⟨-q.x, -q.y, -q.z⟩

/-- rtm::quat_from_positive_w, as quatf.h:135-149 -/
def fromPositiveW (fused : Bool) (sqrt : ℚ → ℚ) (v : V3) : Quat :=
  ⟨v.x, v.y, v.z, sqrt |negMulSub fused v.z v.z (negMulSub fused v.y v.y (negMulSub fused v.x v.x 1))|⟩

/-- quat_packing.h:71-75 pack_quat_48 -/
def packQuat_48 (q : Quat) (m : Buffer) : Option Buffer := packVector3_48 false (positiveXyz q) m

/-- quat_packing.h:77-81 unpack_quat_48 -/
def unpackQuat_48 (fused : Bool) (sqrt : ℚ → ℚ) (m : Buffer) : Option Quat :=
  (unpackVector3_s48 fused m).map (fromPositiveW fused sqrt)

/-- quat_packing.h:83-87 pack_quat_32 -/
def packQuat_32 (q : Quat) (m : Buffer) : Option Buffer := packVector3_32 (positiveXyz q) 11 11 10 false m

/-- quat_packing.h:89-93 unpack_quat_32 -/
def unpackQuat_32 (fused : Bool) (sqrt : ℚ → ℚ) (m : Buffer) : Option Quat :=
  (unpackVector3_32 11 11 10 false m).map (fromPositiveW fused sqrt)

end Acl.Fixed
