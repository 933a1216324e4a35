import Verif.Core.Packing
/-
Values that flow from a compressed transform clip to the track writer.

Floating point numbers are their 32 bit patterns. The arithmetic the decoders apply to what they load
(conversion of quantized integers, range expansion, quaternion W reconstruction, interpolation,
normalization) is not evaluated here: a decoded value is the free term that records which loaded words the
arithmetic is applied to, and how. Two equal terms give equal results for any arithmetic that is a function
of its operands.
-/
namespace Acl.Transform

/-- core/track_formats.h:47-63 `rotation_format8`. -/
inductive RotationFormat where | quatfFull | dropWFull | dropWVariable
  deriving DecidableEq, Repr

/-- core/track_formats.h:66-70 `vector_format8`. -/
inductive VectorFormat where | full | varBits
  deriving DecidableEq, Repr

/-- core/track_formats.h:88-94 `rotation_variant8`. -/
inductive RotationVariant where | quat | dropW
  deriving DecidableEq, Repr

/-- core/impl/track_formats.impl.h:120-123. -/
def rotationVariant (f : RotationFormat) : RotationVariant := if f = .quatfFull then .quat else .dropW

/-- core/impl/track_formats.impl.h:125-128. -/
def highestVariantPrecision (v : RotationVariant) : RotationFormat := if v = .quat then .quatfFull else .dropWFull

/-- core/impl/track_formats.impl.h:130-133. -/
def RotationFormat.isVariable (f : RotationFormat) : Bool := f = .dropWVariable

/-- math/quat_packing.h:97-100 `get_packed_rotation_size`. -/
def packedRotationSize (f : RotationFormat) : Nat := if f = .quatfFull then 16 else 12

/-- Bit patterns of a 3 component vector (rtm::float3f). -/
structure Vec3 where
  x : BitVec 32
  y : BitVec 32
  z : BitVec 32
  deriving DecidableEq, Repr

/-- Bit patterns of a 4 component vector (rtm::float4f, rtm::quatf). -/
structure Vec4 where
  x : BitVec 32
  y : BitVec 32
  z : BitVec 32
  w : BitVec 32
  deriving DecidableEq, Repr

/-- A rotation as loaded: with its W component, or without it (`quat_from_positive_w` rebuilds it). -/
inductive Quat where
  | full (v : Vec4)
  | dropW (v : Vec3)
  deriving DecidableEq, Repr

/-- rtm::vector_load (16 bytes, unaligned) as used by the decoders: all 16 bytes must be readable. -/
def loadVec4 (m : List (BitVec 8)) (k : Nat) : Option Vec4 :=
  match loadLE32 m k, loadLE32 m (k + 4), loadLE32 m (k + 8), loadLE32 m (k + 12) with
  | some x, some y, some z, some w => some ⟨x, y, z, w⟩
  | _, _, _, _ => none

/-- The three components the writer of a translation or scale uses out of a 16 byte load. -/
def Vec4.xyz (v : Vec4) : Vec3 := ⟨v.x, v.y, v.z⟩

end Acl.Transform
