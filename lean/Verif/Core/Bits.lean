/-
Model of the bit manipulation helpers.
/repo/includes/acl/core/bit_manip_utils.h
-/
namespace Acl

/-- bit_manip_utils.h:103-109 `count_set_bits(uint32_t)`, portable branch. -/
def countSetBits32 (v : BitVec 32) : BitVec 32 :=
  let v := v - ((v >>> 1) &&& 0x55555555#32)
  let v := (v &&& 0x33333333#32) + ((v >>> 2) &&& 0x33333333#32)
  (((v + (v >>> 4)) &&& 0x0F0F0F0F#32) * 0x01010101#32) >>> 24

/-- bit_manip_utils.h:87-97 `count_set_bits(uint64_t)`, portable branch. -/
def countSetBits64 (v : BitVec 64) : BitVec 64 :=
  let v := v - ((v >>> 1) &&& 0x5555555555555555#64)
  let v := (v &&& 0x3333333333333333#64) + ((v >>> 2) &&& 0x3333333333333333#64)
  (((v + (v >>> 4)) &&& 0x0F0F0F0F0F0F0F0F#64) * 0x0101010101010101#64) >>> 56

/-- bit_manip_utils.h:115-125 `count_set_bits(uint16_t)`: widened to 32 bits, narrowed back. -/
def countSetBits16 (v : BitVec 16) : BitVec 16 := (countSetBits32 (v.setWidth 32)).setWidth 16

/-- bit_manip_utils.h:129-139 `count_set_bits(uint8_t)`: widened to 32 bits, narrowed back. -/
def countSetBits8 (v : BitVec 8) : BitVec 8 := (countSetBits32 (v.setWidth 32)).setWidth 8

/-- bit_manip_utils.h:143-161 `count_leading_zeros`, portable branch. The intrinsic branches
(`_lzcnt_u32`, `__builtin_clz` guarded by a zero test) compute the same specification. -/
def countLeadingZeros (v : BitVec 32) : BitVec 32 :=
  let v := v ||| (v >>> 1)
  let v := v ||| (v >>> 2)
  let v := v ||| (v >>> 4)
  let v := v ||| (v >>> 8)
  let v := v ||| (v >>> 16)
  countSetBits32 (~~~v)

/-- bit_manip_utils.h:165-177 `count_trailing_zeros`, portable branch. -/
def countTrailingZeros (v : BitVec 32) : BitVec 32 :=
  if v ≠ 0 then 31#32 - countLeadingZeros (v &&& (-v)) else 32#32

/-- bit_manip_utils.h:181-188 `rotate_bits_left`. The asserts require `0 ≤ numBits < 32`; outside of
that the C++ masks the amount. `(-num_bits) & 31` is `(32 - n) % 32`. -/
def rotateBitsLeft (v : BitVec 32) (numBits : Nat) : BitVec 32 :=
  let n := numBits % 32
  (v <<< n) ||| (v >>> ((32 - n) % 32))

/-- bit_manip_utils.h:192-204 `and_not`: `~not_value & and_value`. -/
def andNot (notValue andValue : BitVec 32) : BitVec 32 := ~~~notValue &&& andValue

end Acl
