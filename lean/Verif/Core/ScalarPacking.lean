import Verif.Float.F32
/-
Scalar quantization.
/repo/includes/acl/math/scalar_packing.h:42-70

rtm::scalar_round_symmetric is not in the repository: it is `floor(x + 0.5)` for x ≥ 0, `ceil(x - 0.5)` below.
Floats are rationals rounded with `F32.rnd`. Conversion to uint32_t of a negative or too large float is
undefined (`none`). `num_bits < 31` and the range of the input are asserts of the code.
-/
namespace Acl.ScalarPacking
open Acl.F32

/-- `(1U << num_bits) - 1` -/
def maxValue (numBits : Nat) : Nat := (2 ^ numBits + 2 ^ 32 - 1) % 2 ^ 32

/-- rtm::scalar_round_symmetric -/
def roundSymmetric (x : ℚ) : Int := if 0 ≤ x then ⌊fadd x (1 / 2)⌋ else ⌈fsub x (1 / 2)⌉

/-- static_cast<uint32_t> of a float with an integer value -/
def castU32 (z : Int) : Option Nat := if 0 ≤ z ∧ z < 2 ^ 32 then some z.toNat else none

/-- scalar_packing.h:42-48 pack_scalar_unsigned -/
def packUnsigned (x : ℚ) (numBits : Nat) : Option Nat :=
  castU32 (roundSymmetric (fmul x (ofNat (maxValue numBits))))

/-- scalar_packing.h:50-58 unpack_scalar_unsigned -/
def unpackUnsigned (v : Nat) (numBits : Nat) : ℚ :=
  fmul (ofNat v) (fdiv 1 (ofNat (maxValue numBits)))

/-- scalar_packing.h:60-63 pack_scalar_signed -/
def packSigned (x : ℚ) (numBits : Nat) : Option Nat :=
  packUnsigned (fadd (fmul x (1 / 2)) (1 / 2)) numBits

/-- scalar_packing.h:65-68 unpack_scalar_signed -/
def unpackSigned (v : Nat) (numBits : Nat) : ℚ :=
  fsub (fmul (unpackUnsigned v numBits) 2) 1

end Acl.ScalarPacking
