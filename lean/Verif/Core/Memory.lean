import Verif.Core.Bits
/-
Model of alignment, byte swap, bit copy and checked cast helpers.
/repo/includes/acl/core/memory_utils.h
-/
namespace Acl

/-- memory_utils.h:68-71 `is_power_of_two` (size_t). -/
def isPowerOfTwo (x : BitVec 64) : Bool := x != 0 && (x &&& (x - 1)) == 0

/-- memory_utils.h:86-91 `is_aligned_to` (integral; the pointer overload is the same on the address). -/
def isAlignedTo (v a : BitVec 64) : Bool := (v &&& (a - 1)) == 0

/-- memory_utils.h:99-111 `align_to` (both overloads compute in size_t). -/
def alignTo (v a : BitVec 64) : BitVec 64 := (v + (a - 1)) &&& ~~~(a - 1)

/-- memory_utils.h:106-111 `align_to<uint32_t>`: computed in size_t, narrowed by the final static_cast. -/
def alignTo32 (v : BitVec 32) (a : BitVec 64) : BitVec 32 := (alignTo (v.setWidth 64) a).setWidth 32

/-- memory_utils.h:113-118 `get_required_padding<Prev, Next>` with `sizeof(Prev)`, `alignof(Next)`. -/
def requiredPadding (size align : BitVec 64) : BitVec 64 :=
  ((size + (align - 1)) &&& ~~~(align - 1)) - size

/-- memory_utils.h:236-247 `byte_swap(uint16_t)`, portable branch. The operands promote to int; every
intermediate value fits in 17..32 bits so it is computed on 32 bits and narrowed. -/
def byteSwap16 (v : BitVec 16) : BitVec 16 :=
  let x := v.setWidth 32
  (((x &&& 0x00FF#32) <<< 8) ||| ((x &&& 0xFF00#32) >>> 8)).setWidth 16

/-- memory_utils.h:249-262 `byte_swap(uint32_t)`, portable branch. -/
def byteSwap32 (v : BitVec 32) : BitVec 32 :=
  let v := ((v &&& 0x0000FFFF#32) <<< 16) ||| ((v &&& 0xFFFF0000#32) >>> 16)
  ((v &&& 0x00FF00FF#32) <<< 8) ||| ((v &&& 0xFF00FF00#32) >>> 8)

/-- memory_utils.h:264-278 `byte_swap(uint64_t)`, portable branch. -/
def byteSwap64 (v : BitVec 64) : BitVec 64 :=
  let v := ((v &&& 0x00000000FFFFFFFF#64) <<< 32) ||| ((v &&& 0xFFFFFFFF00000000#64) >>> 32)
  let v := ((v &&& 0x0000FFFF0000FFFF#64) <<< 16) ||| ((v &&& 0xFFFF0000FFFF0000#64) >>> 16)
  ((v &&& 0x00FF00FF00FF00FF#64) <<< 8) ||| ((v &&& 0xFF00FF00FF00FF00#64) >>> 8)

/-- One iteration of the loop of memory_utils.h:281-325 `memcpy_bits`: the new value of the
destination byte when `n` bits (1..8) are copied inside one source and one destination byte.
All arithmetic is on uint32_t, then narrowed to a byte. -/
def copyBitsInByte (d s : BitVec 8) (dOff sOff n : Nat) : BitVec 8 :=
  let destMask : BitVec 32 := ~~~(0xFF#32 >>> dOff) ||| ~~~(0xFF#32 <<< (8 - n - dOff))
  let srcMask : BitVec 32 := 0xFF#32 >>> (8 - n)
  let partialDest : BitVec 32 := d.setWidth 32 &&& destMask
  let partialSrc : BitVec 32 := (s.setWidth 32 >>> (8 - sOff - n)) &&& srcMask
  (partialDest ||| (partialSrc <<< (8 - n - dOff))).setWidth 8

/-- memory_utils.h:281-325 `memcpy_bits`. Buffers are lists of bytes; an access outside of them is
undefined behaviour (`none`). `dest` and `src` are distinct buffers (no caller in the library passes
overlapping ranges). The `while (true)` loop becomes recursion on the number of bits left; each
iteration copies at least one bit. -/
def memcpyBits (dest : List (BitVec 8)) (dOff : Nat) (src : List (BitVec 8)) (sOff n : Nat) :
    Option (List (BitVec 8)) :=
  if n = 0 then some dest else
  let copied := min (min (8 - dOff % 8) (8 - sOff % 8)) n
  match src[sOff / 8]?, dest[dOff / 8]? with
  | some s, some d =>
    let dest' := dest.set (dOff / 8) (copyBitsInByte d s (dOff % 8) (sOff % 8) copied)
    if n ≤ copied then some dest'
    else memcpyBits dest' (dOff + copied) src (sOff + copied) (n - copied)
  | _, _ => none
termination_by n
decreasing_by omega

end Acl
