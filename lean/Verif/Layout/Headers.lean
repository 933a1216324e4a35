/-
Model of the packed header words and of typed pointer offsets and checked casts.
/repo/includes/acl/core/impl/compressed_headers.h
/repo/includes/acl/core/ptr_offset.h
/repo/includes/acl/core/memory_utils.h
-/
namespace Acl.Headers

/-! ### tracks_header::misc_packed, compressed_headers.h:107-130. The C++ masks are `int` expressions such as
`~(1 << 8)` converted to uint32_t; `1 << 31` is taken as 0x80000000. -/

def getHasScale (m : BitVec 32) : Bool := (m &&& 1) != 0
def setHasScale (m : BitVec 32) (v : Bool) : BitVec 32 := (m &&& ~~~1) ||| (if v then 1 else 0)
/-- compressed_headers.h:109-110 -/
def getDefaultScale (m : BitVec 32) : BitVec 32 := (m >>> 1) &&& 1
def setDefaultScale (m : BitVec 32) (v : BitVec 32) : BitVec 32 := (m &&& ~~~((1#32) <<< 1)) ||| (v <<< 1)
/-- compressed_headers.h:111-112 -/
def getScaleFormat (m : BitVec 32) : BitVec 32 := (m >>> 2) &&& 1
def setScaleFormat (m : BitVec 32) (v : BitVec 32) : BitVec 32 := (m &&& ~~~((1#32) <<< 2)) ||| (v <<< 2)
/-- compressed_headers.h:113-114 -/
def getTranslationFormat (m : BitVec 32) : BitVec 32 := (m >>> 3) &&& 1
def setTranslationFormat (m : BitVec 32) (v : BitVec 32) : BitVec 32 := (m &&& ~~~((1#32) <<< 3)) ||| (v <<< 3)
/-- compressed_headers.h:115-116 -/
def getRotationFormat (m : BitVec 32) : BitVec 32 := (m >>> 4) &&& 15
def setRotationFormat (m : BitVec 32) (v : BitVec 32) : BitVec 32 := (m &&& ~~~((15#32) <<< 4)) ||| (v <<< 4)
/-- compressed_headers.h:117-118 -/
def getHasDatabase (m : BitVec 32) : Bool := (m &&& (1 <<< 8)) != 0
def setHasDatabase (m : BitVec 32) (v : Bool) : BitVec 32 := (m &&& ~~~((1#32) <<< 8)) ||| ((if v then 1#32 else 0) <<< 8)
/-- compressed_headers.h:119-120 -/
def getHasTrivialDefaultValues (m : BitVec 32) : Bool := (m &&& (1 <<< 9)) != 0
def setHasTrivialDefaultValues (m : BitVec 32) (v : Bool) : BitVec 32 := (m &&& ~~~((1#32) <<< 9)) ||| ((if v then 1#32 else 0) <<< 9)
/-- compressed_headers.h:121-122 -/
def getHasStrippedKeyframes (m : BitVec 32) : Bool := (m &&& (1 <<< 10)) != 0
def setHasStrippedKeyframes (m : BitVec 32) (v : Bool) : BitVec 32 := (m &&& ~~~((1#32) <<< 10)) ||| ((if v then 1#32 else 0) <<< 10)
/-- compressed_headers.h:125-126 -/
def getIsWrapOptimized (m : BitVec 32) : Bool := (m &&& (1 <<< 30)) != 0
def setIsWrapOptimized (m : BitVec 32) (v : Bool) : BitVec 32 := (m &&& ~~~((1#32) <<< 30)) ||| ((if v then 1#32 else 0) <<< 30)
/-- compressed_headers.h:127-128 -/
def getHasMetadata (m : BitVec 32) : Bool := (m >>> 31) != 0
def setHasMetadata (m : BitVec 32) (v : Bool) : BitVec 32 := (m &&& ~~~((1#32) <<< 31)) ||| ((if v then 1#32 else 0) <<< 31)

/-- database_header::misc_packed, compressed_headers.h:584-585 (int arithmetic truncated to uint16_t). -/
def getIsBulkDataInline (m : BitVec 16) : Bool := (m &&& 1) != 0
def setIsBulkDataInline (m : BitVec 16) (v : Bool) : BitVec 16 := (m &&& ~~~1) ||| (if v then 1 else 0)

/-! ### Checked casts, memory_utils.h:193-235 -/

/-- An integral C++ type: width in bits and signedness. -/
structure IntType where
  bits : Nat
  signed : Bool

/-- `static_cast<T>(x)`: the value modulo 2^bits in the range of the type (two's complement). -/
def IntType.cast (t : IntType) (x : Int) : Int :=
  if t.signed then Int.bmod x (2 ^ t.bits) else x % (2 ^ t.bits)

/-- `std::numeric_limits<T>::max()` -/
def IntType.max (t : IntType) : Int := if t.signed then 2 ^ (t.bits - 1) - 1 else 2 ^ t.bits - 1

def int64 : IntType := ⟨64, true⟩
def uint64 : IntType := ⟨64, false⟩

/-- memory_utils.h:193-208 `is_static_cast_safe_s::test` for integral types. -/
def isStaticCastSafe (dst src : IntType) (input : Int) : Bool :=
  if dst.signed = src.signed then src.cast (dst.cast input) == input
  else if src.signed then decide (0 ≤ int64.cast input) && src.cast (dst.cast input) == input
  else decide (uint64.cast input ≤ uint64.cast dst.max)

/-- memory_utils.h:226-235 `safe_static_cast` (asserts are compiled out). -/
def safeStaticCast (dst : IntType) (input : Int) : Int := dst.cast input

/-! ### ptr_offset, ptr_offset.h:52-124, offset_type of `w` bits (16 or 32) -/

/-- ptr_offset.h:64-72: constructor from an unsigned value. -/
def ptrOffsetOf (w : Nat) (value : Nat) : BitVec w := BitVec.ofNat w value
/-- ptr_offset.h:76: constructor from two pointers (64 bit addresses). -/
def ptrOffsetBetween (w : Nat) (base ptr : BitVec 64) : BitVec w := (ptr - base).setWidth w
/-- ptr_offset.h:80,118: the invalid offset is the largest value. -/
def ptrOffsetInvalid (w : Nat) : BitVec w := BitVec.allOnes w
/-- ptr_offset.h:114 -/
def ptrOffsetIsValid {w : Nat} (o : BitVec w) : Bool := o != ptrOffsetInvalid w
/-- ptr_offset.h:84-98 `add_to` and memory_utils.h:244-248 `add_offset_to_ptr`. -/
def ptrOffsetAddTo {w : Nat} (o : BitVec w) (base : BitVec 64) : BitVec 64 := base + o.setWidth 64
/-- ptr_offset.h:102-112 `safe_add_to`: `none` is the null pointer. -/
def ptrOffsetSafeAddTo {w : Nat} (o : BitVec w) (base : BitVec 64) : Option (BitVec 64) :=
  if ptrOffsetIsValid o then some (ptrOffsetAddTo o base) else none

end Acl.Headers
