import Verif.Core.Memory
/-
Model of the integer side of the variable bit rate packing functions: the components are the
integers produced by `pack_scalar_unsigned` (modelled in Verif/Float/Quantize.lean) and the values
returned are the integers the decoders convert to float.
/repo/includes/acl/math/vector4_packing.h, scalar_packing.h,
/repo/includes/acl/compression/impl/write_stream_data.h
The host is little endian (x86/ARM as used by ACL); buffers are lists of bytes; out of bounds
accesses and shifts by the full width are undefined behaviour (`none`).
-/
namespace Acl

/-- memory_utils.h:337-343 `unaligned_load<uint32_t>` at byte `k`, little endian. -/
def loadLE32 (m : List (BitVec 8)) (k : Nat) : Option (BitVec 32) :=
  match m[k]?, m[k + 1]?, m[k + 2]?, m[k + 3]? with
  | some b0, some b1, some b2, some b3 => some (b3 ++ b2 ++ b1 ++ b0 : BitVec 32)
  | _, _, _, _ => none

/-- memory_utils.h:337-343 `unaligned_load<uint64_t>` at byte `k`, little endian. -/
def loadLE64 (m : List (BitVec 8)) (k : Nat) : Option (BitVec 64) :=
  match loadLE32 m k, loadLE32 m (k + 4) with
  | some lo, some hi => some (hi ++ lo : BitVec 64)
  | _, _ => none

/-- The bytes of a little endian word in memory (memory_utils.h:351-355 `unaligned_write`, or the
object representation seen by `memcpy_bits`). -/
def bytesLE {w : Nat} (v : BitVec w) : List (BitVec 8) :=
  (List.range (w / 8)).map fun k => v.extractLsb' (8 * k) 8

/-- memory_utils.h:351-355 `unaligned_write` at the start of the output buffer. -/
def writeFront (out bs : List (BitVec 8)) : Option (List (BitVec 8)) :=
  if bs.length ≤ out.length then some (bs ++ out.drop bs.length) else none

/-- vector4_packing.h:828-858 `pack_vector3_uXX_unsafe` (and 861-891 `pack_vector3_sXX_unsafe`, same
code) after the components were quantized. Shifting by 64 (`n = 0`) is undefined behaviour. -/
def packVector3 (x y z : BitVec 32) (n : Nat) (out : List (BitVec 8)) : Option (List (BitVec 8)) :=
  if n = 0 then none else
  if n * 3 ≥ 64 then
    let v : BitVec 64 := (x.setWidth 64) <<< (64 - n * 1)
    let v := v ||| (y.setWidth 64) <<< (64 - n * 2)
    let v := byteSwap64 v
    (writeFront out (bytesLE v)).bind fun out =>
    let w : BitVec 32 := z <<< (32 - n)
    let w := byteSwap32 w
    memcpyBits out (n * 2) (bytesLE w) 0 n
  else
    let v : BitVec 64 := (x.setWidth 64) <<< (64 - n * 1)
    let v := v ||| (y.setWidth 64) <<< (64 - n * 2)
    let v := v ||| (z.setWidth 64) <<< (64 - n * 3)
    let v := byteSwap64 v
    writeFront out (bytesLE v)

/-- vector4_packing.h:221-259 `pack_vector4_uXX_unsafe` after the components were quantized. -/
def packVector4 (x y z w : BitVec 32) (n : Nat) (out : List (BitVec 8)) : Option (List (BitVec 8)) :=
  if n = 0 then none else
  if n * 3 ≥ 64 then
    let v : BitVec 64 := (x.setWidth 64) <<< (64 - n * 1)
    let v := v ||| (y.setWidth 64) <<< (64 - n * 2)
    let v := byteSwap64 v
    (writeFront out (bytesLE v)).bind fun out =>
    let u : BitVec 64 := (z.setWidth 64) <<< (64 - n * 1)
    let u := u ||| (w.setWidth 64) <<< (64 - n * 2)
    let u := byteSwap64 u
    memcpyBits out (n * 2) (bytesLE u) 0 (n * 2)
  else
    let v : BitVec 64 := (x.setWidth 64) <<< (64 - n * 1)
    let v := v ||| (y.setWidth 64) <<< (64 - n * 2)
    let v := v ||| (z.setWidth 64) <<< (64 - n * 3)
    let v := byteSwap64 v
    (writeFront out (bytesLE v)).bind fun out =>
    let u : BitVec 32 := w <<< (32 - n)
    let u := byteSwap32 u
    memcpyBits out (n * 3) (bytesLE u) 0 n

/-- vector4_packing.h:1048-1058 `pack_vector2_uXX_unsafe` after the components were quantized. -/
def packVector2 (x y : BitVec 32) (n : Nat) (out : List (BitVec 8)) : Option (List (BitVec 8)) :=
  if n = 0 then none else
  let v : BitVec 64 := (x.setWidth 64) <<< (64 - n * 1)
  let v := v ||| (y.setWidth 64) <<< (64 - n * 2)
  let v := byteSwap64 v
  writeFront out (bytesLE v)

/-- One component of the `unpack_*_uXX_unsafe` readers (scalar_packing.h:112-180, vector4_packing.h
262-397, 921-1035, 1061-1145): 32 bit load of the byte that holds the first bit, byte swap, shift and
mask. `none` when the load is out of bounds or the shift amount is not below 32. -/
def readComponent (n : Nat) (m : List (BitVec 8)) (bitOffset : Nat) : Option (BitVec 32) :=
  let bitShift := 32 - n
  (loadLE32 m (bitOffset / 8)).bind fun v =>
  let v := byteSwap32 v
  let shift := bitShift - bitOffset % 8
  if shift < 32 then some ((v >>> shift) &&& (1#32 <<< n - 1)) else none

/-- scalar_packing.h:112-180 `unpack_scalarf_uXX_unsafe`, integer part. -/
def unpackScalar (n : Nat) (m : List (BitVec 8)) (bitOffset : Nat) : Option (BitVec 32) :=
  readComponent n m bitOffset

/-- vector4_packing.h:1061-1145 `unpack_vector2_uXX_unsafe`, integer part. -/
def unpackVector2 (n : Nat) (m : List (BitVec 8)) (bitOffset : Nat) : Option (BitVec 32 × BitVec 32) :=
  (readComponent n m bitOffset).bind fun x =>
  let bitOffset := bitOffset + n
  (readComponent n m bitOffset).bind fun y => some (x, y)

/-- vector4_packing.h:921-1035 `unpack_vector3_uXX_unsafe`, integer part. -/
def unpackVector3 (n : Nat) (m : List (BitVec 8)) (bitOffset : Nat) :
    Option (BitVec 32 × BitVec 32 × BitVec 32) :=
  (readComponent n m bitOffset).bind fun x =>
  let bitOffset := bitOffset + n
  (readComponent n m bitOffset).bind fun y =>
  let bitOffset := bitOffset + n
  (readComponent n m bitOffset).bind fun z => some (x, y, z)

/-- vector4_packing.h:262-397 `unpack_vector4_uXX_unsafe`, integer part. -/
def unpackVector4 (n : Nat) (m : List (BitVec 8)) (bitOffset : Nat) :
    Option (BitVec 32 × BitVec 32 × BitVec 32 × BitVec 32) :=
  (readComponent n m bitOffset).bind fun x =>
  let bitOffset := bitOffset + n
  (readComponent n m bitOffset).bind fun y =>
  let bitOffset := bitOffset + n
  (readComponent n m bitOffset).bind fun z =>
  let bitOffset := bitOffset + n
  (readComponent n m bitOffset).bind fun w => some (x, y, z, w)

/-- Component `i` of the raw readers `unpack_scalarf_32_unsafe` (scalar_packing.h:71-109),
`unpack_vector2_64_unsafe`, `unpack_vector3_96_unsafe`, `unpack_vector4_128_unsafe`
(vector4_packing.h:59-140, 400-560): 64 bit load at byte `bit_offset / 8 + 4 i`, byte swap, shift left
by `bit_offset % 8`, shift right by 32, truncated to 32 bits. -/
def readRaw (m : List (BitVec 8)) (bitOffset i : Nat) : Option (BitVec 32) :=
  (loadLE64 m (bitOffset / 8 + 4 * i)).bind fun v =>
  let v := byteSwap64 v
  let v := v <<< (bitOffset % 8)
  let v := v >>> 32
  some (v.setWidth 32)

/-- write_stream_data.h:329-359 `write_animated_sample`, variable bit rate, not raw: the packed sample
`raw` (the padded bytes left by the quantizer) is copied bit by bit. Returns the new bit offset too. -/
def writeQuantizedSample (dest : List (BitVec 8)) (bitOffset : Nat) (raw : List (BitVec 8)) (n : Nat) :
    Option (List (BitVec 8) × Nat) :=
  (memcpyBits dest bitOffset raw 0 (n * 3)).bind fun dest => some (dest, bitOffset + n * 3)

/-- write_stream_data.h:331-339 and 352-357: the raw components are byte swapped and copied 32 bits
each. (`components` lists x, y, z or x, y, z, w.) -/
def writeRawSample (dest : List (BitVec 8)) (bitOffset : Nat) : List (BitVec 32) →
    Option (List (BitVec 8) × Nat)
  | [] => some (dest, bitOffset)
  | c :: cs =>
    (memcpyBits dest bitOffset (bytesLE (byteSwap32 c)) 0 32).bind fun dest =>
    writeRawSample dest (bitOffset + 32) cs

end Acl
