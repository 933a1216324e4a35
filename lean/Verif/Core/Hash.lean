/-
Model of the FNV-1a hash and of the validity check of compressed buffers.
/repo/includes/acl/core/hash.h, /repo/includes/acl/core/impl/compressed_tracks.impl.h,
/repo/includes/acl/core/impl/compressed_database.impl.h
-/
namespace Acl

/-- hash.h:59-69 `fnv1a_impl::update` for a `w` bit result type and a prime. -/
def fnvUpdate {w : Nat} (prime : BitVec w) (state : BitVec w) (data : List (BitVec 8)) : BitVec w :=
  data.foldl (fun acc b => (acc ^^^ b.setWidth w) * prime) state

/-- hash.h:84-106 `hash32(buffer, size)`. -/
def hash32 (data : List (BitVec 8)) : BitVec 32 := fnvUpdate 16777619#32 2166136261#32 data

/-- hash.h:88, 122-130 `hash64(buffer, size)`. -/
def hash64 (data : List (BitVec 8)) : BitVec 64 := fnvUpdate 1099511628211#64 14695981039346656037#64 data

/-- hash.h:141 `hash_combine` (32 bit). -/
def hashCombine32 (a b : BitVec 32) : BitVec 32 := (a ^^^ b) * 16777619#32

/-- Little endian 32 bit load at byte `off`; `none` is an out of bounds read (undefined behaviour). -/
def load32 (m : List (BitVec 8)) (off : Nat) : Option (BitVec 32) := do
  let b0 ← m[off]?
  let b1 ← m[off+1]?
  let b2 ← m[off+2]?
  let b3 ← m[off+3]?
  pure (b3 ++ b2 ++ b1 ++ b0)

/-- Little endian 16 bit load. -/
def load16 (m : List (BitVec 8)) (off : Nat) : Option (BitVec 16) := do
  let b0 ← m[off]?
  let b1 ← m[off+1]?
  pure (b1 ++ b0)

inductive Validity where
  | ok | badAlignment | badTag | badAlgorithm | badVersion | badHash
  deriving DecidableEq, Repr

/-- compressed_headers.h:51-80: byte offsets in a compressed buffer: size 0, hash 4, (header at 8) tag 8,
version 12, algorithm_type 14, track_type 15. -/
def headerSize : Nat := 8

/-- compressed_tracks.impl.h:278-302 `compressed_tracks::is_valid`. `m` is the memory from the buffer
start on, `aligned` the result of the 16 byte alignment check. `none` is an out of bounds read: the
hash covers `size - 8` bytes where `size` is read from the buffer (a size below 8 wraps to a huge
length, also out of bounds). -/
def tracksIsValid (m : List (BitVec 8)) (aligned checkHash : Bool) : Option Validity := do
  if !aligned then return .badAlignment
  let tag ← load32 m 8
  if tag != 0xac11ac11#32 then return .badTag
  let algo ← m[14]?
  if algo != 0#8 then return .badAlgorithm
  let version ← load16 m 12
  if version.toNat < 7 || version.toNat > 10 then return .badVersion
  if checkHash then
    let size ← load32 m 0
    let stored ← load32 m 4
    if size.toNat < 8 || m.length < size.toNat then none
    else if hash32 ((m.drop 8).take (size.toNat - 8)) != stored then return .badHash
    else return .ok
  else return .ok

/-- compressed_database.impl.h:142-163 `compressed_database::is_valid`: same without the algorithm check
and with the database tag. -/
def databaseIsValid (m : List (BitVec 8)) (aligned checkHash : Bool) : Option Validity := do
  if !aligned then return .badAlignment
  let tag ← load32 m 8
  if tag != 0xac11db01#32 then return .badTag
  let version ← load16 m 12
  if version.toNat < 7 || version.toNat > 10 then return .badVersion
  if checkHash then
    let size ← load32 m 0
    let stored ← load32 m 4
    if size.toNat < 8 || m.length < size.toNat then none
    else if hash32 ((m.drop 8).take (size.toNat - 8)) != stored then return .badHash
    else return .ok
  else return .ok

end Acl
