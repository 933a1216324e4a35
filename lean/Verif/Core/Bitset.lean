import Verif.Core.Bits
/-
Model of bit sets. /repo/includes/acl/core/bitset.h
Memory is a list of 32 bit words; the bit set occupies the first `size` words. Any access beyond the
memory is undefined behaviour and yields `none`. The asserts are preconditions of the theorems, not
of the model (asserts are compiled out by default).
-/
namespace Acl

/-- bitset.h:60-64 `bitset_description::make_from_num_bits`: number of words. -/
def bitsetSize (numBits : Nat) : Nat := (numBits + 32 - 1) / 32

/-- bitset.h:73 `get_num_bits`. -/
def bitsetNumBits (size : Nat) : Nat := size * 32

/-- Store to memory; out of bounds is undefined behaviour. -/
def writeWord (m : List (BitVec 32)) (i : Nat) (w : BitVec 32) : Option (List (BitVec 32)) :=
  if i < m.length then some (m.set i w) else none

/-- bitset.h:150-163 and bitset_index_ref 107-114: word offset and mask of a bit index. -/
def bitMask (bitIndex : Nat) : BitVec 32 := 1#32 <<< (31 - bitIndex % 32)

/-- bitset.h:150-163 `bitset_set`. -/
def bitsetSet (m : List (BitVec 32)) (bitIndex : Nat) (value : Bool) : Option (List (BitVec 32)) := do
  let w ← m[bitIndex / 32]?
  writeWord m (bitIndex / 32) (if value then w ||| bitMask bitIndex else w &&& ~~~(bitMask bitIndex))

/-- bitset.h:177-185 `bitset_set_range`: the loop over `num_bits` indices from `start`. -/
def bitsetSetRange (m : List (BitVec 32)) (start : Nat) : Nat → Bool → Option (List (BitVec 32))
  | 0, _ => some m
  | n+1, value => do bitsetSetRange (← bitsetSet m start value) (start + 1) n value

/-- bitset.h:189-199 `bitset_test`. -/
def bitsetTest (m : List (BitVec 32)) (bitIndex : Nat) : Option Bool := do
  let w ← m[bitIndex / 32]?
  pure ((w &&& bitMask bitIndex) != 0)

/-- bitset.h:138-146 `bitset_reset`, loop over the words. `k` words remain, starting at `offset`. -/
def bitsetResetFrom (m : List (BitVec 32)) (offset : Nat) : Nat → Bool → Option (List (BitVec 32))
  | 0, _ => some m
  | k+1, value => do
    bitsetResetFrom (← writeWord m offset (if value then 0xFFFFFFFF#32 else 0#32)) (offset + 1) k value

def bitsetReset (m : List (BitVec 32)) (size : Nat) (value : Bool) : Option (List (BitVec 32)) :=
  bitsetResetFrom m 0 size value

/-- bitset.h:210-221 `bitset_count_set_bits` (uint32_t accumulator). -/
def bitsetCountFrom (m : List (BitVec 32)) (offset : Nat) : Nat → BitVec 32 → Option (BitVec 32)
  | 0, acc => some acc
  | k+1, acc => do bitsetCountFrom m (offset + 1) k (acc + countSetBits32 (← m[offset]?))

def bitsetCount (m : List (BitVec 32)) (size : Nat) : Option (BitVec 32) := bitsetCountFrom m 0 size 0

/-- bitset.h:227-233 `bitset_and_not` with the result aliasing the `and` operand:
`m = ~other & m` (the aliasing the header explicitly allows; used by the keyframe stripping). -/
def bitsetAndNotInto (other m : List (BitVec 32)) (offset : Nat) : Nat → Option (List (BitVec 32))
  | 0 => some m
  | k+1 => do
    let a ← other[offset]?
    let b ← m[offset]?
    bitsetAndNotInto other (← writeWord m offset (andNot a b)) (offset + 1) k

/-- bitset.h:227-233 `bitset_and_not` with the result aliasing the `not` operand: `m = ~m & other`. -/
def bitsetNotAndInto (other m : List (BitVec 32)) (offset : Nat) : Nat → Option (List (BitVec 32))
  | 0 => some m
  | k+1 => do
    let a ← m[offset]?
    let b ← other[offset]?
    bitsetNotAndInto other (← writeWord m offset (andNot a b)) (offset + 1) k

/-- The mutating operations of the API on one bit set of `size` words. -/
inductive BitsetOp where
  | reset (value : Bool)
  | set (index : Nat) (value : Bool)
  | setRange (start count : Nat) (value : Bool)
  | andNot (other : List (BitVec 32))
  | notAnd (other : List (BitVec 32))

def bitsetStep (size : Nat) (m : List (BitVec 32)) : BitsetOp → Option (List (BitVec 32))
  | .reset v => bitsetReset m size v
  | .set i v => bitsetSet m i v
  | .setRange s n v => bitsetSetRange m s n v
  | .andNot o => bitsetAndNotInto o m 0 size
  | .notAnd o => bitsetNotAndInto o m 0 size

def bitsetRun (size : Nat) : List (BitVec 32) → List BitsetOp → Option (List (BitVec 32))
  | m, [] => some m
  | m, op :: ops => do bitsetRun size (← bitsetStep size m op) ops

end Acl
