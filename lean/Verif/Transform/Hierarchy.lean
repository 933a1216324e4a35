import Verif.Core.Bitset
import Verif.Raw.TrackArray
import Mathlib.Data.List.Sort
/-
The bone hierarchy: leaves, transform chains, the parent first order, local to object space.
/repo/includes/acl/compression/impl/clip_context.h:55-128 (bone_chain_iterator, bone_chain), 222-227 (get_bone_chain)
/repo/includes/acl/compression/impl/clip_context.impl.h:54-80 (sort_transform_indices_parent_first), 198-280
/repo/includes/acl/compression/impl/quantize.transform.h:1100-1109 (calculate_bone_chain_indices)
/repo/includes/acl/compression/impl/compress.transform.impl.h:114-136 (find_best_compression_level)
/repo/includes/acl/compression/transform_error_metrics.h:289-310, 312-333, 415-436 (local_to_object_space)
/repo/includes/acl/compression/impl/track_error.impl.h:266-274, 354-355 (self_transform_indices, the pose)

The parent indices are a list of 32 bit values, `Raw.invalidIndex` for a root. Accesses outside an array are `none`.
Arrays that are allocated and reset (bitset_reset) start as zeros. Multiplication of transforms is an arbitrary function.
-/
namespace Acl.Hierarchy
open Acl Acl.Raw

/-- A bit set for `n` bits after bitset_reset(false) -/
def emptyBits (n : Nat) : List (BitVec 32) := List.replicate (bitsetSize n) 0

/-- clip_context.impl.h:215-230: every parent is marked as not being a leaf -/
def markParents : List Nat → List (BitVec 32) → Option (List (BitVec 32))
  | [], m => some m
  | p :: rest, m => do
    let m ← if p = invalidIndex then some m else bitsetSet m p false
    markParents rest m

/-- clip_context.impl.h:202-230: is_leaf_bitset -/
def leafBits (parents : List Nat) : Option (List (BitVec 32)) := do
  let m ← bitsetSetRange (emptyBits parents.length) 0 parents.length true
  markParents parents m

/-- What the construction of the chains has written: leaf_transform_chains, one bit set per leaf, and the chain every
transform points to (transform_metadata::transform_chain; `none` is nullptr). -/
structure Chains where
  chains : List (List (BitVec 32))
  assigned : List (Option Nat)
  deriving DecidableEq

/-- clip_context.impl.h:260-262: a chain is assigned the first time a transform is found -/
def assign (assigned : List (Option Nat)) (current : Option Nat) (bone chain : Nat) : List (Option Nat) :=
  if current = none then assigned.set bone (some chain) else assigned

/-- clip_context.impl.h:253-265: the loop from a leaf to its root. The loop ends when it reaches the invalid index; running
out of `fuel` means that it has not ended after that many steps. -/
def walk (parents : List Nat) (chain : Nat) :
    Nat → Nat → List (BitVec 32) → List (Option Nat) → Option (List (BitVec 32) × List (Option Nat))
  | 0, _, _, _ => none
  | fuel + 1, bone, bits, assigned =>
    if bone = invalidIndex then some (bits, assigned)
    else do
      let bits ← bitsetSet bits bone true
      let current ← assigned[bone]?
      let parent ← parents[bone]?
      walk parents chain fuel parent bits (assign assigned current bone chain)

/-- clip_context.impl.h:244-268: the loop over the transforms -/
def buildFrom (parents : List Nat) (leaf : List (BitVec 32)) (fuel : Nat) : List Nat → Chains → Option Chains
  | [], c => some c
  | i :: rest, c => do
    if ← bitsetTest leaf i then
      let (bits, assigned) ← walk parents c.chains.length fuel i (emptyBits parents.length) c.assigned
      buildFrom parents leaf fuel rest { chains := c.chains ++ [bits], assigned := assigned }
    else buildFrom parents leaf fuel rest c

/-- clip_context.impl.h:198-271; `fuel` bounds the steps of each walk to the root -/
def build (parents : List Nat) (fuel : Nat) : Option Chains := do
  let leaf ← leafBits parents
  buildFrom parents leaf fuel (List.range parents.length)
    { chains := [], assigned := List.replicate parents.length none }

/-- clip_context.h:112-118 bone_chain: the first set bit; `none` when it runs past the bit set -/
def findRoot (bits : List (BitVec 32)) : Nat → Nat → Option Nat
  | 0, _ => none
  | fuel + 1, root => do if ← bitsetTest bits root then some root else findRoot bits fuel (root + 1)

/-- clip_context.h:72-75: the loop of operator++ after the increment -/
def skipTo (bits : List (BitVec 32)) (bone : Nat) : Nat → Nat → Option Nat
  | 0, _ => none
  | fuel + 1, offset =>
    if offset < bone then do
      if ← bitsetTest bits offset then some offset else skipTo bits bone fuel (offset + 1)
    else some offset

/-- clip_context.h:65-91, quantize.transform.h:1105-1106: the range based loop, from an offset to `bone_index + 1` -/
def iterate (bits : List (BitVec 32)) (bone : Nat) : Nat → Nat → Option (List Nat)
  | 0, _ => none
  | fuel + 1, offset =>
    if offset = bone + 1 then some []
    else do
      let next ← skipTo bits bone (bone + 2) (offset + 1)
      return offset :: (← iterate bits bone fuel next)

/-- clip_context.h:222-227 get_bone_chain, quantize.transform.h:1100-1109 calculate_bone_chain_indices -/
def boneChain (c : Chains) (bone : Nat) : Option (List Nat) := do
  let assigned ← c.assigned[bone]?
  let chain ← assigned
  let bits ← c.chains[chain]?
  let root ← findRoot bits (32 * bits.length + 1) 0
  iterate bits bone (bone + 2) root

/-- clip_context.impl.h:64-77: the predicate of the sort, as a less or equal. Adding one to the invalid index wraps to 0. -/
def sortLe (parents : List Nat) (lhs rhs : Nat) : Bool :=
  let l := parents.getD lhs 0
  let r := parents.getD rhs 0
  if l ≠ r then decide ((l + 1) % 2 ^ 32 < (r + 1) % 2 ^ 32) else decide (lhs ≤ rhs)

/-- clip_context.impl.h:54-80 sort_transform_indices_parent_first. The predicate is a total order on distinct indices, so
the result of std::sort is unique; insertion sort stands for it. -/
def sortParentFirst (parents : List Nat) : List Nat :=
  (List.range parents.length).insertionSort (fun a b => sortLe parents a b = true)

/-- transform_error_metrics.h:302-306: one transform -/
def objectTransform {T : Type} (mul : T → T → T) (parent : Nat) (x : T) (out : List T) : Option T :=
  if parent = invalidIndex then some x else (out[parent]?).map (mul x)

/-- transform_error_metrics.h:289-310 (312-333 and 415-436 differ in the multiplication): the transforms listed in `dirty`
are converted one after the other, into `out` -/
def localToObject {T : Type} (mul : T → T → T) (parents : List Nat) (locals : List T) : List Nat → List T → Option (List T)
  | [], out => some out
  | i :: rest, out => do
    let parent ← parents[i]?
    let x ← locals[i]?
    let value ← objectTransform mul parent x out
    localToObject mul parents locals rest (out.set i value)

/-- core/compression_level.h; the levels this code chooses from -/
inductive Level where | medium | high | highest
  deriving DecidableEq

/-- compress.transform.impl.h:121-127: the longest chain -/
def longestChain : List (List (BitVec 32)) → Nat → Option Nat
  | [], longest => some longest
  | bits :: rest, longest => do
    let count ← bitsetCount bits bits.length
    longestChain rest (max longest count.toNat)

/-- compress.transform.impl.h:114-136 find_best_compression_level -/
def bestLevel (numSamples : Nat) (c : Chains) : Option Level :=
  if 500 < numSamples then some .medium
  else do
    let longest ← longestChain c.chains 0
    return if longest < 18 then .highest else if longest < 25 then .high else .medium

end Acl.Hierarchy
