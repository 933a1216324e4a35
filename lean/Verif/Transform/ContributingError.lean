import Verif.Core.Bitset
import Mathlib.Order.Lattice
import Mathlib.Order.BoundedOrder.Basic
import Mathlib.Order.Defs.LinearOrder
import Mathlib.Algebra.Notation.Defs
/-
Model of the order in which key frames are removed.
/repo/includes/acl/compression/impl/quantize.transform.h:1559-1803 (`find_contributing_error`,
`sort_contributing_error`) and keyframe_stripping.h (core/impl, `keyframe_stripping_metadata_t`).

Errors are values of a linear order `E` with a zero and a greatest element `⊤` (infinity): the code
only compares errors and takes their maximum. NaN is not modelled. The error metric itself (the
per bone error measured on one interpolated frame) is an arbitrary function.
Indices are natural numbers: sample counts are `uint32_t` in the code and every index handled here
is below the sample count.
-/
namespace Acl

/-- `~0U`. -/
def u32Max : Nat := 0xFFFFFFFF

/-- core/impl/compressed_headers.h `keyframe_stripping_metadata_t`. -/
structure KeyframeMeta (E : Type) where
  keyframeIndex : Nat
  segmentIndex : Nat
  strippingIndex : Nat
  strippingError : E
  isTrivial : Bool

/-- The error metric of one segment: the error of bone `bone` on frame `frame` when that frame is
interpolated from the stored frames `start` and `stop`, and the precision of every bone.
quantize.transform.h:1651-1725. -/
structure SegmentMetric (E : Type) where
  numBones : Nat
  boneError : (start stop frame bone : Nat) → E
  precision : Nat → E

variable {E : Type} [LinearOrder E] [OrderTop E] [Zero E]

/-- quantize.transform.h:1706-1727: the loop over the bones of one interpolated frame; the
accumulators are the worst error and the trivial flag. -/
def bonesError (mt : SegmentMetric E) (start stop frame : Nat) : Nat → Nat → E × Bool → E × Bool
  | 0, _, acc => acc
  | k+1, bone, acc =>
    let e := mt.boneError start stop frame bone
    bonesError mt start stop frame k (bone + 1) (max acc.1 e, acc.2 && decide (e ≤ mt.precision bone))

/-- quantize.transform.h:1668-1729: the loop over the frames strictly between `start` and `stop`. -/
def framesError (mt : SegmentMetric E) (start stop : Nat) : Nat → Nat → E × Bool → E × Bool
  | 0, _, acc => acc
  | k+1, frame, acc =>
    framesError mt start stop k (frame + 1) (bonesError mt start stop frame mt.numBones 0 acc)

/-- quantize.transform.h:1664-1731: contributing error and trivial flag of the gap `(start, stop)`. -/
def gapError (mt : SegmentMetric E) (start stop : Nat) : E × Bool :=
  framesError mt start stop (stop - (start + 1)) (start + 1) (0, true)

/-- quantize.transform.h:1645-1647: first retained frame at or below `i`. Running below frame 0
would wrap around and read outside of the bit set. -/
def prevRetained (m : List (BitVec 32)) : Nat → Option Nat
  | 0 => do if ← bitsetTest m 0 then some 0 else none
  | i+1 => do if ← bitsetTest m (i+1) then some (i+1) else prevRetained m i

/-- quantize.transform.h:1650-1652: first retained frame at or above `i`. `fuel` bounds the search;
the bit set has 32 bits so a longer search would read outside of it. -/
def nextRetained (m : List (BitVec 32)) : Nat → Nat → Option Nat
  | 0, _ => none
  | fuel+1, i => do if ← bitsetTest m i then some i else nextRetained m fuel (i + 1)

/-- quantize.transform.h:1639-1741: body of the loop over the candidate frames. -/
def considerFrame (mt : SegmentMetric E) (segment iteration : Nat) (m : List (BitVec 32))
    (best : KeyframeMeta E) (frame : Nat) : Option (KeyframeMeta E) := do
  if !(← bitsetTest m frame) then some best
  else
    let start ← prevRetained m (frame - 1)
    let stop ← nextRetained m 33 (frame + 1)
    let e := gapError mt start stop
    if e.1 < best.strippingError then
      some ⟨frame, segment, iteration - 1, e.1, e.2⟩
    else some best

/-- quantize.transform.h:1639: loop over the frames `frame .. frame + k - 1`. -/
def considerFrames (mt : SegmentMetric E) (segment iteration : Nat) (m : List (BitVec 32)) :
    Nat → Nat → KeyframeMeta E → Option (KeyframeMeta E)
  | 0, _, best => some best
  | k+1, frame, best => do
    considerFrames mt segment iteration m k (frame + 1) (← considerFrame mt segment iteration m best frame)

/-- Store in the array of entries; out of bounds is undefined behaviour. -/
def storeEntry (a : List (KeyframeMeta E)) (i : Nat) (e : KeyframeMeta E) : Option (List (KeyframeMeta E)) :=
  if i < a.length then some (a.set i e) else none

/-- quantize.transform.h:1630-1752: body of the removal loop. -/
def removeOne (mt : SegmentMetric E) (segment numFrames iteration : Nat)
    (st : List (KeyframeMeta E) × List (BitVec 32)) :
    Option (List (KeyframeMeta E) × List (BitVec 32)) := do
  let best ← considerFrames mt segment iteration st.2 (numFrames - 2) 1 ⟨u32Max, segment, u32Max, ⊤, false⟩
  let a ← storeEntry st.1 best.keyframeIndex best
  let m ← bitsetSet st.2 best.keyframeIndex false
  some (a, m)

/-- quantize.transform.h:1630: the removal loop, `k` iterations starting at `iteration`. -/
def removeLoop (mt : SegmentMetric E) (segment numFrames : Nat) :
    Nat → Nat → List (KeyframeMeta E) × List (BitVec 32) →
      Option (List (KeyframeMeta E) × List (BitVec 32))
  | 0, _, st => some st
  | k+1, iteration, st => do
    removeLoop mt segment numFrames k (iteration + 1) (← removeOne mt segment numFrames iteration st)

/-- quantize.transform.h:1559-1754 `find_contributing_error` up to the final sort. `garbage` is the
content of the freshly allocated array of 32 entries (1564). The result is the array of the
`num_frames` entries, indexed by key frame. -/
def contributingErrorUnsorted (mt : SegmentMetric E) (segment numFrames : Nat)
    (garbage : List (KeyframeMeta E)) : Option (List (KeyframeMeta E)) := do
  if numFrames = 0 then none
  else
    let a ← storeEntry garbage 0 ⟨0, segment, u32Max, ⊤, false⟩
    let a ← storeEntry a (numFrames - 1) ⟨numFrames - 1, segment, u32Max, ⊤, false⟩
    let st ← removeLoop mt segment numFrames (numFrames - 2) 1 (a, [0xFFFFFFFF#32])
    some (st.1.take numFrames)

/-- quantize.transform.h:1754-1756: `std::sort` by stripping index. `std::sort` is not stable: any
sorted permutation is a possible result. -/
def SortedByStripping (unsorted sorted : List (KeyframeMeta E)) : Prop :=
  sorted.Perm unsorted ∧ sorted.Pairwise (fun a b => a.strippingIndex ≤ b.strippingIndex)

/-- What `sort_contributing_error` reads of a segment: `num_samples`, `clip_sample_offset` and the
sorted array `contributing_error`. -/
structure SegmentOrder (E : Type) where
  numSamples : Nat
  clipSampleOffset : Nat
  contributingError : List (KeyframeMeta E)

/-- quantize.transform.h:1777-1791: the loop over the segments that picks the next key frame. -/
def pickSegment (segments : List (SegmentOrder E)) (numStripped : List Nat) :
    Nat → Nat → KeyframeMeta E → Option (KeyframeMeta E)
  | 0, _, best => some best
  | k+1, s, best => do
    let seg ← segments[s]?
    let i ← numStripped[s]?
    if seg.numSamples ≤ i then pickSegment segments numStripped k (s + 1) best
    else
      let e ← seg.contributingError[i]?
      if e.strippingError ≤ best.strippingError then pickSegment segments numStripped k (s + 1) e
      else pickSegment segments numStripped k (s + 1) best

/-- quantize.transform.h:1773-1801: body of the loop over the stripping order. The output array is
appended to `out` (entry `stripping_index` is written in increasing order). -/
def mergeOne (segments : List (SegmentOrder E)) (strippingIndex : Nat)
    (st : List Nat × List (KeyframeMeta E)) : Option (List Nat × List (KeyframeMeta E)) := do
  let best ← pickSegment segments st.1 segments.length 0 ⟨u32Max, 0, u32Max, ⊤, false⟩
  let seg ← segments[best.segmentIndex]?
  let n ← st.1[best.segmentIndex]?
  some (st.1.set best.segmentIndex (n + 1),
    st.2 ++ [⟨best.keyframeIndex + seg.clipSampleOffset, best.segmentIndex, strippingIndex,
      best.strippingError, best.isTrivial⟩])

/-- quantize.transform.h:1773: the loop over the stripping order, `k` iterations from `i`. -/
def mergeLoop (segments : List (SegmentOrder E)) :
    Nat → Nat → List Nat × List (KeyframeMeta E) → Option (List Nat × List (KeyframeMeta E))
  | 0, _, st => some st
  | k+1, i, st => do mergeLoop segments k (i + 1) (← mergeOne segments i st)

/-- quantize.transform.h:1758-1803 `sort_contributing_error`. -/
def sortContributingError (segments : List (SegmentOrder E)) (numSamples : Nat) :
    Option (List (KeyframeMeta E)) := do
  let st ← mergeLoop segments numSamples 0 (segments.map (fun _ => 0), [])
  some st.2

end Acl
