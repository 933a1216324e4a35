import Verif.Transform.ContributingError
/-
Specification of the removal order of the key frames of one segment, independent of the code.
-/
namespace Acl

/-- `p` is the nearest frame before `k` that was not removed. -/
def IsPrev (removed : List Nat) (k p : Nat) : Prop :=
  p < k ∧ p ∉ removed ∧ ∀ q, p < q → q < k → q ∈ removed

/-- `p` is the nearest frame after `k` that was not removed. -/
def IsNext (removed : List Nat) (k p : Nat) : Prop :=
  k < p ∧ p ∉ removed ∧ ∀ q, k < q → q < p → q ∈ removed

variable {E : Type} [LinearOrder E] [OrderTop E] [Zero E]

/-- `e` is the largest error (at least zero) of any bone on any frame strictly between `p` and `q`
when only `p` and `q` are stored. -/
def IsWorstError (mt : SegmentMetric E) (p q : Nat) (e : E) : Prop :=
  0 ≤ e ∧
  (∀ frame bone, p < frame → frame < q → bone < mt.numBones → mt.boneError p q frame bone ≤ e) ∧
  (e = 0 ∨ ∃ frame bone, p < frame ∧ frame < q ∧ bone < mt.numBones ∧ e = mt.boneError p q frame bone)

/-- Removing `k` after `removed` were removed costs the error `e`. -/
def RemovalCost (mt : SegmentMetric E) (removed : List Nat) (k : Nat) (e : E) : Prop :=
  ∃ p q, IsPrev removed k p ∧ IsNext removed k q ∧ IsWorstError mt p q e

/-- Every bone stays within its precision on every frame affected by removing `k`. -/
def RemovalTrivial (mt : SegmentMetric E) (removed : List Nat) (k : Nat) : Prop :=
  ∃ p q, IsPrev removed k p ∧ IsNext removed k q ∧
    ∀ frame bone, p < frame → frame < q → bone < mt.numBones →
      mt.boneError p q frame bone ≤ mt.precision bone

/-- The frames of `numFrames` which may be removed: all but the first and the last. -/
def Movable (numFrames k : Nat) : Prop := 0 < k ∧ k + 1 < numFrames

/-- What a segment's removal order has to be. -/
structure IsSegmentOrder (mt : SegmentMetric E) (segment numFrames : Nat)
    (order : List (KeyframeMeta E)) : Prop where
  /-- every key frame of the segment exactly once -/
  keyframes : (order.map (·.keyframeIndex)).Perm (List.range numFrames)
  segment : ∀ e ∈ order, e.segmentIndex = segment
  /-- the first entries are the movable frames, in removal order, each the cheapest one to remove -/
  movable : ∀ (i : Nat) (e : KeyframeMeta E), i + 2 < numFrames → order[i]? = some e →
    Movable numFrames e.keyframeIndex ∧ e.strippingIndex = i ∧ e.strippingError < ⊤ ∧
    RemovalCost mt ((order.take i).map (·.keyframeIndex)) e.keyframeIndex e.strippingError ∧
    (e.isTrivial = true ↔ RemovalTrivial mt ((order.take i).map (·.keyframeIndex)) e.keyframeIndex) ∧
    ∀ k cost, Movable numFrames k → k ∉ (order.take i).map (·.keyframeIndex) →
      RemovalCost mt ((order.take i).map (·.keyframeIndex)) k cost → e.strippingError ≤ cost
  /-- the boundaries come last, with an infinite error -/
  boundary : ∀ (i : Nat) (e : KeyframeMeta E), numFrames ≤ i + 2 → order[i]? = some e →
    ¬ Movable numFrames e.keyframeIndex ∧ e.strippingError = ⊤ ∧ e.isTrivial = false

end Acl
