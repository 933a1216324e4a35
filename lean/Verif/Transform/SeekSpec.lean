import Verif.Transform.Segmenting
import Verif.Transform.Seek
/-!
Specification vocabulary for seeking: which key frames are in memory and where.
Sample `k` of a segment is the `k`-th most significant bit of the segment's sample masks.
-/
namespace Acl.Seek.Spec
open Acl.Seek

/-- The key frame is stored in the clip itself. -/
def InClip (c : Clip) (g k : Nat) : Prop := ∃ w, c.sampleIndices[g]? = some w ∧ w.getMsbD k = true

/-- The key frame is in the streamed in medium importance tier. -/
def InMedium (c : Clip) (g k : Nat) : Prop :=
  ∃ ms m, c.db = some ms ∧ ms[g]? = some m ∧ (m.medium.extractLsb' 0 32).getMsbD k = true

/-- The key frame is in the streamed in low importance tier. -/
def InLow (c : Clip) (g k : Nat) : Prop :=
  ∃ ms m, c.db = some ms ∧ ms[g]? = some m ∧ (m.low.extractLsb' 0 32).getMsbD k = true

def InMemory (c : Clip) (g k : Nat) : Prop := InClip c g k ∨ InMedium c g k ∨ InLow c g k

/-- First sample of segment `g`. -/
def start (sizes : List Nat) (g : Nat) : Nat := (sizes.take g).sum

/-- Sample `n` of the clip (counted from its start) is in memory. -/
def Usable (c : Clip) (sizes : List Nat) (n : Nat) : Prop :=
  ∃ g k size, sizes[g]? = some size ∧ k < size ∧ n = start sizes g + k ∧ InMemory c g k

/-- A frame read at `location`, `position` is the wanted frame: the location holds it, and `position` frames
of that segment stored there come before it. -/
def Placed (c : Clip) (sizes : List Nat) (f : KeyFrame) : Prop :=
  ∃ k size, sizes[f.segment]? = some size ∧ k < size ∧ f.clipIndex = start sizes f.segment + k ∧
    match f.location with
    | .clip => InClip c f.segment k ∧ ¬ InMedium c f.segment k ∧ ¬ InLow c f.segment k ∧
        ∃ w, c.sampleIndices[f.segment]? = some w ∧ f.position = (List.range k).countP (fun j => w.getMsbD j)
    | .medium offset => InMedium c f.segment k ∧
        ∃ ms m, c.db = some ms ∧ ms[f.segment]? = some m ∧ offset = (m.medium.extractLsb' 32 32).toNat ∧
          f.position = (List.range k).countP (fun j => (m.medium.extractLsb' 0 32).getMsbD j)
    | .low offset => InLow c f.segment k ∧
        ∃ ms m, c.db = some ms ∧ ms[f.segment]? = some m ∧ offset = (m.low.extractLsb' 32 32).toNat ∧
          f.position = (List.range k).countP (fun j => (m.low.extractLsb' 0 32).getMsbD j)

/-- The clip and its segments agree: what the compressor writes for segments of the given sizes. When key
frames were stripped or moved to a database, segments have at most 32 frames, and the first and last frame of every segment stay in
the clip (see C21, C22). -/
structure WellFormed (c : Clip) (sizes : List Nat) : Prop where
  numSamples : c.numSamples = sizes.sum
  numSegments : c.numSegments = sizes.length
  starts : sizes.length ≠ 1 → c.startIndices = Acl.Segmenting.segmentStartIndices sizes
  masks : c.hasStrippedKeyframes = true → c.sampleIndices.length = sizes.length
  boundaries : c.hasStrippedKeyframes = true → ∀ g size, sizes[g]? = some size →
    0 < size ∧ size ≤ 32 ∧ InClip c g 0 ∧ InClip c g (size - 1)
  db : ∀ ms, c.db = some ms → ms.length = sizes.length

/-- The two key frames around a time, as computed from the clip duration (C11): equal, consecutive, or the
last and first frame when wrapping around. -/
def KeyFramePair (wrapping : Bool) (numSamples kf0 kf1 : Nat) : Prop :=
  kf0 < numSamples ∧ kf1 < numSamples ∧ (kf1 = kf0 ∨ kf1 = kf0 + 1 ∨ (wrapping = true ∧ kf1 = 0))

end Acl.Seek.Spec
