import Verif.Transform.ContributingError
/-
Model of the assignment of key frames to database tiers.
/repo/includes/acl/compression/impl/compress.database.impl.h:47-330 and 1297-1320.
Clips written by the current version of the library only (the branch of 112 for
`version >= v02_01_99_2`); the legacy branch (116-152) is not modelled.
Frame counts are natural numbers (`uint32_t` in the code).
-/
namespace Acl.Tiers
open Acl
variable {E : Type} [LinearOrder E] [OrderTop E] [Zero E]

/-- What tier assignment reads of a compressed clip: header.num_samples, num_segments, the segment
start indices (only stored when there is more than one segment), `animated_pose_bit_size` of every
segment header and the contributing error metadata in removal order. -/
structure Clip (E : Type) where
  numSamples : Nat
  numSegments : Nat
  segmentStarts : List Nat
  poseBits : List Nat
  metadata : List (KeyframeMeta E)

/-- compress.database.impl.h:47-58 `frame_tier_mapping` (the `animated_data` pointer is determined by
the clip and the segment). -/
structure Frame (E : Type) where
  tracksIndex : Nat
  segmentIndex : Nat
  clipFrameIndex : Nat
  segmentFrameIndex : Nat
  frameBitSize : Nat
  error : E

/-- compress.database.impl.h:194-208 `calculate_num_frames`. -/
def numFrames : List (Clip E) → Nat
  | [] => 0
  | c :: cs => c.numSamples + numFrames cs

/-- compress.database.impl.h:210-233 `calculate_num_movable_frames`. -/
def numMovable : List (Clip E) → Nat
  | [] => 0
  | c :: cs => (if c.numSamples ≥ 2 then c.numSamples - c.numSegments * 2 else 0) + numMovable cs

/-- compress.database.impl.h:262-295: body of the loop over the clips. -/
def considerClip (clips : List (Clip E)) (numAssigned : List Nat) (highest : Bool) (best : Frame E)
    (c : Nat) : Option (Frame E) := do
  let clip ← clips[c]?
  let i ← numAssigned[c]?
  if clip.numSamples ≤ i then some best
  else
    let next ← clip.metadata[i]?
    if next.strippingError < best.error ∨ highest = true then
      let bits ← clip.poseBits[next.segmentIndex]?
      let start ← if clip.numSegments > 1 then clip.segmentStarts[next.segmentIndex]? else some 0
      some ⟨c, next.segmentIndex, next.keyframeIndex, next.keyframeIndex - start, bits, next.strippingError⟩
    else some best

/-- compress.database.impl.h:261: the loop over the clips `c .. c + k - 1`. -/
def considerClips (clips : List (Clip E)) (numAssigned : List Nat) (highest : Bool) :
    Nat → Nat → Frame E → Option (Frame E)
  | 0, _, best => some best
  | k+1, c, best => do
    considerClips clips numAssigned highest k (c + 1) (← considerClip clips numAssigned highest best c)

/-- compress.database.impl.h:253-303: assign one frame. `best_mapping{}` is zero initialised. -/
def assignOne (clips : List (Clip E)) (highest : Bool) (st : List Nat × List (Frame E)) :
    Option (List Nat × List (Frame E)) := do
  let best ← considerClips clips st.1 highest clips.length 0 ⟨0, 0, 0, 0, 0, ⊤⟩
  let n ← st.1[best.tracksIndex]?
  some (st.1.set best.tracksIndex (n + 1), st.2 ++ [best])

/-- compress.database.impl.h:253: assign `k` frames. -/
def assignLoop (clips : List (Clip E)) (highest : Bool) :
    Nat → List Nat × List (Frame E) → Option (List Nat × List (Frame E))
  | 0, st => some st
  | k+1, st => do assignLoop clips highest k (← assignOne clips highest st)

/-- compress.database.impl.h:306-325: the order the frames of a tier are sorted in. -/
def frameLess (a b : Frame E) : Bool :=
  if a.tracksIndex < b.tracksIndex then true
  else if a.tracksIndex = b.tracksIndex then
    if a.segmentIndex < b.segmentIndex then true
    else if a.segmentIndex = b.segmentIndex then decide (a.segmentFrameIndex < b.segmentFrameIndex)
    else false
  else false

/-- compress.database.impl.h:328 `std::sort`: any permutation in which no element is less than an
earlier one. -/
def SortedFrames (unsorted sorted : List (Frame E)) : Prop :=
  sorted.Perm unsorted ∧ sorted.Pairwise (fun a b => frameLess b a = false)

/-- compress.database.impl.h:1300-1306: number of frames of the low and medium tiers. The arguments
`wantLow` and `wantMedium` are `uint32_t(proportion * float(num_frames))`: the float products are
not interpreted. -/
def numLow (clips : List (Clip E)) (wantLow : Nat) : Nat := min (numMovable clips) wantLow
def numMedium (clips : List (Clip E)) (wantLow wantMedium : Nat) : Nat :=
  min (numMovable clips - numLow clips wantLow) wantMedium

/-- compress.database.impl.h:331-342 and 1310-1318 `assign_frames_to_tiers`, before the sort of every
tier: the frames of the low, medium and high tiers, in the order of assignment. -/
def assignTiers (clips : List (Clip E)) (wantLow wantMedium : Nat) :
    Option (List (Frame E) × List (Frame E) × List (Frame E)) := do
  let low := numLow clips wantLow
  let medium := numMedium clips wantLow wantMedium
  let high := numFrames clips - medium - low
  let st0 ← assignLoop clips false low (clips.map (fun _ => 0), [])
  let st1 ← assignLoop clips false medium (st0.1, [])
  let st2 ← assignLoop clips true high (st1.1, [])
  some (st0.2, st1.2, st2.2)

end Acl.Tiers
