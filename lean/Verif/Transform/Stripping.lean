import Verif.Transform.ContributingError
/-
Model of key frame stripping. /repo/includes/acl/compression/impl/keyframe_stripping.h:43-145
-/
namespace Acl
variable {E : Type} [LinearOrder E] [OrderTop E] [Zero E]

/-- compression_settings.h:157-197. `proportionPositive` is `proportion > 0.0F` and
`proportionFrames` is `uint32_t(proportion * float(num_keyframes))`: the float product is not
interpreted. -/
structure StripSettings (E : Type) where
  proportionPositive : Bool
  proportionFrames : Nat
  threshold : E
  stripTrivial : Bool

/-- compression_settings.impl.h:91-94 `is_enabled`. -/
def StripSettings.isEnabled (s : StripSettings E) : Bool :=
  s.proportionPositive || decide (0 < s.threshold) || s.stripTrivial

/-- What stripping reads and writes of a `segment_context` (segment_context.h:83-112).
`hardKeyframes` is the bit set, one 32 bit word. -/
structure StripSegment where
  numSamples : Nat
  clipSampleOffset : Nat
  animatedPoseBitSize : Nat
  hardKeyframes : List (BitVec 32)
  animatedDataSize : Nat

/-- keyframe_stripping.h:60-61: every key frame starts as retained. -/
def initHard : List StripSegment → Option (List StripSegment)
  | [] => some []
  | s :: rest => do
    let m ← bitsetSetRange s.hardKeyframes 0 s.numSamples true
    let r ← initHard rest
    some ({ s with hardKeyframes := m } :: r)

/-- keyframe_stripping.h:69. The subtraction is on `uint32_t`. -/
def numMovableFrames (numKeyframes numSegments : Nat) : Nat :=
  if numKeyframes ≥ 2 then (numKeyframes + 2 ^ 32 - numSegments * 2 % 2 ^ 32) % 2 ^ 32 else 0

/-- keyframe_stripping.h:80-84: skip the trivial key frames; `k` bounds the loop (`movable - i`). -/
def scanTrivial (order : List (KeyframeMeta E)) : Nat → Nat → Option Nat
  | 0, i => some i
  | k+1, i => do
    let e ← order[i]?
    if !e.isTrivial then some i else scanTrivial order k (i + 1)

/-- keyframe_stripping.h:92-96: skip the key frames below the threshold. -/
def scanThreshold (order : List (KeyframeMeta E)) (threshold : E) : Nat → Nat → Option Nat
  | 0, i => some i
  | k+1, i => do
    let e ← order[i]?
    if threshold < e.strippingError then some i else scanThreshold order threshold k (i + 1)

/-- keyframe_stripping.h:106-113: the number of bits saved, a `uint32_t`. -/
def bitsSaved (segments : List StripSegment) (order : List (KeyframeMeta E)) :
    Nat → Nat → Nat → Option Nat
  | 0, _, acc => some acc
  | k+1, i, acc => do
    let e ← order[i]?
    let s ← segments[e.segmentIndex]?
    bitsSaved segments order k (i + 1) ((acc + s.animatedPoseBitSize) % 2 ^ 32)

/-- keyframe_stripping.h:124-138: clear the key frame and update the size of the animated data. -/
def stripOne (segments : List StripSegment) (e : KeyframeMeta E) : Option (List StripSegment) := do
  let s ← segments[e.segmentIndex]?
  let k := e.keyframeIndex - s.clipSampleOffset
  let m ← bitsetSet s.hardKeyframes k false
  let stored ← bitsetCount m 1
  let bits := s.animatedPoseBitSize * stored.toNat
  some (segments.set e.segmentIndex
    { s with hardKeyframes := m, animatedDataSize := (bits + 7) / 8 * 8 / 8 })

/-- keyframe_stripping.h:122: the loop over the first key frames of the removal order. -/
def stripLoop (order : List (KeyframeMeta E)) : Nat → Nat → List StripSegment → Option (List StripSegment)
  | 0, _, segments => some segments
  | k+1, i, segments => do
    let e ← order[i]?
    stripLoop order k (i + 1) (← stripOne segments e)

/-- keyframe_stripping.h:75-102: how many key frames to strip, before looking at the memory saved. -/
def numToStrip (settings : StripSettings E) (order : List (KeyframeMeta E)) (movable : Nat) : Option Nat := do
  let trivials ← (if settings.stripTrivial then scanTrivial order movable 0 else some 0 : Option Nat)
  let within ← scanThreshold order settings.threshold (movable - trivials) trivials
  some (max within (min movable settings.proportionFrames))

/-- `sizeof(stripped_segment_header_t) - sizeof(segment_header)`, compressed_headers.h:171-197: one
`uint32_t`. -/
def strippingOverheadPerSegment : Nat := 4

/-- keyframe_stripping.h:43-145 `strip_keyframes`. Returns the segments and
`has_stripped_keyframes`. -/
def stripKeyframes (settings : StripSettings E) (numKeyframes : Nat) (order : List (KeyframeMeta E))
    (segments : List StripSegment) : Option (List StripSegment × Bool) := do
  if !settings.isEnabled then some (segments, false)
  else
    let segments ← initHard segments
    let movable := numMovableFrames numKeyframes segments.length
    let wanted ← numToStrip settings order movable
    let bits ← bitsSaved segments order wanted 0 0
    let stripped := if bits / 8 ≤ segments.length * strippingOverheadPerSegment then 0 else wanted
    let segments ← stripLoop order stripped 0 segments
    some (segments, decide (stripped ≠ 0))

end Acl
