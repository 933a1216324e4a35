import Verif.Memory.Heap
import Verif.Core.Bitset
/-!
Model of what compressing scalar tracks does with memory.
/repo/includes/acl/compression/impl/compress.impl.h:48-66 (compress_track_list), compress.scalar.impl.h:65-140 (compress_scalar_track_list)
/repo/includes/acl/compression/impl/track_list_context.h:68-112 (track_list_context), 115-208 (copy_and_promote_track_list),
210-231 (create_output_track_mapping), 233-260 (initialize_context)
/repo/includes/acl/compression/impl/optimize_looping.scalar.h:46-104, track_range_impl.h:65-70, compact.scalar.h:50-57, quantize.scalar.h:162-167
/repo/includes/acl/compression/impl/track.impl.h:74-80, 307-324 (track_typed), track_array.impl.h:48-76 (track_array)

Sizes of types and of the result are parameters; what depends on the values of samples (are they finite, does the clip loop) is given.
Not modelled: what is written in the arrays (C09, C14), the statistics (compiled out by default), failing allocations.
-/
namespace Acl.Mem
open Acl (bitsetSize)

/-- Sizes of types in bytes. `vector` is sizeof(rtm::vector4f), the type all scalar tracks are promoted to. -/
structure ScalarSizes where
  track : Nat
  vector : Nat
  range : Nat
  bitRate : Nat

/-- A list of scalar tracks as the compression looks at it. `outputs` is the output index of each track, none when it is stripped. -/
structure ScalarList where
  valid : Bool
  outputs : List (Option Nat)
  numSamples : Nat
  finite : Bool
  wraps : Bool
  lastIsFirst : Bool
  bufferSize : Nat

/-- track.h:198-206 track: its samples and the size it gives them back with -/
structure OwnedTrack where
  data : Option Nat
  dataSize : Nat

/-- track_array.h: the array of tracks -/
structure OwnedArray where
  ptr : Option Nat
  tracks : List OwnedTrack

/-- The default constructor of a track -/
def OwnedTrack.empty : OwnedTrack := ⟨none, 0⟩

/-- track_array.impl.h:48-53: the default constructor -/
def OwnedArray.empty : OwnedArray := ⟨none, []⟩

/-- track.impl.h:74-80: the destructor of a track -/
def OwnedTrack.destroy (t : OwnedTrack) : M Unit := freeArray t.data t.dataSize

/-- track_array.impl.h:72-76: the destructor of an array; iallocator.h:131-144: of its elements, then the block -/
def OwnedArray.destroy (sz : ScalarSizes) (a : OwnedArray) : M Unit := do
  match a.ptr with
  | none => pure ()
  | some p => do
    let _ ← a.tracks.mapM OwnedTrack.destroy
    free p (sz.track * a.tracks.length)

/-- track_array.impl.h:55-60: an array of tracks without samples -/
def newArray (sz : ScalarSizes) (n : Nat) : M OwnedArray := do
  let p ← alloc (sz.track * n)
  return ⟨some p, List.replicate n .empty⟩

/-- track.impl.h:305-324 make_reserve, make_copy -/
def newTrack (sz : ScalarSizes) (samples : Nat) : M OwnedTrack := do
  let p ← alloc (samples * sz.vector)
  return ⟨some p, samples * sz.vector⟩

/-- `out_track = std::move(track)`: the two are exchanged, then the temporary is destroyed -/
def assignTrack (sz : ScalarSizes) (samples : Nat) (old : OwnedTrack) : M OwnedTrack := do
  let new ← newTrack sz samples
  old.destroy
  return new

/-- track_list_context.h:115-208 copy_and_promote_track_list; optimize_looping.scalar.h:86-98 does the same with a sample less -/
def fillArray (sz : ScalarSizes) (n samples : Nat) : M OwnedArray := do
  let a ← newArray sz n
  let tracks ← a.tracks.mapM (assignTrack sz samples)
  return ⟨a.ptr, tracks⟩

/-- track_list_context.h:68-88: what the context owns, and the counts it gives it back with -/
structure ScalarContext where
  tracks : OwnedArray
  ranges : Option Nat
  constant : Option Nat
  bitRates : Option Nat
  outputs : Option Nat
  numTracks : Nat
  numOutputs : Nat
  numSamples : Nat
  wraps : Bool

/-- track_list_context.h:90-103: the destructor, then that of `track_list` -/
def ScalarContext.destroy (sz : ScalarSizes) (c : ScalarContext) : M Unit := do
  freeArray c.ranges (sz.range * c.numTracks)
  freeArray c.constant (4 * bitsetSize c.numTracks)
  freeArray c.bitRates (sz.bitRate * c.numTracks)
  freeArray c.outputs (4 * c.numOutputs)
  c.tracks.destroy sz

/-- track_list_context.h:213-219: the tracks that are not stripped -/
def ScalarList.numOutputs (x : ScalarList) : Nat := x.outputs.length - x.outputs.countP (·.isNone)

/-- track_list_context.h:233-260 initialize_context -/
def initScalar (sz : ScalarSizes) (x : ScalarList) : M ScalarContext := do
  let tracks ← fillArray sz x.outputs.length x.numSamples
  let outputs ← alloc (4 * x.numOutputs)
  return ⟨tracks, none, none, none, some outputs, x.outputs.length, x.numOutputs, x.numSamples, x.wraps⟩

/-- optimize_looping.scalar.h:46-104 optimize_looping -/
def loopScalar (sz : ScalarSizes) (optimizeLoops lastIsFirst : Bool) (c : ScalarContext) : M ScalarContext :=
  if !optimizeLoops then pure c
  else if c.wraps then pure c
  else if c.numSamples ≤ 1 then pure c
  else if c.numTracks = 0 then pure c
  else if !lastIsFirst then pure c
  else do
    let wrapped ← fillArray sz c.numTracks (c.numSamples - 1)
    -- track_list = std::move(wrap_track_list): exchanged, the old one is destroyed at the end of the scope
    c.tracks.destroy sz
    return { c with tracks := wrapped, numSamples := c.numSamples - 1, wraps := true }

/-- track_range_impl.h:65-70 extract_track_ranges -/
def extractRanges (sz : ScalarSizes) (c : ScalarContext) : M ScalarContext := do
  let p ← alloc (sz.range * c.numTracks)
  return { c with ranges := some p }

/-- compact.scalar.h:50-57 extract_constant_tracks -/
def extractConstant (c : ScalarContext) : M ScalarContext := do
  let p ← alloc (4 * bitsetSize c.numTracks)
  return { c with constant := some p }

/-- quantize.scalar.h:162-167 quantize_tracks -/
def quantizeTracks (sz : ScalarSizes) (c : ScalarContext) : M ScalarContext := do
  let p ← alloc (sz.bitRate * c.numTracks)
  return { c with bitRates := some p }

inductive ScalarResult where
  | invalid | notFinite
  | done (buffer : Nat) (numSamples : Nat) (wraps : Bool)
  deriving DecidableEq

/-- compress.impl.h:48-66, compress.scalar.impl.h:65-140: the result and the header's num_samples (160) and wrap flag (162) -/
def compressScalar (sz : ScalarSizes) (optimizeLoops : Bool) (x : ScalarList) : M ScalarResult :=
  if !x.valid then pure .invalid
  else do
    let c ← initScalar sz x
    if !x.finite then
      c.destroy sz
      return .notFinite
    else
      let c ← loopScalar sz optimizeLoops x.lastIsFirst c
      let c ← extractRanges sz c
      let c ← extractConstant c
      let c ← quantizeTracks sz c
      let buffer ← alloc x.bufferSize
      let samples := if c.numOutputs ≠ 0 then c.numSamples else 0
      let wraps := c.wraps
      c.destroy sz
      return .done buffer samples wraps

end Acl.Mem
