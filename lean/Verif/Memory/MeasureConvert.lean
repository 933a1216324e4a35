import Verif.Memory.Heap
/-!
Model of what measuring an error and converting compressed tracks back to raw tracks do with memory.
/repo/includes/acl/compression/impl/track_error.impl.h:166-217 (calculate_scalar_track_error), 219-387 (calculate_transform_track_error),
400-462, 465-570, 573-689, 692-751, 753-802, 804-873 (calculate_compression_error)
/repo/includes/acl/core/impl/debug_track_writer.h:53-68, /repo/includes/acl/compression/impl/track_list_context.h:210-231
/repo/includes/acl/compression/impl/convert.impl.h:80-254 (convert_track_list)
/repo/includes/acl/core/string.h:49-83, 97-102, 128-134, /repo/includes/acl/compression/impl/track.impl.h:74-97, track_array.impl.h:55-86,
/repo/includes/acl/compression/track.h:142 and track_array.h:123 (set_name)

Sizes of types are parameters. What is measured and what is written are not here (C60, C72, C77); one allocator; allocations do not fail.
-/
namespace Acl.Mem

/-- What calculate_compression_error is called with. `mapping`: the output index of each track when the adapter makes a mapping (raw tracks
against a context, with a metric). `metric`: the overload has an error metric. `needsConversion` and `transformSize` are of the metric. -/
structure MeasureArgs where
  transforms : Bool
  metric : Bool
  mapping : Option (List (Option Nat))
  numSamples : Nat
  numTracks : Nat
  needsConversion : Bool
  transformSize : Nat

/-- debug_track_writer.h:53-63: the constructor -/
def newWriter (qvv n : Nat) : M Nat := alloc (qvv * n)

/-- debug_track_writer.h:65-68: the destructor -/
def freeWriter (qvv n p : Nat) : M Unit := free p (qvv * n)

/-- track_error.impl.h:166-217 calculate_scalar_track_error -/
def measureScalar (qvv : Nat) (a : MeasureArgs) : M Unit :=
  if a.numSamples = 0 then pure ()
  else if a.numTracks = 0 then pure ()
  else do
    let w0 ← newWriter qvv a.numTracks
    let w1 ← newWriter qvv a.numTracks
    freeWriter qvv a.numTracks w1
    freeWriter qvv a.numTracks w0

/-- track_error.impl.h:250-260: nothing is allocated for poses that need no conversion -/
def allocIf (b : Bool) (size : Nat) : M (Option Nat) := if b then do let p ← alloc size; return some p else pure none

/-- track_error.impl.h:219-387 calculate_transform_track_error -/
def measureTransform (qvv : Nat) (a : MeasureArgs) : M Unit :=
  if a.numSamples = 0 then pure ()
  else if a.numTracks = 0 then pure ()
  else do
    let w0 ← newWriter qvv a.numTracks
    let w1 ← newWriter qvv a.numTracks
    let remapped ← newWriter qvv a.numTracks
    let base ← newWriter qvv a.numTracks
    let rawLocal ← allocIf a.needsConversion (a.numTracks * a.transformSize)
    let baseLocal ← allocIf a.needsConversion (a.numTracks * a.transformSize)
    let lossyLocal ← allocIf a.needsConversion (a.numTracks * a.transformSize)
    let rawObject ← alloc (a.numTracks * a.transformSize)
    let lossyObject ← alloc (a.numTracks * a.transformSize)
    let parents ← alloc (4 * a.numTracks)
    let selves ← alloc (4 * a.numTracks)
    freeArray rawLocal (a.numTracks * a.transformSize)
    freeArray baseLocal (a.numTracks * a.transformSize)
    freeArray lossyLocal (a.numTracks * a.transformSize)
    free rawObject (a.numTracks * a.transformSize)
    free lossyObject (a.numTracks * a.transformSize)
    free parents (4 * a.numTracks)
    free selves (4 * a.numTracks)
    freeWriter qvv a.numTracks base
    freeWriter qvv a.numTracks remapped
    freeWriter qvv a.numTracks w1
    freeWriter qvv a.numTracks w0

/-- track_list_context.h:213-219: tracks that are not stripped -/
def mappedTracks (outputs : List (Option Nat)) : Nat := outputs.length - outputs.countP (·.isNone)

/-- The adapter: its mapping, if it makes one, is given back by its destructor (track_error.impl.h:486, 491, 596, 601) -/
def withMapping (outputs : Option (List (Option Nat))) (body : M Unit) : M Unit :=
  match outputs with
  | none => body
  | some o => do
    let p ← alloc (4 * mappedTracks o)
    body
    freeArray (some p) (4 * mappedTracks o)

/-- The overloads of calculate_compression_error; without a metric, transforms are refused first (408, 702, 761) -/
def measureError (qvv : Nat) (a : MeasureArgs) : M Unit :=
  if a.metric then withMapping a.mapping (if a.transforms then measureTransform qvv a else measureScalar qvv a)
  else if a.transforms then pure ()
  else measureScalar qvv a

/-- string.h: the characters and what strlen gives -/
structure OwnedString where
  ptr : Option Nat
  length : Nat
  deriving DecidableEq

/-- string.h:49: the default constructor -/
def OwnedString.empty : OwnedString := ⟨none, 0⟩

/-- string.h:51-73 -/
def newString (length : Nat) : M OwnedString :=
  if length > 0 then do
    let p ← alloc (length + 1)
    return ⟨some p, length⟩
  else pure .empty

/-- string.h:79-83: the destructor -/
def OwnedString.destroy (s : OwnedString) : M Unit := freeArray s.ptr (s.length + 1)

/-- string.h:128-134 get_copy -/
def OwnedString.copy (s : OwnedString) : M OwnedString :=
  match s.ptr with
  | none => pure .empty
  | some _ => newString s.length

/-- `x.set_name(string(allocator, name))`: a temporary is made and copied; the copy is exchanged with the name, and temporaries are destroyed -/
def setName (old : OwnedString) (length : Nat) : M OwnedString := do
  let given ← newString length
  let copy ← given.copy
  old.destroy
  given.destroy
  return copy

/-- A raw track: its samples, the size it gives them back with, its name -/
structure NamedTrack where
  data : Option Nat
  dataSize : Nat
  name : OwnedString
  deriving DecidableEq

/-- The default constructor of a track -/
def NamedTrack.empty : NamedTrack := ⟨none, 0, .empty⟩

/-- track.impl.h:74-81: the destructor, then of the name -/
def NamedTrack.destroy (t : NamedTrack) : M Unit := do
  freeArray t.data t.dataSize
  t.name.destroy

/-- A list of raw tracks -/
structure NamedList where
  ptr : Option Nat
  tracks : List NamedTrack
  name : OwnedString
  deriving DecidableEq

/-- track_array.impl.h:72-76, iallocator.h:131-144: the destructor, then of the name -/
def NamedList.destroy (trackSize : Nat) (l : NamedList) : M Unit := do
  match l.ptr with
  | none => pure ()
  | some p => do
    let _ ← l.tracks.mapM NamedTrack.destroy
    free p (trackSize * l.tracks.length)
  l.name.destroy

/-- Compressed tracks as the conversion looks at them. `tracks`: for each, if it has a description, and the length of its name -/
structure ConvertInput where
  valid : Bool
  name : Nat
  numSamples : Nat
  sampleSize : Nat
  tracks : List (Bool × Nat)

/-- convert.impl.h:97-139: a track is made, moved over the empty one of the array, which is destroyed, and named -/
def reserveTrack (x : ConvertInput) (length : Nat) : M NamedTrack := do
  let p ← alloc (x.numSamples * x.sampleSize)
  NamedTrack.empty.destroy
  let name ← setName .empty length
  return ⟨some p, x.numSamples * x.sampleSize, name⟩

/-- convert.impl.h:80-254 convert_track_list. `out` is the list that receives the result; true: no error -/
def convert (qvv trackSize : Nat) (x : ConvertInput) (out : NamedList) : M (Bool × NamedList) :=
  if !x.valid then pure (false, out)
  else do
    let p ← alloc (trackSize * x.tracks.length)
    let name ← setName .empty x.name
    let tracks ← x.tracks.mapM fun t => reserveTrack x t.2
    let result : NamedList := ⟨some p, tracks, name⟩
    if !(x.tracks.all (·.1)) then
      result.destroy trackSize
      return (false, out)
    else
      let w ← newWriter qvv x.tracks.length
      freeWriter qvv x.tracks.length w
      -- out_track_list = std::move(result): exchanged, `result` is destroyed
      out.destroy trackSize
      return (true, result)

end Acl.Mem
