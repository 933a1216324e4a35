import Verif.Memory.Heap
import Verif.Settings.Model
import Verif.Database.Tiers
/-!
Model of what build_database refuses, which clips it can read, and what it does with memory.
/repo/includes/acl/compression/impl/compress.database.impl.h:60-192 (frame_assignment_context), 681, 1162 (the buffers), 1252-1328 (build_database)

The assignment of frames to tiers is that of Database/Tiers.lean, the layout of the buffers is not repeated here (C47, C53): a buffer is a
size. Not modelled: failing allocations.
-/
namespace Acl.Mem
variable {E : Type} [LinearOrder E] [OrderTop E] [Zero E]

/-- compressed_tracks as build_database looks at it. `clip.metadata` is what the current version stores; `older` is what the versions before
v02_01_99_2 store for each frame (compressed_headers.h frame_contributing_error): its index in the segment and its error. -/
structure Tracks (E : Type) where
  valid : Bool
  bound : Bool
  stripped : Bool
  hasMetadata : Bool
  hasError : Bool
  version : Nat
  clip : Tiers.Clip E
  older : List (Nat × E)
  outputSize : Nat

/-- Sizes of types in bytes, and of the database. -/
structure BuildSizes where
  clipError : Nat
  keyframe : Nat
  frame : Nat
  database : Nat

inductive Refusal where
  | settings | noClips | nullEntry | invalid | bound | stripped | noMetadata | noError | empty
  deriving DecidableEq

/-- compress.database.impl.h:1271-1294: the checks of one entry -/
def checkEntry : Option (Tracks E) → Option Refusal
  | none => some .nullEntry
  | some t =>
    if !t.valid then some .invalid
    else if t.bound then some .bound
    else if t.stripped then some .stripped
    else if !t.hasMetadata then some .noMetadata
    else if !t.hasError then some .noError
    else none

/-- compress.database.impl.h:1271: the first entry with a problem -/
def checkEntries : List (Option (Tracks E)) → Option Refusal
  | [] => none
  | t :: rest => match checkEntry t with
    | some e => some e
    | none => checkEntries rest

/-- compressed_tracks_version.h:74 v02_01_99_2 -/
def versionConverted : Nat := 10

/-- compress.database.impl.h:104-160: what the constructor keeps for a clip: the pointer the destructor frees, and what is read through
`keyframe_metadata`. For an older version an array is allocated, filled and sorted (119-158), but `keyframe_metadata` is left null: there is
nothing to read. -/
def setupClip (sz : BuildSizes) (t : Tracks E) : M (Option Nat × Tiers.Clip E) :=
  if versionConverted ≤ t.version then pure (none, t.clip)
  else do
    let _array ← alloc (sz.keyframe * t.clip.numSamples)
    return (none, { t.clip with metadata := [] })

/-- compress.database.impl.h:167-176: the destructor, for one clip -/
def destroyClipError (sz : BuildSizes) (t : Tracks E) (p : Option Nat) : M Unit :=
  if t.version < versionConverted then freeArray p (sz.keyframe * t.clip.numSamples) else pure ()

def destroyClipErrors (sz : BuildSizes) : List (Tracks E × Option Nat) → M Unit
  | [] => pure ()
  | t :: rest => do
    destroyClipError sz t.1 t.2
    destroyClipErrors sz rest

/-- What build_database does: refuses, reads through a null pointer, or makes clips and a database. -/
inductive Built where
  | refused (e : Refusal)
  | nullRead
  | done (clips : List Nat) (database : Nat)
  deriving DecidableEq

/-- compress.database.impl.h:1313-1327: everything past the checks -/
def buildTiers (sz : BuildSizes) (wantLow wantMedium : Nat) (tracks : List (Tracks E)) : M Built := do
  let clips := tracks.map (·.clip)
  let low := Tiers.numLow clips wantLow
  let medium := Tiers.numMedium clips wantLow wantMedium
  let high := Tiers.numFrames clips - medium - low
  let errors ← alloc (sz.clipError * tracks.length)
  let kept ← tracks.mapM (setupClip sz)
  let highFrames ← alloc (sz.frame * high)
  let mediumFrames ← alloc (sz.frame * medium)
  let lowFrames ← alloc (sz.frame * low)
  match Tiers.assignTiers (kept.map (·.2)) wantLow wantMedium with
  | none => return .nullRead
  | some _ => do
    let outputs ← tracks.mapM fun t => alloc t.outputSize
    let database ← alloc sz.database
    free highFrames (sz.frame * high)
    free mediumFrames (sz.frame * medium)
    free lowFrames (sz.frame * low)
    destroyClipErrors sz (tracks.zip (kept.map (·.1)))
    free errors (sz.clipError * tracks.length)
    return .done outputs database

/-- compress.database.impl.h:1252-1328 build_database; `wantLow` and `wantMedium` are the frames asked for by the settings (1306-1307) -/
def buildDatabase (sz : BuildSizes) (s : Settings.Database) (wantLow wantMedium : Nat) (list : List (Option (Tracks E))) : M Built :=
  if s.isValid.isSome then pure (.refused .settings)
  else if list.length = 0 then pure (.refused .noClips)
  else match checkEntries list with
    | some e => pure (.refused e)
    | none =>
      if Tiers.numFrames ((list.filterMap id).map (·.clip)) = 0 then pure (.refused .empty)
      else buildTiers sz wantLow wantMedium (list.filterMap id)

end Acl.Mem
