import Verif.Database.Buffer
import Verif.Raw.TrackArray
/-
The buffer of compressed tracks as bytes: the headers, the compressed data (any bytes) and the optional metadata; the
accessors of `compressed_tracks`.
/repo/includes/acl/core/impl/compressed_headers.h:50-135 (raw_buffer_header, tracks_header), 336-395 (metadata)
/repo/includes/acl/core/impl/compressed_tracks.impl.h:40-303
/repo/includes/acl/core/string.h
/repo/includes/acl/compression/impl/write_track_metadata.h
/repo/includes/acl/compression/impl/compress.scalar.impl.h:93-254
/repo/includes/acl/compression/impl/compress.transform.impl.h:155-184, 282-286, 368-530

Sizes are natural numbers; the code uses uint32_t, so the theorems assume that the buffer is below 4 GB.
-/
namespace Acl.Meta
open Acl.Headers
open Acl.DbBuffer (finishBuffer)

abbrev Bytes := List (BitVec 8)

/-! ## What is compressed -/

structure Float3 where
  x : BitVec 32
  y : BitVec 32
  z : BitVec 32
  deriving DecidableEq

structure Float4 where
  x : BitVec 32
  y : BitVec 32
  z : BitVec 32
  w : BitVec 32
  deriving DecidableEq

/-- The metadata of a raw track: its name and track_desc_scalarf (precision) or track_desc_transformf. Floats are bit
patterns. -/
structure Track where
  name : Bytes
  parentIndex : Nat
  precision : BitVec 32
  shellDistance : BitVec 32
  rotation : Float4
  translation : Float3
  scale : Float3

/-- compressed_headers.h:339-364 keyframe_stripping_metadata_t, 20 bytes; the padding is taken as zero -/
structure KeyframeError where
  keyframeIndex : BitVec 32
  segmentIndex : BitVec 32
  strippingIndex : BitVec 32
  strippingError : BitVec 32
  isTrivial : BitVec 8

/-- The raw tracks, the output mapping (create_output_track_mapping, C31) and the contributing error computed by the
transform compressor. -/
structure Source where
  isTransform : Bool
  listName : Bytes
  tracks : List Track
  mapping : List Nat
  errors : List KeyframeError

/-- compression_settings.h:91-123 compression_metadata_settings -/
structure Settings where
  listName : Bool
  trackNames : Bool
  parents : Bool
  descriptions : Bool
  contributingError : Bool

/-- The rest of compression_settings that matters for the metadata. -/
structure Extra where
  databaseSupport : Bool
  keyframeStripping : Bool

/-- compress.transform.impl.h:157-166, 182-183, 284-285: the settings the transform compressor uses when it writes. The
scalar compressor uses its settings as they are, and supports neither parents nor contributing error. -/
def effective (isTransform : Bool) (x : Extra) (s : Settings) : Settings :=
  if !isTransform then { s with parents := false, contributingError := false }
  else
    let removeError := !x.databaseSupport && x.keyframeStripping && !s.contributingError
    let s := if x.databaseSupport then { s with contributingError := true }
      else if x.keyframeStripping then { s with contributingError := true } else s
    let s := if s.descriptions then { s with parents := true } else s
    if removeError then { s with contributingError := false } else s

/-- compressed_headers.h:60-87: tracks_header without its metadata flag (the compressors set the other fields of
misc_packed first; C28) -/
structure Header where
  tag : BitVec 32
  version : BitVec 16
  algorithm : BitVec 8
  trackType : BitVec 8
  numTracks : BitVec 32
  numSamples : BitVec 32
  sampleRate : BitVec 32
  misc : BitVec 32
  deriving DecidableEq

def Header.bytes (h : Header) : Bytes :=
  bytesLE h.tag ++ bytesLE h.version ++ [h.algorithm] ++ [h.trackType] ++ bytesLE h.numTracks ++ bytesLE h.numSamples ++
    bytesLE h.sampleRate ++ bytesLE h.misc

/-! ## Writers -/

/-- write_track_metadata.h: `tracks[track_output_indices[output_index]]` for every output index -/
def outputTracks (src : Source) : Option (List Track) := src.mapping.mapM fun i => src.tracks[i]?

/-- write_track_metadata.h:47-63 write_track_list_name: size and writing -/
def listNameSize (src : Source) : Nat := src.listName.length + 1
def writeListName (src : Source) (m : Bytes) (p : Nat) : Option (Bytes × Nat) := do
  some (← store m p (src.listName ++ [0#8]), p + (src.listName.length + 1))

/-- write_track_metadata.h:72-87: the table of offsets, relative to its own start -/
def writeNameOffsets : List Track → Nat → Bytes → Nat → Option (Bytes × Nat)
  | [], _, m, p => some (m, p)
  | t :: rest, offset, m, p => do
    let m ← store m p (bytesLE (BitVec.ofNat 32 offset))
    writeNameOffsets rest (offset + (t.name.length + 1)) m (p + 4)

/-- write_track_metadata.h:90-101: the names with their terminators -/
def writeNames : List Track → Bytes → Nat → Option (Bytes × Nat)
  | [], m, p => some (m, p)
  | t :: rest, m, p => do
    let m ← store m p (t.name ++ [0#8])
    writeNames rest m (p + (t.name.length + 1))

/-- write_track_metadata.h:65-104 write_track_names -/
def trackNamesSize (tracks : List Track) : Nat := 4 * tracks.length + (tracks.map fun t => t.name.length + 1).sum
def writeTrackNames (tracks : List Track) (m : Bytes) (p : Nat) : Option (Bytes × Nat) := do
  let (m, p) ← writeNameOffsets tracks (4 * tracks.length) m p
  writeNames tracks m p

/-- write_track_metadata.h:126-142 write_parent_track_indices -/
def writeParents (mapping : List Nat) : List Track → Bytes → Nat → Option (Bytes × Nat)
  | [], m, p => some (m, p)
  | t :: rest, m, p => do
    let m ← store m p (bytesLE (BitVec.ofNat 32 (Raw.findOutputIndex mapping t.parentIndex)))
    writeParents mapping rest m (p + 4)

/-- write_track_metadata.h:158-193: the description of one track, one float or twelve -/
def descBytes (isTransform : Bool) (t : Track) : Bytes :=
  if isTransform then
    bytesLE t.precision ++ bytesLE t.shellDistance ++
      (bytesLE t.rotation.x ++ bytesLE t.rotation.y ++ bytesLE t.rotation.z ++ bytesLE t.rotation.w) ++
      (bytesLE t.translation.x ++ bytesLE t.translation.y ++ bytesLE t.translation.z) ++
      (bytesLE t.scale.x ++ bytesLE t.scale.y ++ bytesLE t.scale.z)
  else bytesLE t.precision
def descSize (isTransform : Bool) : Nat := if isTransform then 48 else 4

/-- write_track_metadata.h:145-197 write_track_descriptions -/
def writeDescriptions (isTransform : Bool) : List Track → Bytes → Nat → Option (Bytes × Nat)
  | [], m, p => some (m, p)
  | t :: rest, m, p => do
    let m ← store m p (descBytes isTransform t)
    writeDescriptions isTransform rest m (p + descSize isTransform)

/-- A struct assignment of keyframe_stripping_metadata_t. -/
def KeyframeError.bytes (e : KeyframeError) : Bytes :=
  bytesLE e.keyframeIndex ++ bytesLE e.segmentIndex ++ bytesLE e.strippingIndex ++ bytesLE e.strippingError ++
    [e.isTrivial, 0#8, 0#8, 0#8]

/-- write_track_metadata.h:199-218 write_contributing_error -/
def writeErrors : List KeyframeError → Bytes → Nat → Option (Bytes × Nat)
  | [], m, p => some (m, p)
  | e :: rest, m, p => do
    let m ← store m p e.bytes
    writeErrors rest m (p + 20)

/-- One of the blocks `if (include) { align; header->field = offset; write; offset += size } else header->field = invalid`
of compress.scalar.impl.h:213-243, compress.transform.impl.h:478-526. -/
def writeSection (included : Bool) (align : Nat → Nat) (slot : Nat) (write : Bytes → Nat → Option (Bytes × Nat))
    (m : Bytes) (offset : Nat) : Option (Bytes × Nat) :=
  if included then do
    let m ← store m slot (bytesLE (ptrOffsetOf 32 (align offset)))
    write m (align offset)
  else do
    some (← store m slot (bytesLE (ptrOffsetInvalid 32)), offset)

/-- Sizes of the sections: compress.scalar.impl.h:115-117, compress.transform.impl.h:370-374 -/
structure Sizes where
  listName : Nat
  trackNames : Nat
  parents : Nat
  descriptions : Nat
  errors : Nat

def sizesOf (s : Settings) (src : Source) (tracks : List Track) : Sizes where
  listName := if s.listName then listNameSize src else 0
  trackNames := if s.trackNames then trackNamesSize tracks else 0
  parents := if s.parents then 4 * tracks.length else 0
  descriptions := if s.descriptions then descSize src.isTransform * tracks.length else 0
  errors := if s.contributingError then 20 * src.errors.length else 0

/-- compress.scalar.impl.h:119-124, compress.transform.impl.h:376-385 -/
def metadataSize (isTransform : Bool) (z : Sizes) : Nat :=
  let n := alignUp z.listName 4 + z.trackNames
  if isTransform then alignUp (alignUp (alignUp n 4 + z.parents) 4 + z.descriptions) 4 + z.errors
  else alignUp n 4 + z.descriptions

/-- compress.scalar.impl.h:126-135, compress.transform.impl.h:387-396: the size of the buffer; `dataEnd` is the end of
the compressed data -/
def bufferSize (metaSize dataEnd : Nat) : Nat :=
  if metaSize ≠ 0 then alignUp (alignUp dataEnd 4 + metaSize) 4 + 20 else dataEnd + 15

/-- compress.scalar.impl.h:208-244, compress.transform.impl.h:473-527. `slot` is the position of the
optional_metadata_header. The scalar compressor leaves its last field as it is, zero. -/
def writeMetadata (s : Settings) (src : Source) (tracks : List Track) (slot start : Nat) (m : Bytes) : Option Bytes := do
  let (m, p) ← writeSection s.listName (fun o => o) slot (writeListName src) m start
  let (m, p) ← writeSection s.trackNames (fun o => alignUp o 4) (slot + 4) (writeTrackNames tracks) m p
  let (m, p) ← writeSection s.parents (fun o => alignUp o 4) (slot + 8) (writeParents src.mapping tracks) m p
  let (m, p) ← writeSection s.descriptions (fun o => alignUp o 4) (slot + 12) (writeDescriptions src.isTransform tracks) m p
  if src.isTransform then
    let (m, _) ← writeSection s.contributingError (fun o => alignUp o 4) (slot + 16) (writeErrors src.errors) m p
    some m
  else some m

/-- compress.scalar.impl.h:147-158, compress.transform.impl.h:412-431: the tracks header. `h` has the track type, the
number of samples, the sample rate and the flags. -/
def headerOf (src : Source) (h : Header) (hasMetadata : Bool) : Header :=
  { h with
    tag := 0xac11ac11#32, version := 10#16, algorithm := 0#8, numTracks := BitVec.ofNat 32 src.mapping.length,
    numSamples := if src.mapping.length ≠ 0 then h.numSamples else 0#32,
    sampleRate := if src.mapping.length ≠ 0 then h.sampleRate else 0#32,
    misc := setHasMetadata h.misc hasMetadata }

/-- compress.scalar.impl.h:93-254, compress.transform.impl.h:316-535: the buffer. `data` stands for the bytes after the
tracks header: the scalar or transform header and the compressed data. -/
def build (s : Settings) (src : Source) (h : Header) (data : Bytes) : Option Bytes := do
  let tracks ← outputTracks src
  let metaSize := metadataSize src.isTransform (sizesOf s src tracks)
  let dataEnd := 32 + data.length
  let size := bufferSize metaSize dataEnd
  let m := List.replicate size 0#8
  let m ← store m 8 (headerOf src h (metaSize != 0)).bytes
  let m ← store m 32 data
  let m ← if metaSize ≠ 0 then writeMetadata s src tracks (size - 20) (alignUp dataEnd 4) m else some m
  finishBuffer m size

/-- compress: the user's settings -/
def compress (x : Extra) (s : Settings) (src : Source) (h : Header) (data : Bytes) : Option Bytes :=
  build (effective src.isTransform x s) src h data

/-! ## Accessors -/

/-- The tracks header of a buffer. -/
def loadTracksHeader (m : Bytes) : Option Header := do
  let tag ← load32 m 8
  let version ← load16 m 12
  let algorithm ← m[14]?
  let trackType ← m[15]?
  let numTracks ← load32 m 16
  let numSamples ← load32 m 20
  let sampleRate ← load32 m 24
  let misc ← load32 m 28
  some ⟨tag, version, algorithm, trackType, numTracks, numSamples, sampleRate, misc⟩

/-- A `const char*`: null or a string. -/
inductive CString where
  | null
  | str (s : Bytes)
  deriving DecidableEq

/-- The string up to the terminator; `none` if there is none in the buffer. -/
def scanString : Bytes → Option Bytes
  | [] => none
  | b :: rest => if b = 0#8 then some [] else (scanString rest).map (b :: ·)

/-- The string at an address of the buffer. -/
def stringAt (m : Bytes) (p : Nat) : Option CString := (scanString (m.drop p)).map .str

/-- compressed_tracks.impl.h:62-65 get_optional_metadata_header; `field` is 0 to 4 -/
def metadataField (m : Bytes) (field : Nat) : Option (BitVec 32) := do
  let size ← load32 m 0
  load32 m (size.toNat - 20 + 4 * field)

/-- compressed_tracks.impl.h:143-154 get_name; get_track_list_name is a `safe_add_to`, null for an invalid offset -/
def getName (m : Bytes) : Option CString := do
  let h ← loadTracksHeader m
  if !getHasMetadata h.misc then return .str []
  let names ← metadataField m 1
  if !ptrOffsetIsValid names then return .str []
  let list ← metadataField m 0
  if !ptrOffsetIsValid list then return .null
  stringAt m list.toNat

/-- compressed_tracks.impl.h:156-173 get_track_name -/
def getTrackName (m : Bytes) (track : Nat) : Option CString := do
  let h ← loadTracksHeader m
  if !getHasMetadata h.misc then return .str []
  if h.numTracks.toNat ≤ track then return .str []
  let names ← metadataField m 1
  if !ptrOffsetIsValid names then return .str []
  let offset ← load32 m (names.toNat + 4 * track)
  stringAt m (names.toNat + offset.toNat)

/-- compressed_tracks.impl.h:175-191 get_parent_track_index -/
def getParent (m : Bytes) (track : Nat) : Option Nat := do
  let h ← loadTracksHeader m
  if !getHasMetadata h.misc then return Raw.invalidIndex
  if h.numTracks.toNat ≤ track then return Raw.invalidIndex
  let parents ← metadataField m 2
  if !ptrOffsetIsValid parents then return Raw.invalidIndex
  let p ← load32 m (parents.toNat + 4 * track)
  return p.toNat

/-- The fields of track_desc_scalarf and track_desc_transformf set by get_track_description. -/
structure ScalarDesc where
  outputIndex : Nat
  precision : BitVec 32
  deriving DecidableEq

structure TransformDesc where
  outputIndex : Nat
  parentIndex : Nat
  precision : BitVec 32
  shellDistance : BitVec 32
  rotation : Float4
  translation : Float3
  scale : Float3
  deriving DecidableEq

/-- compressed_tracks.impl.h:193-213 get_track_description for scalar tracks; the inner `none` is `return false` -/
def getScalarDescription (m : Bytes) (track : Nat) : Option (Option ScalarDesc) := do
  let h ← loadTracksHeader m
  if !getHasMetadata h.misc then return none
  if h.numTracks.toNat ≤ track then return none
  let descs ← metadataField m 3
  if !ptrOffsetIsValid descs then return none
  let precision ← load32 m (descs.toNat + track * 4 * 1)
  return some ⟨track, precision⟩

/-- compressed_tracks.impl.h:233-271: the fields; the identity before version 2.1 -/
def readTransformDescription (m : Bytes) (version parents descs track : Nat) : Option TransformDesc := do
  let size := 4 * 5
  let size := if 8 ≤ version then size + 4 * 10 else size
  let size := if 9 ≤ version then size - 4 * 3 else size
  let p := descs + track * size
  let parent ← load32 m (parents + 4 * track)
  let precision ← load32 m p
  let shell ← load32 m (p + 4)
  if 8 ≤ version then
    let p := if version < 9 then p + 4 * 3 else p
    let rx ← load32 m (p + 8)
    let ry ← load32 m (p + 12)
    let rz ← load32 m (p + 16)
    let rw ← load32 m (p + 20)
    let tx ← load32 m (p + 24)
    let ty ← load32 m (p + 28)
    let tz ← load32 m (p + 32)
    let sx ← load32 m (p + 36)
    let sy ← load32 m (p + 40)
    let sz ← load32 m (p + 44)
    some ⟨track, parent.toNat, precision, shell, ⟨rx, ry, rz, rw⟩, ⟨tx, ty, tz⟩, ⟨sx, sy, sz⟩⟩
  else
    -- qvv_identity
    let one := 0x3F800000#32
    some ⟨track, parent.toNat, precision, shell, ⟨0, 0, 0, one⟩, ⟨0, 0, 0⟩, ⟨one, one, one⟩⟩

/-- compressed_tracks.impl.h:215-272 get_track_description for transform tracks -/
def getTransformDescription (m : Bytes) (track : Nat) : Option (Option TransformDesc) := do
  let h ← loadTracksHeader m
  if !getHasMetadata h.misc then return none
  if h.numTracks.toNat ≤ track then return none
  let descs ← metadataField m 3
  if !ptrOffsetIsValid descs then return none
  let parents ← metadataField m 2
  if !ptrOffsetIsValid parents then return none
  (readTransformDescription m h.version.toNat parents.toNat descs.toNat track).map some

/-- compress.database.impl.h:1291-1300, and the reads of the database compressor: the contributing error of key frame
`i`, in stripping order -/
def getContributingError (m : Bytes) (i : Nat) : Option (Option KeyframeError) := do
  let h ← loadTracksHeader m
  if !getHasMetadata h.misc then return none
  let errors ← metadataField m 4
  if !ptrOffsetIsValid errors then return none
  let p := errors.toNat + 20 * i
  let a ← load32 m p
  let b ← load32 m (p + 4)
  let c ← load32 m (p + 8)
  let d ← load32 m (p + 12)
  let e ← m[p + 16]?
  return some ⟨a, b, c, d, e⟩

end Acl.Meta
