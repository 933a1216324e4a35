import Verif.Database.Chunks
import Verif.Layout.Clip
import Verif.Transform.SubTracks
/-
Model of the clips build_database gives back: the high importance tier in the clip, the rest in the database.
/repo/includes/acl/compression/impl/compress.database.impl.h:357-795

Conventions as in Layout/Clip.lean: sizes and offsets are natural numbers (uint32_t in the code), a failed assert and an
access out of bounds are `none`. The input is read as the code reads it: it is a clip without stripped key frames, so its segment
headers have 16 bytes. A struct is stored with one `store`.
-/
namespace Acl.Rewrite
open Acl.Headers Acl.Tiers Acl.Chunks

abbrev Bytes := List (BitVec 8)
variable {E : Type}

/-- What is read of a segment of the input (compress.database.impl.h:491-512, 636-661): the sizes of its header, the pointers of
get_segment_data, its frames of the tier and build_sample_indices. -/
structure Seg (E : Type) where
  pose : BitVec 32
  rotation : BitVec 32
  translation : BitVec 32
  fmt : Nat
  rng : Nat
  anim : Nat
  frames : List (Frame E)
  indices : BitVec 32

/-- compress.database.impl.h:499, 645: range data follows the formats, `format_per_track_data_size` -/
def Seg.fmtSize (s : Seg E) : Nat := s.rng - s.fmt
/-- compress.database.impl.h:502, 648: animated data follows the range data, `range_data_size` -/
def Seg.rngSize (s : Seg E) : Nat := s.anim - s.rng
/-- compress.database.impl.h:504-506, 657-658: `num_animated_frames` and `animated_data_size` -/
def Seg.count (s : Seg E) : Nat := (countSetBits32 s.indices).toNat
def Seg.animSize (s : Seg E) : Nat := (s.count * s.pose.toNat + 7) / 8

/-- compress.database.impl.h:508-517, 649-664: where a segment that starts at `n` ends -/
def segEnd (n : Nat) (s : Seg E) : Nat := alignUp (alignUp (n + s.fmtSize) 2 + s.rngSize) 4 + s.animSize

/-- compress.database.impl.h:445-466 build_sample_indices and 537-549: the frames of the segment -/
def readSeg (m : Bytes) (high : List (Frame E)) (k numSegments numVariable headers i : Nat) : Option (Seg E) :=
  (load32 m (headers + 16 * i)).bind fun pose =>
  (load32 m (headers + 16 * i + 4)).bind fun rotation =>
  (load32 m (headers + 16 * i + 8)).bind fun translation =>
  (load32 m (headers + 16 * i + 12)).bind fun offset =>
  (sampleIndices (high.filter (isFrameOf k i)) [0#32]).bind fun ws =>
  (ws[0]?).bind fun indices =>
  some ⟨pose, rotation, translation, (Clip.segmentData numSegments numVariable (Clip.base + offset.toNat)).1,
    (Clip.segmentData numSegments numVariable (Clip.base + offset.toNat)).2.1,
    (Clip.segmentData numSegments numVariable (Clip.base + offset.toNat)).2.2, high.filter (isFrameOf k i), indices⟩

/-- `n` segments from number `i` on. -/
def readSegs (m : Bytes) (high : List (Frame E)) (k numSegments numVariable headers : Nat) : Nat → Nat → Option (List (Seg E))
  | 0, _ => some []
  | n + 1, i =>
    (readSeg m high k numSegments numVariable headers i).bind fun s =>
    (readSegs m high k numSegments numVariable headers n (i + 1)).map (s :: ·)

/-- compress.database.impl.h:719-724: the offsets of the transform header, relative to it -/
structure Offsets where
  db : Nat
  headers : Nat
  types : Nat
  constants : Nat
  ranges : Nat
  segments : Nat

def offsetsOf (startSize numSegments typesSize constantsSize rangesSize : Nat) : Offsets :=
  let db := alignUp (alignUp Clip.headerSize 4 + startSize) 4
  let headers := alignUp (db + 4) 4
  let types := alignUp (headers + 20 * numSegments) 4
  let constants := alignUp (types + typesSize) 4
  let ranges := alignUp (constants + constantsSize) 4
  ⟨db, headers, types, constants, ranges, ranges + rangesSize⟩

/-- compress.database.impl.h:607-664: the size of the buffer before the metadata -/
def dataEnd (startSize numSegments typesSize constantsSize rangesSize : Nat) (segs : List (Seg E)) : Nat :=
  let n := 8 + 24 + Clip.headerSize
  let n := alignUp n 4 + startSize
  let n := alignUp n 4 + 20 * numSegments
  let n := alignUp n 4 + 4
  let n := alignUp n 4 + typesSize
  let n := alignUp n 4 + constantsSize
  let n := alignUp n 4 + rangesSize
  segs.foldl segEnd n

/-- compress.database.impl.h:468-518 rewrite_segment_headers: `p` is where the next header goes, `offset` where the data of the
segment is, relative to the transform header. -/
def writeHeaders : List (Seg E) → Bytes → Nat → Nat → Option Bytes
  | [], m, _, _ => some m
  | s :: rest, m, p, offset =>
    (store m p (bytesLE s.pose ++ bytesLE s.rotation ++ bytesLE s.translation ++ bytesLE (ptrOffsetOf 32 offset) ++ bytesLE s.indices)).bind fun m =>
    writeHeaders rest m (p + 20) (segEnd offset s)

/-- `std::memcpy(m + dest, input + src, size)` -/
def copy (input : Bytes) (src size : Nat) (m : Bytes) (dest : Nat) : Option Bytes :=
  (loadBytes input src size).bind fun bs => store m dest bs

/-- compress.database.impl.h:520-553 rewrite_segment_data. The code reads back the offset rewrite_segment_headers has stored. -/
def writeData (input : Bytes) (numSegments numVariable : Nat) : List (Seg E) → Bytes → Nat → Option Bytes
  | [], m, _ => some m
  | s :: rest, m, offset =>
    (copy input s.fmt s.fmtSize m (Clip.segmentData numSegments numVariable (Clip.base + offset)).1).bind fun m =>
    (copy input s.rng s.rngSize m (Clip.segmentData numSegments numVariable (Clip.base + offset)).2.1).bind fun m =>
    (writeTierSegmentData (input.drop s.anim) (Clip.segmentData numSegments numVariable (Clip.base + offset)).2.2 s.frames 0 m).bind fun m =>
    writeData input numSegments numVariable rest m (segEnd offset s)

/-! ### The metadata -/

/-- compress.database.impl.h:377-443 get_metadata_*_size: a section ends where the next one that is present starts. `fields` are those
of the optional_metadata_header from this section on. -/
def sectionSize : List (BitVec 32) → Option Nat
  | [] => none
  | o :: rest => if ptrOffsetIsValid o then (rest.find? ptrOffsetIsValid).map fun next => next.toNat - o.toNat else some 0

/-- compress.database.impl.h:669-673: the sizes; the contributing error is stripped -/
def sectionSizes (fields : List (BitVec 32)) : Option (List Nat) :=
  (sectionSize fields).bind fun listName => (sectionSize (fields.drop 1)).bind fun names =>
  (sectionSize (fields.drop 2)).bind fun parents => (sectionSize (fields.drop 3)).bind fun descriptions =>
  some [listName, names, parents, descriptions]

/-- compress.database.impl.h:675-684 -/
def metadataSize (sizes : List Nat) : Nat := alignUp (sizes.foldl (fun n z => alignUp n 4 + z) 0) 4 + 0

/-- compress.database.impl.h:752-787: the offsets -/
def writeMetadataOffsets : List Nat → Nat → Nat → Bytes → Option (Bytes × Nat)
  | [], slot, offset, m => (store m slot (bytesLE (ptrOffsetInvalid 32))).map fun m => (m, offset)
  | z :: rest, slot, offset, m =>
    (store m slot (bytesLE (if z ≠ 0 then ptrOffsetOf 32 offset else ptrOffsetInvalid 32))).bind fun m =>
    writeMetadataOffsets rest (slot + 4) (offset + z) m

/-- compress.database.impl.h:791-795: the sections, which do not change. Nothing is copied when the size is zero. -/
def copyMetadata (input : Bytes) : List (BitVec 32 × Nat) → Nat → Bytes → Option Bytes
  | [], _, m => some m
  | (o, z) :: rest, p, m =>
    (if z ≠ 0 then copy input o.toNat z m p else some m).bind fun m => copyMetadata input rest (p + z) m

/-- compress.database.impl.h:747-796 -/
def writeMetadata (input : Bytes) (fields : List (BitVec 32)) (sizes : List Nat) (slot start : Nat) (m : Bytes) : Option Bytes :=
  (writeMetadataOffsets sizes slot start m).bind fun r =>
  -- "Unexpected metadata size"
  if r.2 - start ≠ metadataSize sizes then none else copyMetadata input (fields.zip sizes) start r.1

/-- compressed_tracks.impl.h:62-65 get_optional_metadata_header: the five offsets -/
def readMetadata (m : Bytes) : Option (List (BitVec 32)) :=
  (Meta.metadataField m 0).bind fun a => (Meta.metadataField m 1).bind fun b => (Meta.metadataField m 2).bind fun c =>
  (Meta.metadataField m 3).bind fun d => (Meta.metadataField m 4).bind fun e => some [a, b, c, d, e]

/-! ### The clip -/

/-- The bytes before the metadata: compress.database.impl.h:712-745. `misc` are the flags of the new header. -/
def writeClip (input : Bytes) (h : Meta.Header) (numSegments numVariable typesSize constantsSize rangesSize : Nat) (segs : List (Seg E))
    (typesAt constantsAt rangesAt clipHeaderOffset size : Nat) (misc : BitVec 32) : Option Bytes :=
  let startSize := if numSegments > 1 then 4 * (numSegments + 1) else 0
  let o := offsetsOf startSize numSegments typesSize constantsSize rangesSize
  (store (List.replicate size 0#8) 8 { h with misc := misc }.bytes).bind fun m =>
  (copy input Clip.base Clip.headerSize m Clip.base).bind fun m =>
  (store m (Clip.base + 32) (bytesLE (ptrOffsetOf 32 o.db) ++ bytesLE (ptrOffsetOf 32 o.headers) ++ bytesLE (ptrOffsetOf 32 o.types) ++
    bytesLE (ptrOffsetOf 32 o.constants) ++ bytesLE (ptrOffsetOf 32 o.ranges))).bind fun m =>
  (if numSegments > 1 then copy input Clip.startIndicesAt startSize m Clip.startIndicesAt else some m).bind fun m =>
  (store m (Clip.base + o.db) (bytesLE (BitVec.ofNat 32 clipHeaderOffset))).bind fun m =>
  (writeHeaders segs m (Clip.base + o.headers) o.segments).bind fun m =>
  (copy input typesAt typesSize m (Clip.base + o.types)).bind fun m =>
  (copy input constantsAt constantsSize m (Clip.base + o.constants)).bind fun m =>
  (copy input rangesAt rangesSize m (Clip.base + o.ranges)).bind fun m =>
  writeData input numSegments numVariable segs m o.segments

/-- compress.database.impl.h:555-795: the body of the loop of build_compressed_tracks, for clip `k`. -/
def rewriteClip (input : Bytes) (high : List (Frame E)) (k clipHeaderOffset : Nat) : Option Bytes :=
  (Meta.loadTracksHeader input).bind fun h =>
  (Clip.field input 0).bind fun numSegments =>
  (Clip.field input 1).bind fun numVariable =>
  (Clip.segmentHeadersAt input).bind fun headersAt =>
  (Clip.typesAt input).bind fun typesAt =>
  (Clip.constantsAt input).bind fun constantsAt =>
  (Clip.clipRangesAt input).bind fun rangesAt =>
  (readSegs input high k numSegments numVariable headersAt numSegments 0).bind fun segs =>
  (segs.head?).bind fun first =>
  (readMetadata input).bind fun fields =>
  (sectionSizes fields).bind fun sizes =>
  let typesSize := Transform.numSubTrackEntries h.numTracks.toNat * (if getHasScale h.misc then 3 else 2) * 4
  let constantsSize := rangesAt - constantsAt
  let rangesSize := first.fmt - rangesAt
  let startSize := if numSegments > 1 then 4 * (numSegments + 1) else 0
  let dataEnd := dataEnd startSize numSegments typesSize constantsSize rangesSize segs
  let numStripped := h.numSamples.toNat - (segs.map Seg.count).sum
  let metadataSize := metadataSize sizes
  let size := Meta.bufferSize metadataSize dataEnd
  let misc := setHasMetadata (setHasStrippedKeyframes (setHasDatabase h.misc true) (numStripped != 0)) (metadataSize != 0)
  (writeClip input h numSegments numVariable typesSize constantsSize rangesSize segs typesAt constantsAt rangesAt clipHeaderOffset size misc).bind fun m =>
  (if metadataSize ≠ 0 then writeMetadata input fields sizes (size - 20) (alignUp dataEnd 4) m else some m).bind fun m =>
  DbBuffer.finishBuffer m size

/-- compress.database.impl.h:555-795 build_compressed_tracks, from clip `k` on: the runtime headers of the clips follow each other. -/
def rewriteClips (high : List (Frame E)) : List Bytes → Nat → Nat → Option (List Bytes)
  | [], _, _ => some []
  | m :: rest, k, clipHeaderOffset =>
    (rewriteClip m high k clipHeaderOffset).bind fun m' =>
    (Clip.field m 0).bind fun numSegments =>
    (rewriteClips high rest (k + 1) (clipHeaderOffset + (8 + 16 * numSegments))).map (m' :: ·)

end Acl.Rewrite
