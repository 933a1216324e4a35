import Verif.Database.Tiers
import Verif.Core.Memory
import Verif.Core.Bitset
/-
Model of the chunks of the bulk data of one database tier.
/repo/includes/acl/compression/impl/compress.database.impl.h:797-1128.

Simplifications. Sizes and offsets are natural numbers (`uint32_t` in the code). The chunk headers and
segment headers in the bulk data are records (`Chunk`, `SegHeader`); the sample data is written with
`memcpy_bits` into the bytes of the bulk data. That headers and sample data do not overlap is not
assumed: it is part of what C23 proves. The sequence of (clip, segment) pairs the nested loops run
through, with the runtime header offsets which only depend on it, is computed first (`clipItems`).
-/
namespace Acl.Chunks
open Acl Acl.Tiers
variable {E : Type}

/-- compressed_headers.h:477-501 `sizeof(database_chunk_header)`. -/
def chunkHeaderSize : Nat := 12
/-- compressed_headers.h:447-474 `sizeof(database_chunk_segment_header)`. -/
def segHeaderSize : Nat := 20
/-- compressed_headers.h:403-423 `sizeof(database_runtime_segment_header)`: two 64 bit atomics. -/
def runtimeSegmentHeaderSize : Nat := 16
/-- compressed_headers.h:426-439 `sizeof(database_runtime_clip_header)`. -/
def runtimeClipHeaderSize : Nat := 8
/-- compress.database.impl.h:910, 976. -/
def simdPadding : Nat := 15

/-- What the writer reads of a compressed clip: hash, number of segments and the animated data of the
segments (`frame_tier_mapping::animated_data`). -/
structure DbClip where
  hash : BitVec 32
  numSegments : Nat
  source : Nat → List (BitVec 8)

/-- The frame belongs to segment `s` of clip `c`. -/
def isFrameOf (c s : Nat) (f : Frame E) : Bool := f.tracksIndex == c && f.segmentIndex == s

/-- compress.database.impl.h:835-848: the frames of the segment from the first one on. -/
def takeFrames (c s : Nat) : List (Frame E) → List (Frame E)
  | [] => []
  | f :: rest => if isFrameOf c s f then f :: takeFrames c s rest else []

/-- compress.database.impl.h:823-856 `find_segment_frames`. -/
def findSegmentFrames (c s : Nat) : List (Frame E) → List (Frame E)
  | [] => []
  | f :: rest => if isFrameOf c s f then takeFrames c s (f :: rest) else findSegmentFrames c s rest

/-- compress.database.impl.h:859-866 `calculate_segment_animated_data_bit_size`. -/
def segmentBits : List (Frame E) → Nat
  | [] => 0
  | f :: rest => f.frameBitSize * (rest.length + 1)

/-- compress.database.impl.h:927. -/
def segmentSize (frames : List (Frame E)) : Nat := (segmentBits frames + 7) / 8

/-- compress.database.impl.h:869-882 `build_sample_indices`. -/
def sampleIndices : List (Frame E) → List (BitVec 32) → Option (List (BitVec 32))
  | [], m => some m
  | f :: rest, m => do sampleIndices rest (← bitsetSet m f.segmentFrameIndex true)

/-- One iteration of the loops over the clips and segments. -/
structure Item (E : Type) where
  clip : Nat
  segment : Nat
  hash : BitVec 32
  clipHeaderOffset : Nat
  segmentHeaderOffset : Nat
  frames : List (Frame E)
  source : List (BitVec 8)

def Item.size (it : Item E) : Nat := segmentSize it.frames

/-- compress.database.impl.h:1007-1060: the segments `s .. s + k - 1` of clip `c`. -/
def segmentItems (tier : List (Frame E)) (clip : DbClip) (c clipHeaderOffset : Nat) :
    Nat → Nat → Nat → List (Item E)
  | 0, _, _ => []
  | k+1, s, segmentHeaderOffset =>
    ⟨c, s, clip.hash, clipHeaderOffset, segmentHeaderOffset, findSegmentFrames c s tier, clip.source s⟩ ::
      segmentItems tier clip c clipHeaderOffset k (s + 1) (segmentHeaderOffset + runtimeSegmentHeaderSize)

/-- compress.database.impl.h:1000-1063: the clips from index `c`. -/
def clipItems (tier : List (Frame E)) : List DbClip → Nat → Nat → List (Item E)
  | [], _, _ => []
  | clip :: clips, c, clipHeaderOffset =>
    segmentItems tier clip c clipHeaderOffset clip.numSegments 0 (clipHeaderOffset + runtimeClipHeaderSize) ++
      clipItems tier clips (c + 1)
        (clipHeaderOffset + runtimeClipHeaderSize + clip.numSegments * runtimeSegmentHeaderSize)

/-- compress.database.impl.h:800-820 `write_database_clip_metadata`: hash and runtime header offset. -/
def clipMetadata : List DbClip → Nat → List (BitVec 32 × Nat)
  | [], _ => []
  | clip :: clips, clipHeaderOffset =>
    (clip.hash, clipHeaderOffset) ::
      clipMetadata clips (clipHeaderOffset + (runtimeClipHeaderSize + runtimeSegmentHeaderSize * clip.numSegments))

/-! ### Chunk descriptions -/

/-- compressed_headers.h:508-522 `database_chunk_description`. -/
structure ChunkDesc where
  size : Nat
  offset : Nat
  deriving DecidableEq

/-- Locals of compress.database.impl.h:912-914 and the descriptions written so far. -/
structure DescState where
  bulkDataOffset : Nat
  chunkSize : Nat
  out : List ChunkDesc

/-- compress.database.impl.h:930-945: body of the inner loop. -/
def describeStep (maxChunkSize : Nat) (st : DescState) (size : Nat) : DescState :=
  let newChunkSize := st.chunkSize + size + simdPadding + segHeaderSize
  let st := if newChunkSize ≥ maxChunkSize then
      { out := st.out ++ [⟨maxChunkSize, st.bulkDataOffset⟩]
        bulkDataOffset := st.bulkDataOffset + maxChunkSize
        chunkSize := chunkHeaderSize : DescState }
    else st
  { st with chunkSize := st.chunkSize + (size + segHeaderSize) }

/-- compress.database.impl.h:950-960: the last chunk. -/
def finishDescs (st : DescState) : List ChunkDesc :=
  if st.chunkSize ≠ chunkHeaderSize then st.out ++ [⟨st.chunkSize + simdPadding, st.bulkDataOffset⟩] else st.out

/-- compress.database.impl.h:902-963 `write_database_chunk_descriptions`. -/
def chunkDescriptions (tier : List (Frame E)) (clips : List DbClip) (maxChunkSize : Nat) : List ChunkDesc :=
  if tier.isEmpty then []
  else
    finishDescs ((clipItems tier clips 0 0).foldl (fun st it => describeStep maxChunkSize st it.size)
      ⟨0, chunkHeaderSize, []⟩)

/-! ### Bulk data -/

/-- compressed_headers.h:447-468 `database_chunk_segment_header`. -/
structure SegHeader where
  clipHash : BitVec 32
  sampleIndices : List (BitVec 32)
  samplesOffset : Nat
  clipHeaderOffset : Nat
  segmentHeaderOffset : Nat

/-- compressed_headers.h:477-501 `database_chunk_header` at `offset` in the bulk data, followed by its
segment headers; `num_segments` is `segs.length`. -/
structure Chunk where
  offset : Nat
  index : Nat
  size : Nat
  segs : List SegHeader

/-- Locals of compress.database.impl.h:981-984, the finished chunks and the current one. -/
structure BulkState where
  bulkDataOffset : Nat
  dataOffset : Nat
  chunkSize : Nat
  chunkIndex : Nat
  done : List Chunk
  cur : Chunk

/-- compress.database.impl.h:1016-1058: body of the inner loop of the first pass. -/
def bulkStep (maxChunkSize : Nat) (st : BulkState) (it : Item E) : Option BulkState := do
  let newChunkSize := st.chunkSize + it.size + simdPadding + segHeaderSize
  let st : BulkState := if newChunkSize ≥ maxChunkSize then
      { done := st.done ++ [{ st.cur with size := maxChunkSize }]
        bulkDataOffset := st.bulkDataOffset + maxChunkSize
        dataOffset := 0
        chunkSize := chunkHeaderSize
        chunkIndex := st.chunkIndex + 1
        cur := ⟨st.bulkDataOffset + maxChunkSize, st.chunkIndex + 1, 0, []⟩ }
    else st
  let indices ← sampleIndices it.frames [0#32]
  some { st with
    cur := { st.cur with segs := st.cur.segs ++
      [⟨it.hash, indices, st.dataOffset, it.clipHeaderOffset, it.segmentHeaderOffset⟩] }
    chunkSize := st.chunkSize + (it.size + segHeaderSize)
    dataOffset := st.dataOffset + it.size }

/-- compress.database.impl.h:1000-1064: the first pass. -/
def bulkPass1 (maxChunkSize : Nat) : List (Item E) → BulkState → Option BulkState
  | [], st => some st
  | it :: items, st => do bulkPass1 maxChunkSize items (← bulkStep maxChunkSize st it)

/-- The chunk header found at an address; none was written anywhere else. -/
def chunkAt (chunks : List Chunk) (p : Nat) : Option Nat := chunks.findIdx? (fun ch => ch.offset == p)

/-- compress.database.impl.h:885-898 `write_tier_segment_data` at byte `offset` of the bulk data. -/
def writeTierSegmentData (source : List (BitVec 8)) (offset : Nat) :
    List (Frame E) → Nat → List (BitVec 8) → Option (List (BitVec 8))
  | [], _, buf => some buf
  | f :: rest, written, buf => do
    let buf ← memcpyBits buf (offset * 8 + written) source (f.segmentFrameIndex * f.frameBitSize) f.frameBitSize
    writeTierSegmentData source offset rest (written + f.frameBitSize) buf

/-- Locals of the second pass (1083-1087): address of the chunk header, index in its segments. -/
structure WriteState where
  chunkAddress : Nat
  chunkSegmentIndex : Nat
  chunks : List Chunk
  buf : List (BitVec 8)

/-- compress.database.impl.h:1096-1121: body of the inner loop of the second pass. -/
def writeStep (st : WriteState) (it : Item E) : Option WriteState := do
  let i ← chunkAt st.chunks st.chunkAddress
  let ch ← st.chunks[i]?
  let p := if st.chunkSegmentIndex ≥ ch.segs.length then st.chunkAddress + ch.size else st.chunkAddress
  let k := if st.chunkSegmentIndex ≥ ch.segs.length then 0 else st.chunkSegmentIndex
  let i ← chunkAt st.chunks p
  let ch ← st.chunks[i]?
  let h ← ch.segs[k]?
  let offset := p + (chunkHeaderSize + ch.segs.length * segHeaderSize) + h.samplesOffset
  let chunks := st.chunks.set i { ch with segs := ch.segs.set k { h with samplesOffset := offset } }
  let buf ← writeTierSegmentData it.source offset it.frames 0 st.buf
  some ⟨p, k + 1, chunks, buf⟩

/-- compress.database.impl.h:1088-1124: the second pass. -/
def bulkPass2 : List (Item E) → WriteState → Option WriteState
  | [], st => some st
  | it :: items, st => do bulkPass2 items (← writeStep st it)

/-- compress.database.impl.h:1066-1080: the chunks and the size of the bulk data after the first pass. -/
def finishChunks (st : BulkState) : List Chunk × Nat :=
  if st.chunkSize ≠ chunkHeaderSize then
    (st.done ++ [{ st.cur with size := st.chunkSize + simdPadding }], st.bulkDataOffset + (st.chunkSize + simdPadding))
  else (st.done ++ [st.cur], st.bulkDataOffset)

/-- The bulk data of a tier: the headers and all the bytes. -/
structure Bulk where
  chunks : List Chunk
  size : Nat
  bytes : List (BitVec 8)

/-- compress.database.impl.h:967-1128 `write_database_bulk_data`. The buffer was zeroed (1163); it is
`size` bytes long, the size being what the first call (without a buffer) returned. -/
def bulkData (tier : List (Frame E)) (clips : List DbClip) (maxChunkSize : Nat) : Option Bulk := do
  if tier.isEmpty then some ⟨[], 0, []⟩
  else
    let items := clipItems tier clips 0 0
    let st ← bulkPass1 maxChunkSize items ⟨0, 0, chunkHeaderSize, 0, [], ⟨0, 0, 0, []⟩⟩
    let (chunks, size) := finishChunks st
    let w ← bulkPass2 items ⟨0, 0, chunks, List.replicate size 0#8⟩
    some ⟨w.chunks, size, w.buf⟩

end Acl.Chunks
