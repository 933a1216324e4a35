import Verif.Layout.Bytes
import Verif.Layout.Headers
import Verif.Database.Streaming
/-
Model of the buffer of a compressed database: how it is built, its accessors, `split_database_bulk_data`
and `strip_database_quality_tier`.
/repo/includes/acl/compression/impl/compress.database.impl.h:1130-1245, 1330-1525
/repo/includes/acl/core/impl/compressed_database.impl.h
/repo/includes/acl/core/impl/compressed_headers.h:508-604

A buffer is the list of its bytes, 16 byte aligned in memory. Sizes and offsets are computed on natural
numbers and stored in 32 bits; the properties assume buffers smaller than 4 GB. `none` is undefined
behaviour (access out of bounds or through a null pointer).
-/
namespace Acl.DbBuffer
open Acl Acl.Headers Acl.Streaming

abbrev Bytes := List (BitVec 8)

/-- compressed_headers.h:541-574 `database_header`. Index 0 is the medium tier, 1 the lowest. -/
structure DbHeader where
  tag : BitVec 32
  version : BitVec 16
  misc : BitVec 16
  numChunks0 : BitVec 32
  numChunks1 : BitVec 32
  maxChunkSize : BitVec 32
  numClips : BitVec 32
  numSegments : BitVec 32
  clipMetadataOffset : BitVec 32
  bulkSize0 : BitVec 32
  bulkSize1 : BitVec 32
  bulkOffset0 : BitVec 32
  bulkOffset1 : BitVec 32
  bulkHash0 : BitVec 32
  bulkHash1 : BitVec 32

/-- The object representation of the header: 56 bytes, no padding. -/
def DbHeader.bytes (h : DbHeader) : Bytes :=
  bytesLE h.tag ++ (bytesLE h.version ++ (bytesLE h.misc ++ (bytesLE h.numChunks0 ++ (bytesLE h.numChunks1 ++
  (bytesLE h.maxChunkSize ++ (bytesLE h.numClips ++ (bytesLE h.numSegments ++ (bytesLE h.clipMetadataOffset ++
  (bytesLE h.bulkSize0 ++ (bytesLE h.bulkSize1 ++ (bytesLE h.bulkOffset0 ++ (bytesLE h.bulkOffset1 ++
  (bytesLE h.bulkHash0 ++ bytesLE h.bulkHash1)))))))))))))

/-- Reading all the fields of the header at byte `p`. -/
def loadHeader (m : Bytes) (p : Nat) : Option DbHeader := do
  some {
    tag := ← load32 m p
    version := ← load16 m (p + 4)
    misc := ← load16 m (p + 6)
    numChunks0 := ← load32 m (p + 8)
    numChunks1 := ← load32 m (p + 12)
    maxChunkSize := ← load32 m (p + 16)
    numClips := ← load32 m (p + 20)
    numSegments := ← load32 m (p + 24)
    clipMetadataOffset := ← load32 m (p + 28)
    bulkSize0 := ← load32 m (p + 32)
    bulkSize1 := ← load32 m (p + 36)
    bulkOffset0 := ← load32 m (p + 40)
    bulkOffset1 := ← load32 m (p + 44)
    bulkHash0 := ← load32 m (p + 48)
    bulkHash1 := ← load32 m (p + 52) }

/-- compressed_headers.h:51-62 `sizeof(raw_buffer_header)`; the database header follows. -/
def rawHeaderSize : Nat := 8
/-- `sizeof(database_header)`. -/
def dbHeaderSize : Nat := 56
/-- `sizeof(database_chunk_description)` and `sizeof(database_clip_metadata)`. -/
def entrySize : Nat := 8

/-- Two 32 bit words per entry: `database_chunk_description` (508-522: size, offset) and
`database_clip_metadata` (524-538: clip hash, runtime header offset). -/
def entryBytes : List (BitVec 32 × BitVec 32) → Bytes
  | [] => []
  | e :: rest => bytesLE e.1 ++ (bytesLE e.2 ++ entryBytes rest)

/-- compressed_headers.h:592: offset of the medium chunk descriptions from the header. -/
def descsMediumOffset : Nat := alignUp dbHeaderSize 4
/-- compressed_headers.h:596: offset of the low chunk descriptions from the header. -/
def descsLowOffset (h : DbHeader) : Nat := alignUp (alignUp dbHeaderSize 4 + h.numChunks0.toNat * entrySize) 4

/-! ### Accessors of `compressed_database` -/

/-- compressed_database.impl.h:42-45 `get_database_header`. -/
def header (m : Bytes) : Option DbHeader := loadHeader m rawHeaderSize

/-- compressed_database.impl.h:48-55 `get_total_size`. -/
def getTotalSize (m : Bytes) : Option (BitVec 32) := do
  let h ← header m
  let size ← load32 m 0
  if getIsBulkDataInline h.misc then some size else some (size + h.bulkSize0 + h.bulkSize1)

/-- compressed_database.impl.h:57-66 `get_bulk_data_size`. -/
def getBulkDataSize (m : Bytes) : Tier → Option (BitVec 32)
  | .highest => some 0
  | .medium => do some (← header m).bulkSize0
  | .lowest => do some (← header m).bulkSize1

/-- compressed_database.impl.h:68-77 `has_bulk_data`. -/
def hasBulkData (m : Bytes) : Tier → Option Bool
  | .highest => some false
  | t => do some ((← getBulkDataSize m t) != 0)

/-- compressed_database.impl.h:79-88 `get_bulk_data_hash`. -/
def getBulkDataHash (m : Bytes) : Tier → Option (BitVec 32)
  | .highest => some 0
  | .medium => do some (← header m).bulkHash0
  | .lowest => do some (← header m).bulkHash1

/-- compressed_database.impl.h:94-103 `get_num_chunks`. -/
def getNumChunks (m : Bytes) : Tier → Option (BitVec 32)
  | .highest => some 0
  | .medium => do some (← header m).numChunks0
  | .lowest => do some (← header m).numChunks1

/-- compressed_database.impl.h:105-111 -/
def getMaxChunkSize (m : Bytes) : Option (BitVec 32) := do some (← header m).maxChunkSize
def getNumClips (m : Bytes) : Option (BitVec 32) := do some (← header m).numClips
def getNumSegments (m : Bytes) : Option (BitVec 32) := do some (← header m).numSegments
def isBulkDataInline (m : Bytes) : Option Bool := do some (getIsBulkDataInline (← header m).misc)

/-- ptr_offset.h:102-112 `safe_add_to` the header: `none` is the null pointer, `some p` byte `p` of the
buffer. -/
def safeAddTo (o : BitVec 32) : Option Nat :=
  if o = 0xFFFFFFFF#32 then none else some (rawHeaderSize + o.toNat)

/-- compressed_database.impl.h:113-122 `get_bulk_data`. -/
def getBulkData (m : Bytes) : Tier → Option (Option Nat)
  | .highest => some none
  | .medium => do some (safeAddTo (← header m).bulkOffset0)
  | .lowest => do some (safeAddTo (← header m).bulkOffset1)

/-- compressed_headers.h:592-597, entry `i` of the chunk descriptions of a tier: size and offset. -/
def getChunkDescription (m : Bytes) (t : Tier) (i : Nat) : Option (BitVec 32 × BitVec 32) := do
  let h ← header m
  let p := rawHeaderSize + (if t = .medium then descsMediumOffset else descsLowOffset h) + i * entrySize
  some (← load32 m p, ← load32 m (p + 4))

/-- compressed_headers.h:599, entry `i` of the clip metadata: hash and runtime header offset. -/
def getClipMetadata (m : Bytes) (i : Nat) : Option (BitVec 32 × BitVec 32) := do
  let h ← header m
  let p := rawHeaderSize + h.clipMetadataOffset.toNat + i * entrySize
  some (← load32 m p, ← load32 m (p + 4))

/-- compressed_database.impl.h:132-137: loop over the clips. -/
def findClip (m : Bytes) (clipHash : BitVec 32) : Nat → Nat → Option Bool
  | 0, _ => some false
  | k+1, i => do
    let e ← getClipMetadata m i
    if e.1 == clipHash then some true else findClip m clipHash k (i + 1)

/-- compressed_database.impl.h:124-140 `contains`, of tracks bound to a database with this hash. -/
def contains (m : Bytes) (tracksHasDatabase : Bool) (clipHash : BitVec 32) : Option Bool := do
  if !tracksHasDatabase then some false
  else findClip m clipHash (← getNumClips m).toNat 0

/-! ### Building a database -/

/-- What goes into a database: the chunk descriptions, clip metadata and bulk data C23 is about. -/
structure Content where
  medium : List (BitVec 32 × BitVec 32)
  low : List (BitVec 32 × BitVec 32)
  clips : List (BitVec 32 × BitVec 32)
  numSegments : BitVec 32
  maxChunkSize : BitVec 32
  bulkMedium : Bytes
  bulkLow : Bytes

/-- `write_database_bulk_data` and `std::memcpy` through a pointer that may be null when there is nothing
to write. -/
def storeAt (m : Bytes) (p : Option Nat) (bs : Bytes) : Option Bytes :=
  if bs.isEmpty then some m else do store m (← p) bs

/-- `hash32(pointer, size)`. -/
def hashAt (m : Bytes) (p : Option Nat) (n : Nat) : Option (BitVec 32) :=
  if n = 0 then some (hash32 []) else do some (hash32 (← loadBytes m (← p) n))

/-- Stores `raw_buffer_header` (size, hash of everything after it) at the start of the buffer.
compress.database.impl.h:1239-1240, 1359-1360, 1496-1497. -/
def finishBuffer (m : Bytes) (size : Nat) : Option Bytes := do
  let data ← loadBytes m rawHeaderSize (size - rawHeaderSize)
  store m 0 (bytesLE (BitVec.ofNat 32 size) ++ bytesLE (hash32 data))

/-- The offsets of the clip metadata, of the bulk data of both tiers and of the end, in a buffer with so
many entries and bytes of bulk data. compress.database.impl.h:1145-1161 and 1191-1208; 1417-1434 and
1453-1471. -/
def layout (numMedium numLow numClips mediumSize lowSize : Nat) : Nat × Nat × Nat × Nat :=
  let p := alignUp (rawHeaderSize + dbHeaderSize) 4 + numMedium * entrySize
  let p := alignUp p 4 + numLow * entrySize
  let clips := alignUp p 4
  let p := clips + numClips * entrySize
  let medium := alignUp p 16
  let low := medium + mediumSize
  (clips, medium, low, low + lowSize)

/-- The offset from the header, or the invalid offset. -/
def offsetIf (nonEmpty : Bool) (p : Nat) : BitVec 32 :=
  if nonEmpty then BitVec.ofNat 32 (p - rawHeaderSize) else 0xFFFFFFFF#32

/-- compress.database.impl.h:1130-1245 `build_compressed_database`. The header fields are stored in one
step. -/
def build (c : Content) : Option Bytes := do
  let mediumSize := alignUp c.bulkMedium.length 16
  let lowSize := c.bulkLow.length
  let (clips, medium, low, size) := layout c.medium.length c.low.length c.clips.length mediumSize lowSize
  let m := List.replicate size 0#8
  let h : DbHeader := {
    tag := 0xac11db01#32
    version := 10
    numChunks0 := BitVec.ofNat 32 c.medium.length
    numChunks1 := BitVec.ofNat 32 c.low.length
    maxChunkSize := c.maxChunkSize
    numClips := BitVec.ofNat 32 c.clips.length
    numSegments := c.numSegments
    bulkSize0 := BitVec.ofNat 32 mediumSize
    bulkSize1 := BitVec.ofNat 32 lowSize
    misc := setIsBulkDataInline 0 true
    clipMetadataOffset := BitVec.ofNat 32 (clips - rawHeaderSize)
    bulkOffset0 := offsetIf (mediumSize != 0) medium
    bulkOffset1 := offsetIf (lowSize != 0) low
    bulkHash0 := 0
    bulkHash1 := 0 }
  let m ← store m rawHeaderSize h.bytes
  let m ← store m (rawHeaderSize + descsMediumOffset) (entryBytes c.medium)
  let m ← store m (rawHeaderSize + descsLowOffset h) (entryBytes c.low)
  let m ← store m (rawHeaderSize + h.clipMetadataOffset.toNat) (entryBytes c.clips)
  let m ← storeAt m (safeAddTo h.bulkOffset0) c.bulkMedium
  let hash0 ← hashAt m (safeAddTo h.bulkOffset0) mediumSize
  let m ← storeAt m (safeAddTo h.bulkOffset1) c.bulkLow
  let hash1 ← hashAt m (safeAddTo h.bulkOffset1) lowSize
  let m ← store m rawHeaderSize { h with bulkHash0 := hash0, bulkHash1 := hash1 }.bytes
  finishBuffer m size

/-! ### Splitting and stripping -/

/-- `memcpy` out of the buffer through a pointer that may be null when there is nothing to copy. -/
def copyOut (m : Bytes) (p : Option Nat) (n : Nat) : Option Bytes :=
  if n = 0 then some [] else do loadBytes m (← p) n

/-- compress.database.impl.h:1330-1386 `split_database_bulk_data`. `some none` is an error result;
otherwise the new database and the bulk data of the medium and low tiers. -/
def split (m : Bytes) : Option (Option (Bytes × Bytes × Bytes)) := do
  let valid ← databaseIsValid m true true
  if valid ≠ .ok then some none
  else
    let isInline ← isBulkDataInline m
    if !isInline then some none
    else
      let total ← getTotalSize m
      let mediumSize ← getBulkDataSize m .medium
      let lowSize ← getBulkDataSize m .lowest
      let dbSize := (total - mediumSize - lowSize).toNat
      let db ← loadBytes m 0 dbSize
      let h ← header db
      let db ← store db rawHeaderSize
        { h with bulkOffset0 := 0xFFFFFFFF#32, bulkOffset1 := 0xFFFFFFFF#32, misc := setIsBulkDataInline h.misc false }.bytes
      let db ← finishBuffer db dbSize
      let medium ← copyOut m (← getBulkData m .medium) mediumSize.toNat
      let low ← copyOut m (← getBulkData m .lowest) lowSize.toNat
      some (some (db, medium, low))

/-- compress.database.impl.h:1388-1519 `strip_database_quality_tier`. -/
def strip (m : Bytes) (t : Tier) : Option (Option Bytes) := do
  let valid ← databaseIsValid m true true
  if valid ≠ .ok then some none
  else if t = .highest then some none
  else
    let has ← hasBulkData m t
    if !has then some none
    else
      let isInline ← isBulkDataInline m
      let ref ← header m
      let numMedium := if t ≠ .medium then ref.numChunks0.toNat else 0
      let numLow := if t ≠ .lowest then ref.numChunks1.toNat else 0
      let numClips := ref.numClips.toNat
      let mediumSize := if t ≠ .medium then ref.bulkSize0.toNat else 0
      let lowSize := if t ≠ .lowest then ref.bulkSize1.toNat else 0
      let (clips, medium, low, size) := layout numMedium numLow numClips mediumSize lowSize
      let db := List.replicate size 0#8
      let h := { ref with
        clipMetadataOffset := BitVec.ofNat 32 (clips - rawHeaderSize)
        bulkOffset0 := offsetIf (mediumSize != 0) medium
        bulkOffset1 := offsetIf (lowSize != 0) low }
      let h := if t = .medium then
          { h with numChunks0 := 0, bulkSize0 := 0, bulkOffset0 := 0xFFFFFFFF#32, bulkHash0 := hash32 [] }
        else { h with numChunks1 := 0, bulkSize1 := 0, bulkOffset1 := 0xFFFFFFFF#32, bulkHash1 := hash32 [] }
      let db ← store db rawHeaderSize h.bytes
      let db ← (if t ≠ .medium then do
          store db (rawHeaderSize + descsMediumOffset)
            (← loadBytes m (rawHeaderSize + descsMediumOffset) (numMedium * entrySize))
        else do
          store db (rawHeaderSize + descsLowOffset h)
            (← loadBytes m (rawHeaderSize + descsLowOffset ref) (numLow * entrySize)) : Option Bytes)
      let clipBytes ← loadBytes m (rawHeaderSize + ref.clipMetadataOffset.toNat) (numClips * entrySize)
      let db ← store db (rawHeaderSize + h.clipMetadataOffset.toNat) clipBytes
      let db ← (if isInline then
          (if t ≠ .medium then do
            storeAt db (safeAddTo h.bulkOffset0) (← copyOut m (← getBulkData m .medium) mediumSize)
          else do
            storeAt db (safeAddTo h.bulkOffset1) (← copyOut m (← getBulkData m .lowest) lowSize))
        else some db : Option Bytes)
      let db ← finishBuffer db size
      some (some db)

end Acl.DbBuffer
