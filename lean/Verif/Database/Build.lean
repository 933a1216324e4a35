import Verif.Database.Rewrite
import Verif.Database.Runtime
import Verif.Database.Buffer
import Verif.Transform.ClipWriter
/-
Model of build_database as a whole: from compressed clips to clips bound to a database and the database.
/repo/includes/acl/compression/impl/compress.database.impl.h:86-115, 1130-1245, 1250-1328
and of the part of database_context::initialize that reads the database.
/repo/includes/acl/decompression/database/impl/database.impl.h:40-73, 100-207

Clips written by the current version of the library only. Null pointers are not modelled. `value` gives the value of the bits of
a float (the stripping errors are compared). The numbers of frames wanted in the low and medium tiers are given: the float
products of compress.database.impl.h:1304-1305 and the range checks of the proportions in compression_database_settings::is_valid
are not modelled.
-/
namespace Acl.DbBuild
open Acl.Headers Acl.Tiers Acl.Chunks Acl.Runtime Acl.Rewrite

variable {E : Type} [LinearOrder E] [OrderTop E] [Zero E]

/-- A loop which reads something for each element. -/
def each {α β : Type} (f : α → Option β) : List α → Option (List β)
  | [] => some []
  | a :: l => (f a).bind fun b => (each f l).map (b :: ·)

/-- compressed_headers.h:339-364 keyframe_stripping_metadata_t -/
def keyframeOf (value : BitVec 32 → E) (x : Meta.KeyframeError) : KeyframeMeta E :=
  ⟨x.keyframeIndex.toNat, x.segmentIndex.toNat, x.strippingIndex.toNat, value x.strippingError, x.isTrivial != 0⟩

/-- compress.database.impl.h:105-114, 262-290: what the assignment of the frames to the tiers reads of a clip. -/
def tierClip (value : BitVec 32 → E) (m : Bytes) : Option (Tiers.Clip E) :=
  (Transform.readSeekClip m).bind fun c =>
  (each (fun g => (Clip.segmentHeaderAt m g).bind fun p => (load32 m p).map BitVec.toNat) (List.range c.numSegments)).bind fun bits =>
  (each (fun i => (Meta.getContributingError m i).bind fun e => e.map (keyframeOf value)) (List.range c.numSamples)).map fun md =>
  ⟨c.numSamples, c.numSegments, c.startIndices, bits, md⟩

/-- compress.database.impl.h:285, 806-817, 1007-1060: what the chunks are built from: the hash and the number of segments of the
clip build_compressed_tracks wrote, the animated data of the clip it was given. -/
def dbClip (input output : Bytes) : Option DbClip :=
  (load32 output 4).bind fun hash =>
  (Clip.field output 0).map fun n =>
  ⟨hash, n, fun g => ((Clip.segmentDataAt input g).map fun d => input.drop d.2.2).getD []⟩

/-- compress.database.impl.h:1271-1294: may this clip be put in a database? -/
def accepts (m : Bytes) : Option Bool :=
  (tracksIsValid m true false).bind fun v =>
  if v ≠ .ok then some false
  else
    (Meta.loadTracksHeader m).bind fun h =>
    if getHasDatabase h.misc then some false
    else if getHasStrippedKeyframes h.misc then some false
    else if !getHasMetadata h.misc then some false
    else (Meta.metadataField m 4).map ptrOffsetIsValid

/-- compress.database.impl.h:1271: the loop over the clips, which stops at the first that is not accepted. -/
def acceptsAll : List Bytes → Option Bool
  | [] => some true
  | m :: rest => (accepts m).bind fun ok => if ok then acceptsAll rest else some false

/-- A chunk description as it is stored: compressed_headers.h:508-522 -/
def descWords (d : ChunkDesc) : BitVec 32 × BitVec 32 := (BitVec.ofNat 32 d.size, BitVec.ofNat 32 d.offset)

/-- What is in the database of these clips and tiers, compress.database.impl.h:1130-1143, 1210-1226. -/
def contentOf (medium low : List (Frame E)) (clips : List DbClip) (maxChunkSize : Nat) : Option DbBuffer.Content :=
  (bulkData medium clips maxChunkSize).bind fun bulk0 =>
  (bulkMemory bulk0).bind fun mem0 =>
  (bulkData low clips maxChunkSize).bind fun bulk1 =>
  (bulkMemory bulk1).map fun mem1 => {
    medium := (chunkDescriptions medium clips maxChunkSize).map descWords
    low := (chunkDescriptions low clips maxChunkSize).map descWords
    clips := (clipMetadata clips 0).map fun e => (e.1, BitVec.ofNat 32 e.2)
    numSegments := BitVec.ofNat 32 (clips.map (·.numSegments)).sum
    maxChunkSize := BitVec.ofNat 32 maxChunkSize
    bulkMedium := mem0
    bulkLow := mem1 }

/-- compress.database.impl.h:1297-1325, before the buffer of the database is allocated: the new clips and what goes in the
database. `sort` is std::sort of the frames of a tier. -/
def buildContent (value : BitVec 32 → E) (sort : List (Frame E) → List (Frame E)) (wantLow wantMedium maxChunkSize : Nat) (inputs : List Bytes) :
    Option (List Bytes × DbBuffer.Content) :=
  (each (tierClip value) inputs).bind fun clips =>
  (assignTiers clips wantLow wantMedium).bind fun t =>
  (rewriteClips (sort t.2.2) inputs 0 0).bind fun outputs =>
  (each (fun p => dbClip p.1 p.2) (inputs.zip outputs)).bind fun dbClips =>
  (contentOf (sort t.2.1) (sort t.1) dbClips maxChunkSize).map fun content => (outputs, content)

/-- compress.database.impl.h:1250-1328 build_database: `some none` when it returns an error. -/
def buildDatabase (value : BitVec 32 → E) (sort : List (Frame E) → List (Frame E)) (wantLow wantMedium maxChunkSize : Nat) (inputs : List Bytes) :
    Option (Option (List Bytes × Bytes)) :=
  if maxChunkSize < 4096 ∨ maxChunkSize % 4096 ≠ 0 then some none
  else if inputs = [] then some none
  else
    (acceptsAll inputs).bind fun ok =>
    if !ok then some none
    else
      (each (tierClip value) inputs).bind fun clips =>
      if numFrames clips = 0 then some none
      else
        (buildContent value sort wantLow wantMedium maxChunkSize inputs).bind fun r =>
        (DbBuffer.build r.2).map fun db => some (r.1, db)

/-! ### The database context -/

/-- database.impl.h:61-62, 150-158: the runtime headers when the context is initialized -/
def openHeaders (db : Bytes) : Option Bytes :=
  (DbBuffer.getNumClips db).bind fun numClips =>
  (DbBuffer.getNumSegments db).bind fun numSegments =>
  (each (DbBuffer.getClipMetadata db) (List.range numClips.toNat)).bind fun entries =>
  Context.writeHashes (entries.map fun e => (e.1, e.2.toNat)) (List.replicate (8 * numClips.toNat + 16 * numSegments.toNat) 0#8)

/-- The tiers of a database in the order of the code: 0 is medium, 1 is low. -/
def tierOf (t : Nat) : Streaming.Tier := if t = 0 then .medium else .lowest

/-- database_header::get_chunk_descriptions_medium, get_chunk_descriptions_low -/
def readDescs (db : Bytes) (t : Nat) : Option (List ChunkDesc) :=
  (DbBuffer.getNumChunks db (tierOf t)).bind fun n =>
  (each (DbBuffer.getChunkDescription db (tierOf t)) (List.range n.toNat)).map fun l => l.map fun e => ⟨e.1.toNat, e.2.toNat⟩

/-- The runtime headers of a context of this database after chunks are registered (streamed in) and unregistered (streamed
out), see `Runtime.updateSegs` for `checks`. -/
def applyEvents (checks : Bool) (db : Bytes) (events : List Event) (headers : Bytes) : Option Bytes :=
  (readDescs db 0).bind fun d0 => (readDescs db 1).bind fun d1 => runEvents checks (fun t => if t = 0 then d0 else d1) events headers

/-- The runtime headers of a context of this database after a history of chunks registered and unregistered. -/
def streamed (checks : Bool) (db : Bytes) (events : List Event) : Option Bytes := (openHeaders db).bind (applyEvents checks db events)

/-- database.impl.h:100-207: the history of a context initialized from a database with its bulk data inline: every chunk is
registered, those of the medium tier first. The memory of a tier is the database from its bulk data on. -/
def inlineEvents (db : Bytes) : Option (List Event) :=
  (DbBuffer.getNumChunks db .medium).bind fun n0 => (DbBuffer.getNumChunks db .lowest).bind fun n1 =>
  (DbBuffer.getBulkData db .medium).bind fun p0 => (DbBuffer.getBulkData db .lowest).map fun p1 =>
  (List.range n0.toNat).map (fun i => ⟨true, 0, i, (p0.map db.drop).getD []⟩) ++
    (List.range n1.toNat).map (fun i => ⟨true, 1, i, (p1.map db.drop).getD []⟩)

end Acl.DbBuild
