import Verif.Context.Model
import Verif.Database.Chunks
/-
The runtime headers of a database context.
/repo/includes/acl/decompression/database/impl/database.impl.h:40-66, 149-160 (initialize) and the tier metadata written
when chunks are streamed in and out (database_streamer.impl.h); layout: compressed_headers.h:398-440.
-/
namespace Acl.Context
open Acl.Chunks (DbClip clipMetadata)

/-- database.impl.h:61-62: the size of the runtime headers (the bitsets before them are not part of this list of bytes) -/
def runtimeSize (clips : List DbClip) : Nat := 8 * clips.length + 16 * (clips.map (·.numSegments)).sum

/-- database.impl.h:150-158: the hash of each clip goes to its runtime header -/
def writeHashes : List (BitVec 32 × Nat) → Bytes → Option Bytes
  | [], m => some m
  | (h, o) :: rest, m => do
    let m ← store m o (bytesLE h)
    writeHashes rest m

/-- The runtime headers of a context just initialized: zeros (memset) and the hashes -/
def initHeaders (clips : List DbClip) : Option Bytes :=
  writeHashes (clipMetadata clips 0) (List.replicate (runtimeSize clips) 0#8)

/-- A store to tier_metadata[tier] of segment `segment` of the clip whose runtime header is at `clip` -/
structure TierWrite where
  clip : Nat
  segment : Nat
  tier : Nat
  value : BitVec 64

def TierWrite.at (x : TierWrite) : Nat := x.clip + 8 + 16 * x.segment + 8 * x.tier

/-- `tier_metadata[tier].store(value)` -/
def writeTiers : List TierWrite → Bytes → Option Bytes
  | [], m => some m
  | x :: rest, m => do
    let m ← store m x.at (bytesLE x.value)
    writeTiers rest m

end Acl.Context
