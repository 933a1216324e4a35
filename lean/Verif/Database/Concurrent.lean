import Verif.Database.Build
/-
What another thread sees of the runtime headers while chunks are registered or unregistered: every `tier_metadata[t].store` is
atomic, so it sees the headers between two stores.
/repo/includes/acl/decompression/database/impl/database_streamer.impl.h:94-114
/repo/includes/acl/decompression/database/impl/database.impl.h:611-634
-/
namespace Acl.DbBuild
open Acl.Runtime

/-- database_streamer.impl.h:96-113 (`add`), database.impl.h:612-633: the runtime headers before the first store of a chunk, after
it, and so on up to the last one. An assert that fails is not modelled here. -/
def chunkMoments (db : List (BitVec 8)) (e : Event) (headers : List (BitVec 8)) : List (List (BitVec 8)) :=
  (((DbBuffer.getChunkDescription db (tierOf e.tier) e.chunk).bind fun d =>
    (load32 e.memory (d.2.toNat + 8)).map fun n =>
      (List.range (n.toNat + 1)).filterMap fun j => updateSegs false e.add e.tier e.memory j (d.2.toNat + 12) headers).getD [])

/-- The chunks of a request, one after the other. -/
def eventMoments (db : List (BitVec 8)) : List Event → List (BitVec 8) → List (List (BitVec 8))
  | [], _ => []
  | e :: rest, headers => chunkMoments db e headers ++ ((applyEvents false db [e] headers).map (eventMoments db rest)).getD []

end Acl.DbBuild
