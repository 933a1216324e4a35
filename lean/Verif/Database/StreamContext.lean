import Verif.Database.Concurrent
import Verif.Database.Streaming
/-
A database context with streamers: the bookkeeping of the chunks (Streaming.lean) together with what the decoder reads, the
runtime headers of the clips and the bulk data of the tiers.
/repo/includes/acl/decompression/database/impl/database.impl.h:209-290 (initialize), 446-640 (stream_in, stream_out)
/repo/includes/acl/decompression/database/impl/database_streamer.impl.h:59-200 (execute_request, complete, cancel)

The bulk data of a tier is memory the streamer owns: it may change at any time (`DbOp.write`). The context takes its address
when the first chunks have been streamed in (database_streamer.impl.h:80-87), and drops it when the last ones are streamed out
(database.impl.h:604-608): `TierState.bulk` of Streaming.lean.
-/
namespace Acl.DbStream
open Acl.Streaming Acl.Runtime Acl.DbBuild

/-- A database context with streamers. -/
structure DbState where
  /-- the bit sets, the requests -/
  book : Streaming.State
  /-- clip_segment_headers -/
  headers : List (BitVec 8)
  /-- the memory of the streamer of tier `t` (0 medium, 1 low) -/
  memory : Nat → List (BitVec 8)

/-- The calls of the user and of the streamers, and the streamer which writes in the memory of a tier: it allocates it, frees it,
or copies data in it. -/
inductive DbOp where
  | call (op : Streaming.Op)
  | write (t : Nat) (memory : List (BitVec 8))

/-- The constant data of the context; `streamerOf` says which streamer a tier has. -/
def cfgOf (db : List (BitVec 8)) (streamerOf : Tier → Nat) : Cfg where
  numChunks t := ((DbBuffer.getNumChunks db t).map BitVec.toNat).getD 0
  streamerOf := streamerOf

/-- `uint32_t(tier) - 1`; the highest tier is never streamed. -/
def tierIndex : Tier → Nat
  | .highest => 2
  | .medium => 0
  | .lowest => 1

/-- What the streamer is told (database_streamer.h:131, 146): a range of bytes of the bulk data of a tier to stream in or out,
whether it can allocate (free) the bulk data, and the identifier of the request. -/
structure Sent where
  action : Action
  tier : Tier
  offset : Nat
  size : Nat
  flag : Bool
  id : Nat
  deriving DecidableEq, Repr

/-- database.impl.h:505-526 (stream_in), 586-593, 636 (stream_out): the range of bytes of the chunks, on 32 bits. -/
def sentOf (db : List (BitVec 8)) (d : Dispatch) : Option Sent := do
  let first ← DbBuffer.getChunkDescription db d.tier d.first
  let last ← DbBuffer.getChunkDescription db d.tier (d.first + d.count - 1)
  let max ← DbBuffer.getMaxChunkSize db
  some ⟨d.action, d.tier, first.2.toNat, ((BitVec.ofNat 32 d.count - 1#32) * max + last.1).toNat, d.bulkFlag, d.id⟩

/-- database_streamer.impl.h:97-121, database.impl.h:611-634: the chunks of a request, one after the other. -/
def chunkEvents (add : Bool) (t first count : Nat) (memory : List (BitVec 8)) : List Runtime.Event :=
  (List.range count).map fun j => ⟨add, t, first + j, memory⟩

/-- database_streamer.impl.h:150-166 (and 176-190): the request that `complete` and `cancel` find for an identifier. -/
def requestOf (s : Streaming.State) (k id : Nat) : Option Request :=
  ((s.streamer k).requests[id % 2 ^ 32]?).bind fun r =>
    if r.tier = .highest then none else if r.gen ≠ id / 2 ^ 32 % 2 ^ 32 then none else some r

/-- database.impl.h:209-290: a context is initialized. -/
def dbInit (db : List (BitVec 8)) (streamerOf : Tier → Nat) (requests : Nat → List Request) (memory : Nat → List (BitVec 8)) : Option DbState :=
  (openHeaders db).map fun h => ⟨Streaming.init (cfgOf db streamerOf) requests, h, memory⟩

/-- What a call does to the runtime headers: stream_out unregisters the chunks it is about to stream out (database.impl.h:611-634),
`complete` registers the chunks that have been streamed in (database_streamer.impl.h:89-121). With `checks` (the asserts compiled
in) a request to stream out cannot be cancelled (database_streamer.impl.h:131). -/
def headersAfter (checks : Bool) (db : List (BitVec 8)) (s : DbState) (op : Streaming.Op) (out : Option (Result × Option Dispatch)) :
    Option (List (BitVec 8)) :=
  match op with
  | .streamIn _ _ => some s.headers
  | .streamOut _ _ =>
    match out with
    | some (_, some d) => applyEvents checks db (chunkEvents false (tierIndex d.tier) d.first d.count (s.memory (tierIndex d.tier))) s.headers
    | _ => some s.headers
  | .complete k id =>
    match requestOf s.book k id with
    | some r =>
      if r.action = .streamIn then applyEvents checks db (chunkEvents true (tierIndex r.tier) r.first r.count (s.memory (tierIndex r.tier))) s.headers
      else some s.headers
    | none => some s.headers
  | .cancel k id =>
    match requestOf s.book k id with
    | some r => if checks && r.action == .streamOut then none else some s.headers
    | none => some s.headers

/-- The chunks a call registers or unregisters, in the order in which it does: see `headersAfter`. -/
def opEvents (s : DbState) (op : Streaming.Op) (out : Option (Result × Option Dispatch)) : List Runtime.Event :=
  match op with
  | .streamOut _ _ =>
    match out with
    | some (_, some d) => chunkEvents false (tierIndex d.tier) d.first d.count (s.memory (tierIndex d.tier))
    | _ => []
  | .complete k id =>
    match requestOf s.book k id with
    | some r => if r.action = .streamIn then chunkEvents true (tierIndex r.tier) r.first r.count (s.memory (tierIndex r.tier)) else []
    | none => []
  | _ => []

/-- What is sent to the streamer. -/
def sentAfter (db : List (BitVec 8)) : Option (Result × Option Dispatch) → Option (Option Sent)
  | some (_, some d) => (sentOf db d).map some
  | _ => some none

/-- One operation: the state after it, and what is sent to a streamer. -/
def dbStep (checks : Bool) (db : List (BitVec 8)) (cfg : Cfg) (s : DbState) : DbOp → Option (DbState × Option Sent)
  | .write t memory => some ({ s with memory := fun u => if u = t then memory else s.memory u }, none)
  | .call op =>
    (Streaming.step cfg s.book op).bind fun x =>
    (headersAfter checks db s op x.2).bind fun headers =>
    (sentAfter db x.2).map fun m => ({ s with book := x.1, headers := headers }, m)

/-- A history. -/
def dbRun (checks : Bool) (db : List (BitVec 8)) (cfg : Cfg) : DbState → List DbOp → Option DbState
  | s, [] => some s
  | s, op :: ops => (dbStep checks db cfg s op).bind fun x => dbRun checks db cfg x.1 ops

/-- The bulk data of a tier as the decoder sees it. -/
def bulkData (s : DbState) (t : Nat) : Option (List (BitVec 8)) :=
  if (s.book.tier (tierOf t)).bulk then some (s.memory t) else none

/-- What other threads see of a context: the runtime headers, which `bulk_data` pointers are set, and the memory of the streamers. -/
structure Shared where
  headers : List (BitVec 8)
  pointer : Nat → Bool
  memory : Nat → List (BitVec 8)

def sharedOf (s : DbState) : Shared := ⟨s.headers, fun t => (s.book.tier (tierOf t)).bulk, s.memory⟩

/-- What other threads see during an operation from `s` to `s'`, in order: the bulk data pointer is set before the first chunk is
registered (database_streamer.impl.h:76-86; in stream_out it is dropped before the first one is unregistered, database.impl.h:604-608),
then the metadata is stored word after word (database_streamer.impl.h:96-114). The last one is the state after the operation. The bit
sets and the requests are private to the context and its streamers. -/
def moments (db : List (BitVec 8)) (cfg : Cfg) (s s' : DbState) : DbOp → List Shared
  | .write _ _ => [sharedOf s']
  | .call op =>
    (eventMoments db (opEvents s op ((Streaming.step cfg s.book op).bind fun x => x.2)) s.headers).map
      (fun h => ⟨h, (sharedOf s').pointer, s.memory⟩) ++ [sharedOf s']

/-- What other threads see during a history that begins in `s`. -/
def trace (checks : Bool) (db : List (BitVec 8)) (cfg : Cfg) : DbState → List DbOp → List Shared
  | s, [] => [sharedOf s]
  | s, op :: ops => sharedOf s :: ((dbStep checks db cfg s op).map fun x => moments db cfg s x.1 op ++ trace checks db cfg x.1 ops).getD []

end Acl.DbStream
