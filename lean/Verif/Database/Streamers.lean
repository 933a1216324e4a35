import Verif.Database.StreamContext
/-
The streamers the library ships, and a database context that uses them.
/repo/includes/acl/decompression/database/null_database_streamer.h:47-99
/repo/includes/acl/decompression/database/impl/debug_database_streamer.h:46-123

Both complete a request before `stream_in` or `stream_out` of the streamer return, which is the last thing
`database_context::stream_in` and `stream_out` do (database.impl.h:526, 636). Each tier has its own streamer ("It cannot be
shared"). The asserts of the streamers on the range are always checked here: `none` is a failed assert, a write through a null
pointer, or a second allocation that would leak the first.
-/
namespace Acl.DbStream
open Acl.Streaming Acl.Runtime Acl.DbBuild

/-- The two streamers. -/
inductive StreamerKind where
  /-- null_database_streamer: the bulk data is in memory and stays there -/
  | null
  /-- debug_database_streamer: the bulk data is copied when it is streamed in and overwritten when it is streamed out -/
  | debug
  deriving DecidableEq

/-- The memory with `data` at `offset` (memcpy, memset). -/
def overwrite (memory : List (BitVec 8)) (offset : Nat) (data : List (BitVec 8)) : List (BitVec 8) :=
  memory.take offset ++ data ++ memory.drop (offset + data.length)

/-- The asserts on the range of a request: null_database_streamer.h:69-71, debug_database_streamer.h:77-79 -/
def inRange (source : List (BitVec 8)) (m : Sent) : Bool :=
  decide (m.offset < source.length) && decide (m.size ≤ source.length) && decide (m.offset + m.size ≤ source.length)

/-- debug_database_streamer.h:75-93 stream_in: whether the copy of the bulk data is allocated, and the copy -/
def debugStreamIn (source : List (BitVec 8)) (allocated : Bool) (memory : List (BitVec 8)) (m : Sent) : Option (Bool × List (BitVec 8)) :=
  if m.flag then
    if allocated then none
    else some (true, overwrite (List.replicate source.length 0xCD#8) m.offset ((source.drop m.offset).take m.size))
  else if allocated then some (true, overwrite memory m.offset ((source.drop m.offset).take m.size))
  else none

/-- debug_database_streamer.h:95-113 stream_out -/
def debugStreamOut (allocated : Bool) (memory : List (BitVec 8)) (m : Sent) : Option (Bool × List (BitVec 8)) :=
  if allocated then
    if m.flag then some (false, []) else some (true, overwrite memory m.offset (List.replicate m.size 0xCD#8))
  else none

/-- What a streamer does when it is told to stream in or out, before it calls `complete`. -/
def react (kind : StreamerKind) (source : List (BitVec 8)) (allocated : Bool) (memory : List (BitVec 8)) (m : Sent) : Option (Bool × List (BitVec 8)) :=
  if inRange source m then
    match kind with
    | .null => some (allocated, memory)
    | .debug => match m.action with
      | .streamIn => debugStreamIn source allocated memory m
      | .streamOut => debugStreamOut allocated memory m
  else none

/-- A context with streamers of the library. -/
structure LibState where
  db : DbState
  /-- m_streamed_bulk_data of the debug streamer of tier `t` is not null -/
  allocated : Nat → Bool

/-- What a user does. -/
inductive UserOp where
  | streamIn (t : Tier) (n : Nat)
  | streamOut (t : Tier) (n : Nat)

/-- The call of the user. -/
def UserOp.call : UserOp → Streaming.Op
  | .streamIn t n => .streamIn t n
  | .streamOut t n => .streamOut t n

/-- Medium and lowest tier have their own streamers. -/
def ownStreamer : Tier → Nat
  | .highest => 2
  | .medium => 0
  | .lowest => 1

/-- The streamer of the tier reacts to what it was sent and completes the request. -/
def serve (checks : Bool) (db : List (BitVec 8)) (kinds : Nat → StreamerKind) (bulk : Nat → List (BitVec 8)) (s : LibState) (m : Sent) : Option LibState :=
  (react (kinds (tierIndex m.tier)) (bulk (tierIndex m.tier)) (s.allocated (tierIndex m.tier)) (s.db.memory (tierIndex m.tier)) m).bind fun x =>
  (dbStep checks db (cfgOf db ownStreamer) s.db (.write (tierIndex m.tier) x.2)).bind fun s1 =>
  (dbStep checks db (cfgOf db ownStreamer) s1.1 (.call (.complete (ownStreamer m.tier) m.id))).map fun s2 =>
    ⟨s2.1, fun t => if t = tierIndex m.tier then x.1 else s.allocated t⟩

/-- One call of the user: database.impl.h:446-644 with the streamers. -/
def userStep (checks : Bool) (db : List (BitVec 8)) (kinds : Nat → StreamerKind) (bulk : Nat → List (BitVec 8)) (s : LibState) (op : UserOp) :
    Option LibState :=
  (dbStep checks db (cfgOf db ownStreamer) s.db (.call op.call)).bind fun x =>
  match x.2 with
  | none => some { s with db := x.1 }
  | some m => serve checks db kinds bulk { s with db := x.1 } m

/-- A history of a user. -/
def userRun (checks : Bool) (db : List (BitVec 8)) (kinds : Nat → StreamerKind) (bulk : Nat → List (BitVec 8)) : LibState → List UserOp → Option LibState
  | s, [] => some s
  | s, op :: ops => (userStep checks db kinds bulk s op).bind fun s => userRun checks db kinds bulk s ops

/-- What the call returns. -/
def resultOf (db : List (BitVec 8)) (s : LibState) (op : UserOp) : Option Result :=
  (Streaming.step (cfgOf db ownStreamer) s.db.book op.call).bind fun x => x.2.map (·.1)

/-- Fresh streamers: one request for the null streamer (null_database_streamer.h:96), two for the debug streamer
(debug_database_streamer.h:121, k_num_database_tiers). -/
def freshRequests (kinds : Nat → StreamerKind) (k : Nat) : List Request :=
  match kinds k with
  | .null => [{}]
  | .debug => [{}, {}]

/-- A context is initialized: the null streamers have the bulk data, the debug streamers have not allocated anything. -/
def libInit (db : List (BitVec 8)) (kinds : Nat → StreamerKind) (bulk : Nat → List (BitVec 8)) : Option LibState :=
  (dbInit db ownStreamer (freshRequests kinds) fun t => if kinds t = .null then bulk t else []).map fun s => ⟨s, fun _ => false⟩

end Acl.DbStream
