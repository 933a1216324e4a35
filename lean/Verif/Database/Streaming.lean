import Verif.Core.Bitset
/-
Model of the database streaming bookkeeping.
/repo/includes/acl/decompression/database/impl/database.impl.h
/repo/includes/acl/decompression/database/impl/database_streamer.impl.h
/repo/includes/acl/decompression/database/database_streamer.h

The context is initialized with streamers (database.impl.h:209-277). Several tiers may share a streamer
(database_streamer.h:84). A streamer implementation calls `complete`/`cancel` either inside
`stream_in`/`stream_out` or later: nothing follows the virtual call in database_context::stream_in/out,
so both are the same as a later `complete`/`cancel` operation, in any order.

`none` is undefined behaviour: an out of bounds access, or reading the header of a chunk whose bulk data
has not been streamed in. Bulk data itself is abstract: for each chunk we keep whether the runtime
segment headers currently point into it (`registered`).
-/
namespace Acl.Streaming

/-- core/quality_tiers.h:46-58 -/
inductive Tier where | highest | medium | lowest
  deriving DecidableEq, Repr

/-- database_streamer.h:48-52 `streaming_action` -/
inductive Action where | streamIn | streamOut
  deriving DecidableEq, Repr

/-- database_streamer.h:57-67 `streaming_request`; the tier `highest` marks an invalid (free) request. -/
structure Request where
  action : Action := .streamIn
  tier : Tier := .highest
  first : Nat := 0
  count : Nat := 0
  gen : Nat := 0
  deriving DecidableEq, Repr

/-- database_streamer.h:165-171 members of `database_streamer`. -/
structure Streamer where
  requests : List Request
  gen : Nat := 0
  next : Nat := 0
  deriving Repr

/-- database_context.h:60-68, per tier members, plus the tier_metadata of the runtime segment headers
summarised per chunk. -/
structure TierState where
  loaded : List (BitVec 32)
  streaming : List (BitVec 32)
  bulk : Bool                    -- bulk_data[tier] != nullptr
  registered : Nat → Bool        -- tier_metadata of the segments of this chunk is set

/-- Constant data: number of chunks per tier (database_header::num_chunks) and the streamer of each tier. -/
structure Cfg where
  numChunks : Tier → Nat
  streamerOf : Tier → Nat

structure State where
  tier : Tier → TierState
  streamer : Nat → Streamer

/-- database.h:48-72 `database_stream_request_result` -/
inductive Result where
  | done | dispatched | streamingInProgress | contextNotInitialized | invalidDatabaseTier | noFreeStreamingRequests
  deriving DecidableEq, Repr

def updTier (f : Tier → TierState) (t : Tier) (x : TierState) : Tier → TierState :=
  fun u => if u = t then x else f u

def updStreamer (f : Nat → Streamer) (k : Nat) (x : Streamer) : Nat → Streamer :=
  fun j => if j = k then x else f j

/-- database.impl.h:209-277 `initialize` with streamers: bit sets zeroed, no bulk data. The streamers are
freshly constructed (database_streamer.impl.h:137-146), with their own request arrays. -/
def init (cfg : Cfg) (requests : Nat → List Request) : State where
  tier t := { loaded := List.replicate (bitsetSize (cfg.numChunks t)) 0
              streaming := List.replicate (bitsetSize (cfg.numChunks t)) 0
              bulk := false
              registered := fun _ => false }
  streamer k := { requests := requests k }

/-- database.impl.h:408-424 `is_streamed_in`. -/
def isStreamedIn (cfg : Cfg) (s : State) (t : Tier) : Option Bool :=
  if t = .highest then some false else do
    let c ← bitsetCount (s.tier t).loaded (bitsetSize (cfg.numChunks t))
    pure (c.toNat == cfg.numChunks t)

/-- database.impl.h:427-443 `is_streaming`. -/
def isStreaming (cfg : Cfg) (s : State) (t : Tier) : Option Bool :=
  if t = .highest then some false else do
    let c ← bitsetCount (s.tier t).streaming (bitsetSize (cfg.numChunks t))
    pure (c != 0)

/-- database.impl.h:472-486: the first word with a trailing zero gives the first chunk to stream in. -/
def findFirstPending : List (BitVec 32) → Nat → Option Nat
  | [], _ => none
  | w :: ws, entry =>
    let numPending := (countTrailingZeros w).toNat
    if numPending ≠ 0 then some (entry * 32 + (32 - numPending)) else findFirstPending ws (entry + 1)

/-- database.impl.h:561-575: the first non zero word gives the first chunk to stream out. -/
def findFirstLoaded : List (BitVec 32) → Nat → Option Nat
  | [], _ => none
  | w :: ws, entry =>
    let numPending := (countLeadingZeros w).toNat
    if numPending ≠ 32 then some (entry * 32 + numPending) else findFirstLoaded ws (entry + 1)

/-- database.impl.h:469, 491-496 (and 557, 580-585): number of chunks to stream from `first`, with the
uint64_t wrap of `first + n - 1` and the uint32_t wrap of `last - first + 1`. -/
def numStreaming (first numToStream numChunks : Nat) : Nat :=
  let n := min numToStream numChunks
  let last64 := (first + n + (2^64 - 1)) % 2^64
  let last := if last64 ≥ numChunks then (numChunks + (2^32 - 1)) % 2^32 else last64
  (last + (2^32 - first) + 1) % 2^32

/-- database_streamer.impl.h:43-47 `make_request_id`. -/
def makeRequestId (index gen : Nat) : Nat := gen * 2^32 + index

/-- database_streamer.h:75-81: the invalid request id. -/
def invalidRequestId : Nat := 2^64 - 1

/-- database_streamer.impl.h:202-224 `build_request`. `none`: out of bounds request array. -/
def buildRequest (st : Streamer) (a : Action) (t : Tier) (first count : Nat) : Option (Nat × Streamer) := do
  let r ← st.requests[st.next]?
  if r.tier ≠ .highest then pure (invalidRequestId, st)
  else
    pure (makeRequestId st.next st.gen,
      { requests := st.requests.set st.next { action := a, tier := t, first := first, count := count, gen := st.gen }
        next := (st.next + 1) % st.requests.length
        gen := (st.gen + 1) % 2^32 })

/-- What the streamer is told (database_streamer.h:131,146): first chunk, number of chunks, request id, and
whether bulk data may be allocated/freed. The byte offset and size are functions of the chunk range. -/
structure Dispatch where
  action : Action
  tier : Tier
  first : Nat
  count : Nat
  id : Nat
  bulkFlag : Bool
  deriving DecidableEq, Repr

/-- database.impl.h:446-528 `stream_in`. -/
def streamIn (cfg : Cfg) (s : State) (t : Tier) (numToStream : Nat) : Option (State × Result × Option Dispatch) := do
  if t = .highest then return (s, .invalidDatabaseTier, none)
  if (← isStreaming cfg s t) then return (s, .streamingInProgress, none)
  let n := cfg.numChunks t
  let ts := s.tier t
  match findFirstPending ts.loaded 0 with
  | none => return (s, .done, none)
  | some first =>
    let count := numStreaming first numToStream n
    if count = 0 then return (s, .done, none)
    let k := cfg.streamerOf t
    let (id, st') ← buildRequest (s.streamer k) .streamIn t first count
    if id = invalidRequestId then return ({ s with streamer := updStreamer s.streamer k st' }, .noFreeStreamingRequests, none)
    let streaming' ← bitsetSetRange ts.streaming first count true
    return ({ tier := updTier s.tier t { ts with streaming := streaming' }
              streamer := updStreamer s.streamer k st' },
            .dispatched, some ⟨.streamIn, t, first, count, id, !ts.bulk⟩)

/-- database.impl.h:615-638: unregistering a chunk reads its header from the bulk data, which is undefined
when that chunk has not been streamed in. -/
def unregister (ts : TierState) : Nat → Nat → Option TierState
  | _, 0 => some ts
  | c, k+1 => do
    if (← bitsetTest ts.loaded c) then
      unregister { ts with registered := fun i => if i = c then false else ts.registered i } (c + 1) k
    else none

/-- database.impl.h:531-644 `stream_out`. -/
def streamOut (cfg : Cfg) (s : State) (t : Tier) (numToStream : Nat) : Option (State × Result × Option Dispatch) := do
  if t = .highest then return (s, .invalidDatabaseTier, none)
  if (← isStreaming cfg s t) then return (s, .streamingInProgress, none)
  let n := cfg.numChunks t
  let ts := s.tier t
  match findFirstLoaded ts.loaded 0 with
  | none => return (s, .done, none)
  | some first =>
    let count := numStreaming first numToStream n
    if count = 0 then return (s, .done, none)
    let k := cfg.streamerOf t
    let (id, st') ← buildRequest (s.streamer k) .streamOut t first count
    if id = invalidRequestId then return ({ s with streamer := updStreamer s.streamer k st' }, .noFreeStreamingRequests, none)
    let streaming' ← bitsetSetRange ts.streaming first count true
    let numLoaded ← bitsetCount ts.loaded (bitsetSize n)
    let canDeallocate := count == numLoaded.toNat
    let ts' ← unregister { ts with streaming := streaming' } first count
    return ({ tier := updTier s.tier t { ts' with bulk := if canDeallocate then false else ts.bulk }
              streamer := updStreamer s.streamer k st' },
            .dispatched, some ⟨.streamOut, t, first, count, id, canDeallocate⟩)

/-- database_streamer.impl.h:59-135 `execute_request`. On a successful stream in the chunk headers are read
from the freshly streamed bulk data (the streamer's contract) and the chunks are registered. -/
def executeRequest (cfg : Cfg) (s : State) (success : Bool) (r : Request) : Option State := do
  let _ := cfg
  let ts := s.tier r.tier
  match r.action with
  | .streamIn =>
    let ts ← if success then do
        let loaded' ← bitsetSetRange ts.loaded r.first r.count true
        pure { ts with
          bulk := true
          registered := fun i => if r.first ≤ i ∧ i < r.first + r.count then true else ts.registered i
          loaded := loaded' }
      else pure ts
    let streaming' ← bitsetSetRange ts.streaming r.first r.count false
    return { s with tier := updTier s.tier r.tier { ts with streaming := streaming' } }
  | .streamOut =>
    let loaded' ← bitsetSetRange ts.loaded r.first r.count false
    let streaming' ← bitsetSetRange ts.streaming r.first r.count false
    return { s with tier := updTier s.tier r.tier { ts with loaded := loaded', streaming := streaming' } }

/-- database_streamer.impl.h:148-196 `complete` (`success = true`) and `cancel` (`success = false`): the
two functions differ only in that argument. -/
def finish (cfg : Cfg) (s : State) (k : Nat) (id : Nat) (success : Bool) : Option State :=
  let index := id % 2^32
  let gen := (id / 2^32) % 2^32
  match (s.streamer k).requests[index]? with
  | none => some s
  | some r =>
    if r.tier = .highest then some s
    else if r.gen ≠ gen then some s
    else do
      let s' ← executeRequest cfg s success r
      let st := s'.streamer k
      let freed : Request := { r with tier := .highest }
      let st' : Streamer := { st with requests := st.requests.set index freed }
      return { s' with streamer := updStreamer s'.streamer k st' }

/-- Everything a user and a streamer implementation can do. -/
inductive Op where
  | streamIn (t : Tier) (n : Nat)
  | streamOut (t : Tier) (n : Nat)
  | complete (streamer id : Nat)
  | cancel (streamer id : Nat)
  deriving Repr

def step (cfg : Cfg) (s : State) : Op → Option (State × Option (Result × Option Dispatch))
  | .streamIn t n => (streamIn cfg s t n).map (fun (s, r, d) => (s, some (r, d)))
  | .streamOut t n => (streamOut cfg s t n).map (fun (s, r, d) => (s, some (r, d)))
  | .complete k id => (finish cfg s k id true).map (fun s => (s, none))
  | .cancel k id => (finish cfg s k id false).map (fun s => (s, none))

/-- Any history of operations: the final state and the requests sent to the streamers, in order. -/
def run (cfg : Cfg) : State → List Op → Option (State × List Dispatch)
  | s, [] => some (s, [])
  | s, op :: ops => do
    let (s', out) ← step cfg s op
    let (s'', ds) ← run cfg s' ops
    let d : List Dispatch := match out with
      | some (_, some d) => [d]
      | _ => []
    pure (s'', d ++ ds)

end Acl.Streaming
