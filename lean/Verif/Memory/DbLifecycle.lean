import Verif.Memory.Heap
import Mathlib.Logic.Function.Basic
/-!
Model of the life of a database_context: its runtime buffer, initialize, relocated, reset, is_bound_to.
/repo/includes/acl/decompression/database/impl/database.impl.h:48-366, database_context.h:44-85

A compressed_database is what these functions read of it: whether it is valid, whether its bulk data is inline, its hash, its numbers and its
bulk data offsets. What is in memory at each address can change between calls. What initialize writes in the buffer is modelled in
Context/DbContext.lean (C40) and Database/Runtime.lean, streaming in Database/StreamContext.lean. Asserts are not modelled: an `if` after them
is what remains. Failing allocations are not modelled.
-/
namespace Acl.Mem.Life

/-- What the size of the buffer depends on (compressed_headers.h database_header). -/
structure Numbers where
  mediumChunks : BitVec 32
  lowChunks : BitVec 32
  clips : BitVec 32
  segments : BitVec 32
  deriving DecidableEq

/-- compressed_database, as it is read -/
structure Db where
  valid : Bool
  inline : Bool
  hash : BitVec 32
  numbers : Numbers
  mediumBulk : Option Nat
  lowBulk : Option Nat

/-- bitset.h:63-67, 80: make_from_num_bits and get_num_bytes -/
def bitsetBytes (bits : BitVec 32) : BitVec 32 := (bits + 32 - 1) / 32 * 4

/-- memory_utils.h:110-114 align_to of a uint32_t, with size_t of 64 bits -/
def alignTo8 (v : BitVec 32) : BitVec 32 := ((v.setWidth 64 + 7) &&& ~~~7).setWidth 32

/-- database.impl.h:48-72 calculate_runtime_data_size -/
def runtimeDataSize (n : Numbers) : BitVec 32 :=
  let medium := bitsetBytes n.mediumChunks
  let low := bitsetBytes n.lowChunks
  let size := medium
  let size := size + medium
  let size := size + low
  let size := size + low
  let size := alignTo8 size
  let size := size + n.clips * 8
  size + n.segments * 16

/-- Pointers into the buffer. -/
structure Buffer where
  loadedMedium : BitVec 64
  streamingMedium : BitVec 64
  loadedLow : BitVec 64
  streamingLow : BitVec 64
  headers : BitVec 64

/-- database.impl.h:134-148 and 262-276: the pointers, from the address of the buffer; 146 is memory_utils.h:102-107 -/
def carve (base : BitVec 64) (n : Numbers) : Buffer :=
  let medium := (bitsetBytes n.mediumChunks).setWidth 64
  let low := (bitsetBytes n.lowChunks).setWidth 64
  let loadedMedium := base
  let base := base + medium
  let streamingMedium := base
  let base := base + medium
  let loadedLow := base
  let base := base + low
  let streamingLow := base
  let base := base + low
  ⟨loadedMedium, streamingMedium, loadedLow, streamingLow, (base + 7) &&& ~~~7⟩

/-- database_context.h:44-85 database_context_v0; `db = none` is null. `block` is loaded_chunks[0], the address of the buffer. -/
structure Ctx where
  db : Option Nat
  hash : BitVec 32
  allocator : Nat
  block : Nat
  bulk : Option Nat × Option Nat
  streamers : Option (Nat × Nat)

/-- The databases in memory, the allocators and a context. -/
structure State where
  mem : Nat → Db
  heaps : Nat → Heap
  ctx : Ctx

/-- A call of an allocator. -/
def State.use {α : Type} (s : State) (a : Nat) (m : M α) : α × State :=
  ((m (s.heaps a)).1, { s with heaps := Function.update s.heaps a (m (s.heaps a)).2 })

/-- compressed_headers.h get_database_header: past the raw_buffer_header of 8 bytes; compressed_database.impl.h:112-121 get_bulk_data -/
def bulkData (mem : Nat → Db) (d : Nat) : Option Nat × Option Nat :=
  ((mem d).mediumBulk.map (d + 8 + ·), (mem d).lowBulk.map (d + 8 + ·))

/-- database.impl.h:93-214 initialize without streamers -/
def init (s : State) (allocator d : Nat) : Bool × State :=
  if !(s.mem d).valid then (false, s)
  else if !(s.mem d).inline then (false, s)
  else if s.ctx.db.isSome then (false, s)
  else
    let (block, s) := s.use allocator (alloc (runtimeDataSize (s.mem d).numbers).toNat)
    (true, { s with ctx := ⟨some d, (s.mem d).hash, allocator, block, bulkData s.mem d, none⟩ })

/-- database.impl.h:216-290 initialize with streamers; `ready` is is_initialized of each -/
def initStreaming (s : State) (allocator d : Nat) (streamers : Nat × Nat) (ready : Bool × Bool) : Bool × State :=
  if !(s.mem d).valid then (false, s)
  else if !ready.1 then (false, s)
  else if !ready.2 then (false, s)
  else if s.ctx.db.isSome then (false, s)
  else
    let (block, s) := s.use allocator (alloc (runtimeDataSize (s.mem d).numbers).toNat)
    (true, { s with ctx := ⟨some d, (s.mem d).hash, allocator, block, (none, none), some streamers⟩ })

/-- database.impl.h:295-308 reset: the size is that of the database the context is bound to, as it is now in memory -/
def reset (s : State) : State :=
  match s.ctx.db with
  | none => s
  | some d =>
    let (_, s) := s.use s.ctx.allocator (free s.ctx.block (runtimeDataSize (s.mem d).numbers).toNat)
    { s with ctx := { s.ctx with db := none } }

/-- database.impl.h:310-329 relocated without streamers -/
def relocated (s : State) (d : Nat) : Bool × State :=
  if s.ctx.db.isNone then (false, s)
  else if !(s.mem d).valid then (false, s)
  else if s.ctx.hash ≠ (s.mem d).hash then (false, s)
  else (true, { s with ctx := { s.ctx with db := some d, bulk := bulkData s.mem d } })

/-- database.impl.h:331-354 relocated with streamers: the bulk data is left -/
def relocatedStreaming (s : State) (d : Nat) (streamers : Nat × Nat) : Bool × State :=
  if s.ctx.db.isNone then (false, s)
  else if !(s.mem d).valid then (false, s)
  else if s.ctx.hash ≠ (s.mem d).hash then (false, s)
  else (true, { s with ctx := { s.ctx with db := some d, streamers := some streamers } })

/-- database.impl.h:356-367 is_bound_to -/
def isBoundTo (s : State) (d : Nat) : Bool :=
  if s.ctx.db ≠ some d then false
  else if s.ctx.hash ≠ (s.mem d).hash then false
  else true

/-- What a program does: calls, and changes of memory. The destructor (database.impl.h:83-87) is a reset, a new context is not bound
(76-81). -/
inductive Op where
  | init (allocator db : Nat)
  | initStreaming (allocator db : Nat) (streamers : Nat × Nat) (ready : Bool × Bool)
  | relocated (db : Nat)
  | relocatedStreaming (db : Nat) (streamers : Nat × Nat)
  | reset
  | change (db : Nat) (x : Db)

def step (s : State) : Op → Bool × State
  | .init a d => init s a d
  | .initStreaming a d st r => initStreaming s a d st r
  | .relocated d => relocated s d
  | .relocatedStreaming d st => relocatedStreaming s d st
  | .reset => (true, reset s)
  | .change d x => (true, { s with mem := Function.update s.mem d x })

/-- The results of the calls, and what is left. -/
def run (s : State) : List Op → List Bool × State
  | [] => ([], s)
  | op :: ops =>
    let (r, s) := step s op
    let (rs, s) := run s ops
    (r :: rs, s)

end Acl.Mem.Life
