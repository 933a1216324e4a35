import Mathlib.Logic.Function.Basic
/-
The memory of raw tracks: who owns the samples, what copies and references see, what is freed.
/repo/includes/acl/compression/track.h:60-345
/repo/includes/acl/compression/impl/track.impl.h:45-347

Memory is a set of blocks of bytes. A pointer is a block and an offset in it. Accessing bytes that are not in a live block
and freeing a block that is not live, with another allocator or with another size are `none`. The sample rate, the type,
the description and the name of a track do not matter here and are left out. An allocation always succeeds and returns a
block that was never used before. Sizes are not limited to 64 bits.
-/
namespace Acl.TrackMemory

/-- One byte. -/
abbrev Byte := BitVec 8

/-- A live block of memory: the allocator it came from (`none`: memory the allocators do not know, such as an array of
the client), its bytes. -/
structure Block where
  allocator : Option Nat
  bytes : List Byte

/-- Blocks by their number. -/
abbrev Heap := Nat → Option Block

/-- track.h:200-211 the fields of a track: the allocator that owns the memory, the samples (block and offset), their
number, the distance between them, the size of the buffer, the size of a sample -/
structure Track where
  allocator : Option Nat
  data : Option (Nat × Nat)
  numSamples : Nat
  stride : Nat
  dataSize : Nat
  sampleSize : Nat
  deriving DecidableEq

/-- Reading `n` bytes at an offset of a block. -/
def readBytes (h : Heap) (b offset n : Nat) : Option (List Byte) :=
  (h b).bind fun k => if offset + n ≤ k.bytes.length then some ((k.bytes.drop offset).take n) else none

/-- Writing bytes at an offset of a block. -/
def writeBytes (h : Heap) (b offset : Nat) (bytes : List Byte) : Option Heap :=
  (h b).bind fun k =>
    if offset + bytes.length ≤ k.bytes.length then
      some (Function.update h b
        (some { k with bytes := k.bytes.take offset ++ bytes ++ k.bytes.drop (offset + bytes.length) }))
    else none

/-- The whole program: the memory, the number of the next block, the live tracks by the variable that holds them. `held`
are the blocks the client itself allocated and still has to free (it is not part of the program). -/
structure State where
  heap : Heap
  next : Nat
  tracks : Nat → Option Track
  held : Nat → Bool

/-- iallocator::allocate -/
def allocate (s : State) (a : Nat) (bytes : List Byte) : State :=
  { s with heap := Function.update s.heap s.next (some ⟨some a, bytes⟩), next := s.next + 1 }

/-- iallocator::deallocate: the block must be live and come from this allocator, the size must be that of the block -/
def deallocate (s : State) (a b size : Nat) : Option State :=
  (s.heap b).bind fun k =>
    if k.allocator = some a ∧ k.bytes.length = size then some { s with heap := Function.update s.heap b none } else none

/-- A track that starts to live in a variable. -/
def put (s : State) (t : Nat) (track : Track) : State := { s with tracks := Function.update s.tracks t (some track) }

/-- track.impl.h:45-55, 188-200: an empty track -/
def empty : Track := ⟨none, none, 0, 0, 0, 0⟩

/-- track.impl.h:99-109, 249-261 operator[]: where a sample is -/
def address (track : Track) (i : Nat) : Option (Nat × Nat) := track.data.map fun p => (p.1, p.2 + i * track.stride)

/-- Reading a sample through operator[]. -/
def sample (s : State) (t i : Nat) : Option (List Byte) :=
  (s.tracks t).bind fun track => (address track i).bind fun p => readBytes s.heap p.1 p.2 track.sampleSize

/-- Writing a sample through operator[]. -/
def write (s : State) (t i : Nat) (bytes : List Byte) : Option State :=
  (s.tracks t).bind fun track => (address track i).bind fun p =>
    (writeBytes s.heap p.1 p.2 bytes).map fun h => { s with heap := h }

/-- track.impl.h:312-313: the loop that copies the samples of the client one after another -/
def gather (h : Heap) (b offset stride size : Nat) : Nat → Option (List Byte)
  | 0 => some []
  | n + 1 =>
    (gather h b offset stride size n).bind fun l => (readBytes h b (offset + n * stride) size).map fun x => l ++ x

/-- track.impl.h:303-317 make_copy -/
def makeCopy (s : State) (t a b offset n stride size : Nat) : Option State :=
  (gather s.heap b offset stride size n).map fun bytes =>
    put (allocate s a bytes) t ⟨some a, some (s.next, 0), n, size, n * size, size⟩

/-- track.impl.h:319-324 make_reserve; `bytes` is what the memory happens to hold -/
def makeReserve (s : State) (t a n size : Nat) (bytes : List Byte) : Option State :=
  if bytes.length = n * size then
    some (put (allocate s a bytes) t ⟨some a, some (s.next, 0), n, size, n * size, size⟩)
  else none

/-- track.impl.h:326-331 make_owner: the block is no longer held by the client -/
def makeOwner (s : State) (t a b n stride size : Nat) : State :=
  { put s t ⟨some a, some (b, 0), n, stride, n * stride, size⟩ with held := Function.update s.held b false }

/-- track.impl.h:333-338 make_ref -/
def makeRef (s : State) (t b offset n stride size : Nat) : State :=
  put s t ⟨none, some (b, offset), n, stride, n * stride, size⟩

/-- `std::memcpy(copy, m_data, m_data_size)`: the bytes that are copied; without data nothing may be copied -/
def copied (h : Heap) (track : Track) : Option (List Byte) :=
  match track.data with
  | some p => readBytes h p.1 p.2 track.dataSize
  | none => if track.dataSize = 0 then some [] else none

/-- track.impl.h:216-231 get_copy_impl -/
def getCopy (s : State) (t source a : Nat) : Option State :=
  (s.tracks source).bind fun track => (copied s.heap track).map fun bytes =>
    put (allocate s a bytes) t { track with allocator := some a, data := some (s.next, 0) }

/-- track.impl.h:233-246 get_ref_impl -/
def getRef (s : State) (t source : Nat) : Option State :=
  (s.tracks source).map fun track => put s t { track with allocator := none }

/-- track.impl.h:57-72: the move constructor; the number of samples of the source stays what it was -/
def moveConstruct (s : State) (t source : Nat) : Option State :=
  (s.tracks source).map fun track => put (put s source { track with allocator := none, data := none }) t track

/-- track.impl.h:83-97: the move assignment swaps the tracks -/
def moveAssign (s : State) (t source : Nat) : Option State :=
  (s.tracks t).bind fun x => (s.tracks source).map fun y => put (put s source x) t y

/-- track.impl.h:74-81: the destructor -/
def destroy (s : State) (t : Nat) : Option State :=
  (s.tracks t).bind fun track =>
    match track.allocator with
    | some a =>
      match track.data with
      | some p => if p.2 = 0 then
          (deallocate s a p.1 track.dataSize).map fun s => { s with tracks := Function.update s.tracks t none }
        else none
      | none => none
    | none => some { s with tracks := Function.update s.tracks t none }

/-- What a client does. -/
inductive Op where
  /-- an array of the client -/
  | buffer (bytes : List Byte)
  /-- memory the client allocates itself -/
  | allocate (a : Nat) (bytes : List Byte)
  /-- memory the client frees itself -/
  | free (b : Nat)
  | empty (t : Nat)
  | makeCopy (t a b offset n stride size : Nat)
  | makeReserve (t a n size : Nat) (bytes : List Byte)
  | makeOwner (t a b n stride size : Nat)
  | makeRef (t b offset n stride size : Nat)
  | getCopy (t source a : Nat)
  | getRef (t source : Nat)
  | moveConstruct (t source : Nat)
  | moveAssign (t source : Nat)
  | destroy (t : Nat)
  | write (t i : Nat) (bytes : List Byte)

/-- The client frees a block it holds. -/
def freeHeld (s : State) (b : Nat) : Option State :=
  (s.heap b).map fun _ => { s with heap := Function.update s.heap b none, held := Function.update s.held b false }

/-- One operation. -/
def step (s : State) : Op → Option State
  | .buffer bytes => some { s with heap := Function.update s.heap s.next (some ⟨none, bytes⟩), next := s.next + 1 }
  | .allocate a bytes => some { allocate s a bytes with held := Function.update s.held s.next true }
  | .free b => freeHeld s b
  | .empty t => some (put s t empty)
  | .makeCopy t a b offset n stride size => makeCopy s t a b offset n stride size
  | .makeReserve t a n size bytes => makeReserve s t a n size bytes
  | .makeOwner t a b n stride size => some (makeOwner s t a b n stride size)
  | .makeRef t b offset n stride size => some (makeRef s t b offset n stride size)
  | .getCopy t source a => getCopy s t source a
  | .getRef t source => getRef s t source
  | .moveConstruct t source => moveConstruct s t source
  | .moveAssign t source => moveAssign s t source
  | .destroy t => destroy s t
  | .write t i bytes => write s t i bytes

/-- A history. -/
def run (s : State) : List Op → Option State
  | [] => some s
  | op :: rest => (step s op).bind fun s => run s rest

/-- The start of a program. -/
def start : State := ⟨fun _ => none, 0, fun _ => none, fun _ => false⟩

end Acl.TrackMemory
