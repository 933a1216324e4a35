import Verif.Core.Memory
/-!
Model of the allocator that ships with the library.
/repo/includes/acl/core/ansi_allocator.h:78-220 (ansi_allocator)

malloc, free, aligned_alloc and posix_memalign are given by what they return. Addresses and size_t are 64 bits. The count of allocations is an
integer without bounds (int32_t in the code), and events are in one order (its accesses are atomic).
-/
namespace Acl.Ansi
open Acl

/-- ansi_allocator.h:124: the size that is asked from the system -/
def alignedSize (size alignment : BitVec 64) : BitVec 64 := alignTo size alignment

/-- ansi_allocator.h:135: the alignment that posix_memalign is asked for (macOS, emscripten) -/
def posixAlignment (alignment : BitVec 64) : BitVec 64 := if alignment < 8#64 then 8#64 else alignment

/-- Bytes of memory by address. -/
abbrev Memory := BitVec 64 → BitVec 8

/-- A store of a size_t, little endian -/
def store (mem : Memory) (at_ value : BitVec 64) : Memory := fun x =>
  if (x - at_).toNat < 8 then BitVec.ofNat 8 (value.toNat / 256 ^ (x - at_).toNat) else mem x

/-- A load of a size_t, little endian -/
def load (mem : Memory) (at_ : BitVec 64) : BitVec 64 :=
  BitVec.ofNat 64 ((mem at_).toNat + (mem (at_ + 1)).toNat * 256 ^ 1 + (mem (at_ + 2)).toNat * 256 ^ 2 + (mem (at_ + 3)).toNat * 256 ^ 3 +
    (mem (at_ + 4)).toNat * 256 ^ 4 + (mem (at_ + 5)).toNat * 256 ^ 5 + (mem (at_ + 6)).toNat * 256 ^ 6 + (mem (at_ + 7)).toNat * 256 ^ 7)

/-- memset -/
def fill (mem : Memory) (at_ size : BitVec 64) (byte : BitVec 8) : Memory := fun x => if x - at_ < size then byte else mem x

/-- ansi_allocator.h:139: the alignment, at least that of what is stored in front (Android); both maxima are with 8 -/
def headerAlignment (alignment : BitVec 64) : BitVec 64 := if alignment < 8#64 then 8#64 else alignment

/-- ansi_allocator.h:140 padded_size: what malloc is asked for -/
def paddedSize (size alignment : BitVec 64) : BitVec 64 := size + headerAlignment alignment + 8#64

/-- ansi_allocator.h:145: the pointer that is returned, for a block of malloc -/
def userPointer (block alignment : BitVec 64) : BitVec 64 := alignTo (block + 8#64) (headerAlignment alignment)

/-- ansi_allocator.h:147-149, 157: the padding is stored in front, then what is returned is filled -/
def allocateMemory (mem : Memory) (block size alignment : BitVec 64) : Memory :=
  let user := userPointer block alignment
  fill (store mem (user - 8#64) (user - block)) user size 0xCD#8

/-- ansi_allocator.h:174: what is given back is filled -/
def sanitizeFreed (mem : Memory) (user size : BitVec 64) : Memory := fill mem user size 0xFE#8

/-- ansi_allocator.h:194-195: the block that is given back to free -/
def freedBlock (mem : Memory) (user size : BitVec 64) : BitVec 64 :=
  let mem := sanitizeFreed mem user size
  user - load mem (user - 8#64)

/-- ansi_allocator.h:208, 212-218: the count, and the table of allocations: address and size -/
structure Tracker where
  count : Int
  entries : List (Nat × Nat)
  deriving DecidableEq

/-- unordered_map::find -/
def find (entries : List (Nat × Nat)) (p : Nat) : Option Nat := (entries.find? fun e => e.1 == p).map (·.2)

/-- What is called, and the pointer: 0 is a null pointer, which is what a failed allocation returns. -/
inductive Event where
  | allocate (p size : Nat)
  | deallocate (p size : Nat)
  deriving DecidableEq

/-- ansi_allocator.h:126, 160-163; insert does nothing when the address is in the table -/
def Tracker.allocate (t : Tracker) (p size : Nat) : Tracker :=
  ⟨t.count + 1, if p ≠ 0 then (if (find t.entries p).isSome then t.entries else (p, size) :: t.entries) else t.entries⟩

/-- ansi_allocator.h:168-189; none: an assertion fails -/
def Tracker.deallocate (t : Tracker) (p size : Nat) : Option Tracker :=
  if p = 0 then some t
  else match find t.entries p with
    | none => none
    | some s => if s ≠ size then none else if t.count > 0 then some ⟨t.count - 1, t.entries.filter fun e => e.1 != p⟩ else none

/-- A call -/
def Tracker.step (t : Tracker) : Event → Option Tracker
  | .allocate p size => some (t.allocate p size)
  | .deallocate p size => t.deallocate p size

/-- From the constructor (ansi_allocator.h:81-89) -/
def run (events : List Event) : Option Tracker := events.foldlM Tracker.step ⟨0, []⟩

/-- ansi_allocator.h:104: the assertion of the destructor -/
def Tracker.destroyOk (t : Tracker) : Bool := t.count == 0

end Acl.Ansi
