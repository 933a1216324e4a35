import Mathlib.Logic.Function.Basic
/-
The string class: an immutable, NUL terminated copy of a name in memory of an allocator.
/repo/includes/acl/core/string.h:46-155
/repo/includes/acl/core/iallocator.h:102-141 (allocate_type_array, deallocate_type_array of char)

Memory is a set of blocks of bytes. Accessing bytes that are not in a live block, and freeing a block that is not live, with another
allocator or with another size (iallocator.h:70: the size given to deallocate matches the one given to allocate) are `none`. An
allocation always succeeds and returns a block that was never used before. Sizes are not limited to 64 bits. Asserts are not modelled.
-/
namespace Acl.StringMemory

abbrev Byte := BitVec 8

structure Block where
  allocator : Nat
  bytes : List Byte

/-- string.h:152-154: the fields of a string, the allocator and the block of m_c_str -/
structure Str where
  allocator : Option Nat
  ptr : Option Nat

/-- The live blocks, the number of the next one, and the strings by the variable that holds them. -/
structure State where
  heap : Nat → Option Block
  next : Nat
  strings : Nat → Option Str

/-- The bytes up to the first NUL; `none` without a NUL. -/
def untilNul : List Byte → Option (List Byte)
  | [] => none
  | b :: rest => if b = 0 then some [] else (untilNul rest).map (b :: ·)

/-- The characters of m_c_str, as strlen and memcpy see them. -/
def chars (h : Nat → Option Block) (b : Nat) : Option (List Byte) := (h b).bind fun k => untilNul k.bytes

/-- string.h:49 string() -/
def empty : Str := ⟨none, none⟩

/-- string.h:51-71 string(allocator, c_str, length) -/
def construct (st : State) (v a : Nat) (text : List Byte) : State :=
  if 0 < text.length then
    { heap := Function.update st.heap st.next (some ⟨a, text ++ [0]⟩), next := st.next + 1,
      strings := Function.update st.strings v (some ⟨some a, some st.next⟩) }
  else { st with strings := Function.update st.strings v (some ⟨some a, none⟩) }

/-- iallocator.h:127-141 deallocate_type_array -/
def deallocate (st : State) (a b size : Nat) : Option State := do
  let k ← st.heap b
  if k.allocator = a ∧ k.bytes.length = size then some { st with heap := Function.update st.heap b none } else none

/-- string.h:81-85 ~string() -/
def destroy (st : State) (v : Nat) : Option State := do
  let s ← st.strings v
  let st' ← match s.ptr with
    | none => some st
    | some b => do
      let a ← s.allocator
      let c ← chars st.heap b
      deallocate st a b (c.length + 1)
  pure { st' with strings := Function.update st'.strings v none }

/-- string.h:91-96 string(string&&) -/
def moveConstruct (st : State) (v u : Nat) : Option State := do
  let s ← st.strings u
  pure { st with strings := Function.update (Function.update st.strings v (some s)) u (some empty) }

/-- string.h:98-103 operator=(string&&) -/
def moveAssign (st : State) (v u : Nat) : Option State := do
  let s ← st.strings v
  let t ← st.strings u
  pure { st with strings := Function.update (Function.update st.strings v (some t)) u (some s) }

/-- string.h:129-147 get_copy: with the allocator of the string, or with another -/
def getCopy (st : State) (v u : Nat) (allocator : Option Nat) : Option State := do
  let s ← st.strings u
  match s.ptr with
  | none => pure { st with strings := Function.update st.strings v (some empty) }
  | some b => do
    let own ← s.allocator
    let c ← chars st.heap b
    pure (construct st v (allocator.getD own) c)

/-- string.h:149, 150 c_str() and size(): the characters -/
def text (st : State) (v : Nat) : Option (List Byte) := do
  let s ← st.strings v
  match s.ptr with
  | none => pure []
  | some b => chars st.heap b

/-- string.h:77-79 string(allocator, const string&): from c_str() and size() -/
def constructFrom (st : State) (v u a : Nat) : Option State := do
  let c ← text st u
  pure (construct st v a c)

/-- string.h:151 empty() -/
def isEmpty (st : State) (v : Nat) : Option Bool := do
  let s ← st.strings v
  match s.ptr with
  | none => pure true
  | some b => do
    let k ← st.heap b
    let c ← k.bytes.head?
    pure (c == 0)

/-- string.h:105-116 operator==(const char*), 120 operator==(const string&) -/
def equals (st : State) (v u : Nat) : Option Bool := do
  let mine ← text st v
  let other ← text st u
  if mine.length ≠ other.length then pure false
  else if mine.length = 0 then pure true
  else pure (mine == other.take other.length)

/-- What a program does with strings. -/
inductive Op where
  | default (v : Nat)
  | make (v a : Nat) (text : List Byte)
  | makeFrom (v u a : Nat)
  | move (v u : Nat)
  | assign (v u : Nat)
  | copy (v u : Nat) (allocator : Option Nat)
  | destroy (v : Nat)

def step (st : State) : Op → Option State
  | .default v => some { st with strings := Function.update st.strings v (some empty) }
  | .make v a t => some (construct st v a t)
  | .makeFrom v u a => constructFrom st v u a
  | .move v u => moveConstruct st v u
  | .assign v u => moveAssign st v u
  | .copy v u a => getCopy st v u a
  | .destroy v => destroy st v

def run : List Op → State → Option State
  | [], st => some st
  | op :: ops, st => (step st op).bind (run ops)

/-- Nothing allocated, no strings. -/
def start : State := ⟨fun _ => none, 0, fun _ => none⟩

end Acl.StringMemory
