import Verif.Database.StreamContextSpec
/-
Specification of C56: what a decoder gets while another thread streams chunks in.
-/
namespace Acl.DbStream
open Acl.Streaming Acl.Runtime Acl.DbBuild

/-- What a decoder reads of the bulk data of tier `t`: it reads the pointer at moment `p` of the trace and, when it is set, every
byte at some later moment. Bytes it does not read can be anything the memory contains at some moment. -/
def Fetched (l : List Shared) (p t : Nat) (view : Option (List (BitVec 8))) : Prop :=
  ∃ now, l[p]? = some now ∧
    ((now.pointer t = false ∧ view = none) ∨
      (now.pointer t = true ∧ ∃ bytes, view = some bytes ∧ ∀ q : Nat, ∃ (j : Nat) (later : Shared), p ≤ j ∧ l[j]? = some later ∧ bytes[q]? = (later.memory t)[q]?))

/-- The runtime headers at a moment of a trace. -/
def headersIn (l : List Shared) (j : Nat) : List (BitVec 8) := ((l[j]?).map (·.headers)).getD []

/-- Nothing is asked to be streamed out. Requests to stream out made before can still be completed, and the streamers can free the
memory of what was streamed out. -/
def OnlyIn (ops : List DbOp) : Prop := ∀ op ∈ calls ops, ∀ t n, op ≠ .streamOut t n

end Acl.DbStream
