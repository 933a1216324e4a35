import Verif.Raw.TrackArray
/-
What a hierarchy of transforms means, independently of the chains and orders the compressor builds.
-/
namespace Acl.Hierarchy
open Acl.Raw

/-- Every parent index is the invalid index (a root) or that of a transform of the list. This is what
`track_array::is_valid` checks of the parents. -/
def ParentsValid (parents : List Nat) : Prop :=
  parents.length ≤ invalidIndex ∧ ∀ p ∈ parents, p = invalidIndex ∨ p < parents.length

/-- Every transform comes after its parent. -/
def Ordered (parents : List Nat) : Prop :=
  ∀ i p, parents[i]? = some p → p = invalidIndex ∨ p < i

/-- `path` leads from a root down to the transform `i`, each transform followed by one of its children. -/
inductive RootPath (parents : List Nat) : Nat → List Nat → Prop
  | root {i : Nat} : parents[i]? = some invalidIndex → RootPath parents i [i]
  | child {i p : Nat} {path : List Nat} : parents[i]? = some p → p ≠ invalidIndex → RootPath parents p path →
      RootPath parents i (path ++ [i])

/-- `x` is the object space transform of `i`: its local transform applied on top of that of all its ancestors. -/
inductive ObjectOf {T : Type} (mul : T → T → T) (parents : List Nat) (locals : List T) : Nat → T → Prop
  | root {i : Nat} {x : T} : parents[i]? = some invalidIndex → locals[i]? = some x → ObjectOf mul parents locals i x
  | child {i p : Nat} {x y : T} : parents[i]? = some p → p ≠ invalidIndex → locals[i]? = some x →
      ObjectOf mul parents locals p y → ObjectOf mul parents locals i (mul x y)

/-- `a` occurs before `b` -/
def Before (l : List Nat) (a b : Nat) : Prop := ∃ l₁ l₂ l₃, l = l₁ ++ a :: (l₂ ++ b :: l₃)

end Acl.Hierarchy
