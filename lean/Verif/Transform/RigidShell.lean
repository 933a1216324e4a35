import Verif.Transform.Hierarchy
/-
The rigid shells: how far from a bone an error is measured, and with which precision.
/repo/includes/acl/compression/impl/clip_context.h:146-156 (rigid_shell_metadata_t)
/repo/includes/acl/compression/impl/rigid_shell_utils.h:48-172 (compute_clip_shell_distances), 174-296
(compute_segment_shell_distances)

Both functions run the same loop over different views of the samples. Moving the three vertices of a shell by a local
transform (with the additive base applied) and measuring them is the parameter `distance bone sample shell`: the largest of
the three lengths. Distances are a linear order; `add` is the float addition.
-/
namespace Acl.Shell
open Acl Acl.Raw Acl.Hierarchy

/-- clip_context.h:146-156 -/
structure Shell (E : Type) where
  localDistance : E
  parentDistance : E
  precision : E

/-- What the description of a track asks for (core/track_desc.h:120-135) -/
structure Desc (E : Type) where
  shellDistance : E
  precision : E

/-- What the computation depends on besides the hierarchy -/
structure Motion (E : Type) where
  zero : E
  add : E → E → E
  numSamples : Nat
  distance : Nat → Nat → E → E

/-- rigid_shell_utils.h:74-80, 193-200 -/
def initial {E : Type} (M : Motion E) (descs : List (Desc E)) : List (Shell E) :=
  descs.map fun d => { localDistance := d.shellDistance, precision := d.precision, parentDistance := M.zero }

/-- rigid_shell_utils.h:93-138, 213-258: the largest distance over the samples -/
def reach {E : Type} [LinearOrder E] (M : Motion E) (bone : Nat) (shell : E) : E :=
  (List.range M.numSamples).foldl (fun m s => max m (M.distance bone s shell)) M.zero

/-- rigid_shell_utils.h:140-147, 260-269: the precision is added when a child has changed the shell -/
def parentDistance {E : Type} [LinearOrder E] (M : Motion E) (d : Desc E) (bone : Nat) (shell : E) : E :=
  if shell ≠ d.shellDistance then M.add (reach M bone shell) d.precision else reach M bone shell

/-- rigid_shell_utils.h:160-165, 282-287: the parent takes the shell and the precision of a dominant child -/
def dominate {E : Type} [LinearOrder E] (child parent : Shell E) : Shell E :=
  if parent.localDistance < child.parentDistance then
    { parent with localDistance := child.parentDistance, precision := child.precision }
  else parent

/-- rigid_shell_utils.h:83-168, 203-289: the loop, over the transforms from the leaves to the roots -/
def bubble {E : Type} [LinearOrder E] (M : Motion E) (parents : List Nat) (descs : List (Desc E)) :
    List Nat → List (Shell E) → Option (List (Shell E))
  | [], st => some st
  | i :: rest, st => do
    let shell ← st[i]?
    let d ← descs[i]?
    let shell := { shell with parentDistance := parentDistance M d i shell.localDistance }
    let st := st.set i shell
    let parent ← parents[i]?
    if parent = invalidIndex then bubble M parents descs rest st
    else do
      let parentShell ← st[parent]?
      bubble M parents descs rest (st.set parent (dominate shell parentShell))

/-- rigid_shell_utils.h:48-172 and 174-296; without samples nothing is computed -/
def shells {E : Type} [LinearOrder E] (M : Motion E) (parents : List Nat) (descs : List (Desc E)) : Option (List (Shell E)) :=
  if M.numSamples = 0 then none
  else bubble M parents descs (sortParentFirst parents).reverse (initial M descs)

end Acl.Shell
