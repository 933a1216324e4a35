import Verif.Transform.ErrorMetric
/-
Converting poses between local and object space.
/repo/includes/acl/compression/transform_pose_utils.h:39-73

Numbers are reals, rounding is not modelled. The functions of RTM are those of Verif/Transform/ErrorMetric.lean (qvv_mul for scales
that are not negative). Memory holds transforms, an address counts transforms; the two poses may be in the same memory. `none` is
an access out of bounds (asserted in the code).
-/
namespace Acl.PoseUtils
open Acl.Metric

abbrev Mem := Nat → Qvv

def write (m : Mem) (a : Nat) (t : Qvv) : Mem := fun b => if b = a then t else m b

/-- rtm::quat_normalize -/
noncomputable def quatNormalize (q : Quat) : Quat :=
  ⟨q.x / Real.sqrt q.normSq, q.y / Real.sqrt q.normSq, q.z / Real.sqrt q.normSq, q.w / Real.sqrt q.normSq⟩

/-- rtm::qvv_normalize -/
noncomputable def qvvNormalize (t : Qvv) : Qvv := { t with rotation := quatNormalize t.rotation }

/-- `for (bone_index = 1; bone_index < num_transforms; ++bone_index)`: the bones 1 to k -/
def bones (f : Mem → Nat → Option Mem) : Nat → Mem → Option Mem
  | 0, m => some m
  | k + 1, m => do
    let m ← bones f k m
    f m (k + 1)

/-- transform_pose_utils.h:48-52: one bone of local_to_object_space -/
noncomputable def toObject (parents : List Nat) (src n dst : Nat) (m : Mem) (i : Nat) : Option Mem := do
  let p ← parents[i]?
  if p < n then some (write m (dst + i) (qvvNormalize (qvvMul (m (src + i)) (m (dst + p))))) else none

/-- transform_pose_utils.h:39-54 local_to_object_space -/
noncomputable def localToObject (parents : List Nat) (src n dst : Nat) (m : Mem) : Option Mem :=
  if n = 0 then some m
  else bones (toObject parents src n dst) (n - 1) (write m dst (m src))

/-- transform_pose_utils.h:66-71: one bone of object_to_local_space -/
noncomputable def toLocal (parents : List Nat) (src n dst : Nat) (m : Mem) (i : Nat) : Option Mem := do
  let p ← parents[i]?
  if p < n then some (write m (dst + i) (qvvNormalize (qvvMul (qvvInverse (m (src + p))) (m (src + i))))) else none

/-- transform_pose_utils.h:57-73 object_to_local_space -/
noncomputable def objectToLocal (parents : List Nat) (src n dst : Nat) (m : Mem) : Option Mem :=
  if n = 0 then some m
  else bones (toLocal parents src n dst) (n - 1) (write m dst (m src))

end Acl.PoseUtils
