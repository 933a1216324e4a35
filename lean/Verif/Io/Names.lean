import Verif.Io.ClipText
/-!
Model of the functions between enumerations and their names.
/repo/includes/acl/core/algorithm_types.h:75-108, core/additive_utils.h:72-127, core/impl/track_formats.impl.h:41-118,
core/track_types.h:101-158, 162-187, 191-216, compression/impl/compression_level.impl.h:40-113

Values are those of the enumerations. A null pointer is `none`; strings end at their null character, so strncmp with the length of a name tells
if the string starts with it. What a function stores by reference is the second component.
-/
namespace Acl.Io.Names
open Acl.Io (startsWith)

/-- The tests in their order: names that give the same value are tested together. -/
def parse (tests : List (List (List Char) × Nat)) : Option (List Char) → Nat → Bool × Nat
  | none, out => (false, out)
  | some s, out =>
    match tests with
    | [] => (false, out)
    | (names, value) :: rest => if names.any (fun n => startsWith n s) then (true, value) else parse rest (some s) out

/-- compression_level.impl.h:40-52 get_compression_level_name (enumerators: compression_level.h) -/
def levelName (v : Nat) : List Char :=
  if v = 0 then "lowest".toList else if v = 1 then "low".toList else if v = 2 then "medium".toList else if v = 3 then "high".toList
  else if v = 4 then "highest".toList else if v = 100 then "automatic".toList else "<Invalid>".toList

/-- compression_level.impl.h:54-113 get_compression_level -/
def getLevel : Option (List Char) → Nat → Bool × Nat :=
  parse [(["Lowest".toList, "lowest".toList], 0), (["Low".toList, "low".toList], 1), (["Medium".toList, "medium".toList], 2),
    (["Highest".toList, "highest".toList], 4), (["High".toList, "high".toList], 3), (["automatic".toList], 100)]

/-- track_formats.impl.h:41-50 get_rotation_format_name -/
def rotationName (v : Nat) : List Char :=
  if v = 0 then "quatf_full".toList else if v = 2 then "quatf_drop_w_full".toList else if v = 3 then "quatf_drop_w_variable".toList
  else "<Invalid>".toList

/-- track_formats.impl.h:52-86 get_rotation_format -/
def getRotation : Option (List Char) → Nat → Bool × Nat :=
  parse [(["Quat_128".toList, "quatf_full".toList], 0), (["QuatDropW_96".toList, "quatf_drop_w_full".toList], 2),
    (["QuatDropW_Variable".toList, "quatf_drop_w_variable".toList], 3)]

/-- track_formats.impl.h:88-91 get_vector_format_name -/
def vectorName (v : Nat) : List Char := if v = 0 then "vector3f_full".toList else "vector3f_variable".toList

/-- track_formats.impl.h:93-118 get_vector_format -/
def getVector : Option (List Char) → Nat → Bool × Nat :=
  parse [(["Vector3_96".toList, "vector3f_full".toList], 0), (["Vector3_Variable".toList, "vector3f_variable".toList], 1)]

/-- algorithm_types.h:75-84 get_algorithm_name -/
def algorithmName (v : Nat) : List Char := if v = 0 then "uniformly_sampled".toList else "<Invalid>".toList

/-- algorithm_types.h:91-108 get_algorithm_type -/
def getAlgorithm : Option (List Char) → Nat → Bool × Nat :=
  parse [(["UniformlySampled".toList, "uniformly_sampled".toList], 0)]

/-- additive_utils.h:72-82 get_additive_clip_format_name -/
def additiveName (v : Nat) : List Char :=
  if v = 0 then "none".toList else if v = 1 then "relative".toList else if v = 2 then "additive0".toList else if v = 3 then "additive1".toList
  else "<Invalid>".toList

/-- additive_utils.h:84-127 get_additive_clip_format -/
def getAdditive : Option (List Char) → Nat → Bool × Nat :=
  parse [(["None".toList, "none".toList], 0), (["Relative".toList, "relative".toList], 1), (["Additive0".toList, "additive0".toList], 2),
    (["Additive1".toList, "additive1".toList], 3)]

/-- track_types.h:101-113 get_track_type_name -/
def typeName (v : Nat) : List Char :=
  if v = 0 then "float1f".toList else if v = 1 then "float2f".toList else if v = 2 then "float3f".toList else if v = 3 then "float4f".toList
  else if v = 4 then "vector4f".toList else if v = 12 then "qvvf".toList else "<Invalid>".toList

/-- track_types.h:121-140: k_track_type_names -/
def typeNames : List (List Char) :=
  ["float1f".toList, "float2f".toList, "float3f".toList, "float4f".toList, "vector4f".toList, "float1d".toList, "float2d".toList,
    "float3d".toList, "float4d".toList, "vector4d".toList, "quatf".toList, "quatd".toList, "qvvf".toList]

/-- track_types.h:118-158 get_track_type: the index of the name is the value -/
def getType : Option (List Char) → Nat → Bool × Nat := parse (typeNames.zipIdx.map fun e => ([e.1], e.2))

end Acl.Io.Names
