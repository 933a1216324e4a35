import Verif.Settings.Model
import Mathlib.Data.Rat.Defs
/-!
Model of the checks of track descriptions and of has_trivial_default_values.
/repo/includes/acl/core/impl/track_desc.impl.h:44-67
/repo/includes/acl/compression/impl/track.impl.h:167-186
/repo/includes/acl/compression/impl/compress.transform.impl.h:75-110
/repo/includes/acl/compression/impl/compact.transform.h:299-345, 452-485 (whether a clip has scale)

Descriptions are checked on the 32 bits of their floats. Default values are checked after that, they are finite and here numbers.
RTM is not in the repository: `quat_is_normalized` and `quat_near_identity` are parameters.
-/
namespace Acl.Settings
open Acl.F32

inductive TrackError where
  | tooManySamples | sampleRate | precision | shellDistance | defaultNotFinite | defaultNotNormalized | category
  deriving DecidableEq

/-- `b < 0.0F` for every pattern: false for a NaN and for -0, true for -infinity. -/
def negative (b : Bits32) : Bool := if isFinite b then decide (ofBits b < 0) else b == 0xFF800000#32

/-- `b <= 0.0F` for every pattern -/
def notPositive (b : Bits32) : Bool := if isFinite b then decide (ofBits b ≤ 0) else b == 0xFF800000#32

/-- core/track_desc.h track_desc_scalarf, track_desc_transformf: what is_valid looks at. `value` are the ten or more floats of the default
value that rtm::qvv_is_finite looks at, the first four are the rotation. -/
structure ScalarDesc where
  precision : Bits32

structure TransformDesc where
  precision : Bits32
  shellDistance : Bits32
  rotation : List Bits32
  translation : List Bits32
  scale : List Bits32

/-- track_desc.impl.h:44-50 -/
def ScalarDesc.isValid (d : ScalarDesc) : Option TrackError :=
  if negative d.precision || !isFinite d.precision then some .precision else none

/-- track_desc.impl.h:52-67; `normalized` is rtm::quat_is_normalized -/
def TransformDesc.isValid (normalized : List Bits32 → Bool) (d : TransformDesc) : Option TrackError :=
  if negative d.precision || !isFinite d.precision then some .precision
  else if negative d.shellDistance || !isFinite d.shellDistance then some .shellDistance
  else if !(d.rotation ++ d.translation ++ d.scale).all isFinite then some .defaultNotFinite
  else if !normalized d.rotation then some .defaultNotNormalized
  else none

inductive Desc where
  | scalar (d : ScalarDesc)
  | transform (d : TransformDesc)
  | other

/-- compression/track.h track -/
structure RawTrack where
  hasData : Bool
  numSamples : BitVec 32
  sampleRate : Bits32
  desc : Desc

/-- track.impl.h:167-186 track::is_valid -/
def RawTrack.isValid (normalized : List Bits32 → Bool) (t : RawTrack) : Option TrackError :=
  if !t.hasData then none
  else if t.numSamples = 0xFFFFFFFF#32 then some .tooManySamples
  else if notPositive t.sampleRate || !isFinite t.sampleRate then some .sampleRate
  else match t.desc with
    | .scalar d => d.isValid
    | .transform d => d.isValid normalized
    | .other => some .category

/-- Three components. -/
abbrev V3 := ℚ × ℚ × ℚ

/-- A transform track: its default value and its scale samples. -/
structure Transform (R : Type) where
  rotation : R
  translation : V3
  scale : V3
  scales : List V3

/-- core/additive_utils.h additive_clip_format8 -/
inductive Additive where | none | relative | additive0 | additive1
  deriving DecidableEq

/-- rtm::vector_all_near_equal3 with a threshold of 0 -/
def nearEqual3 (a b : V3) : Bool := decide (|a.1 - b.1| ≤ 0) && decide (|a.2.1 - b.2.1| ≤ 0) && decide (|a.2.2 - b.2.2| ≤ 0)

/-- compact.transform.h:299-319 are_scales_constant; `full` is the format vector3f_full, `near` is are_samples_constant -/
def scalesConstant {R : Type} (full : Bool) (near : V3 → List V3 → Bool) (t : Transform R) : Bool :=
  match t.scales with
  | [] => true
  | s :: rest => if full then rest.all (fun x => x = s) else near s (s :: rest)

/-- compact.transform.h:321-346 are_scales_default -/
def scalesDefault {R : Type} (full : Bool) (near : V3 → List V3 → Bool) (t : Transform R) : Bool :=
  match t.scales with
  | [] => true
  | s :: rest => if full then decide (s = t.scale) else near t.scale (s :: rest)

/-- compact.transform.h:452-485: the clip has scale unless the scales of every transform are its default value -/
def hasScale {R : Type} (full : Bool) (near : V3 → List V3 → Bool) (tracks : List (Transform R)) : Bool :=
  tracks.foldl (fun n t => n + if scalesConstant full near t && scalesDefault full near t then 1 else 0) 0 != tracks.length

/-- compress.transform.impl.h:84-99: the loop; `none` is the early return of false, else whether all scales are zero and all are one -/
def trivialLoop {R : Type} (identity : R → Bool) : List (Transform R) → Bool → Bool → Option (Bool × Bool)
  | [], zero, one => some (zero, one)
  | t :: rest, zero, one =>
    if !identity t.rotation then none
    else if !nearEqual3 t.translation (0, 0, 0) then none
    else
      let zero := if !nearEqual3 t.scale (0, 0, 0) then false else zero
      let one := if !nearEqual3 t.scale (1, 1, 1) then false else one
      trivialLoop identity rest zero one

/-- compress.transform.impl.h:75-110 has_trivial_default_values -/
def trivialDefaults {R : Type} (identity : R → Bool) (tracks : List (Transform R)) (format : Additive) (hasScale : Bool) : Bool :=
  match trivialLoop identity tracks true true with
  | none => false
  | some (zero, one) =>
    if hasScale then
      if format = .additive1 ∧ zero = false then false
      else if one = false then false
      else true
    else true

/-- compress.transform.impl.h:287: the value stored in the header, which compressed_tracks::has_trivial_default_values returns -/
def headerTrivial {R : Type} (identity : R → Bool) (full : Bool) (near : V3 → List V3 → Bool) (tracks : List (Transform R))
    (format : Additive) : Bool :=
  trivialDefaults identity tracks format (hasScale full near tracks)

end Acl.Settings
