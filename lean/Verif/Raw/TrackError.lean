import Verif.Transform.Hierarchy
/-
calculate_compression_error: the worst error between two lists of tracks.
/repo/includes/acl/compression/track_error.h:45-60 (track_error)
/repo/includes/acl/compression/impl/track_error.impl.h:52-106 (get_scalar_track_error), 165-220 (calculate_scalar_track_error),
222-395 (calculate_transform_track_error), 398-460, 462-570, 572-690, 692-750, 752-800, 802-870 (the overloads)

Where the values come from is left open: `raw` and `lossy` stand for sample_tracks0 and sample_tracks1, functions of the
sample time and the rounding policy. Transforms of the error metric, their product and the error between two of them are
arbitrary. Poses are lists; an access outside them is `none`. Errors are rational numbers (no NaN).
-/
namespace Acl.TrackError
open Acl Acl.F32 Acl.Interp Acl.Raw Acl.Hierarchy

/-- track_error.h:45-60 -/
structure Result where
  index : Nat
  error : ℚ
  time : ℚ
  deriving DecidableEq

/-- track_error.h:52-60: a default constructed track_error -/
def Result.default : Result := { index := invalidIndex, error := 0, time := 0 }

/-- track_error.impl.h:176-177, 330-331: the result before anything is measured -/
def Result.start : Result := { index := invalidIndex, error := -1, time := 0 }

/-- track_error.impl.h:209-214, 379-384 -/
def keepWorst (r : Result) (index : Nat) (error time : ℚ) : Result :=
  if r.error < error then { index := index, error := error, time := time } else r

/-- track_error.impl.h:192, 335: `min(float(sample_index) / sample_rate, duration)` -/
def sampleTime (sample : Nat) (rate : ℚ) (duration : FInf) : ℚ :=
  match duration with
  | .fin d => min (fdiv (ofNat sample) rate) d
  | .inf => fdiv (ofNat sample) rate

/-- track_error.impl.h:447-452, 554-559 (and 738-743 with both clips): the nearest sample, unless key frames may be missing -/
def roundingPolicy (hasDatabase hasStripped : Bool) : Rounding :=
  if hasDatabase || hasStripped then .none else .nearest

/-- track_error.impl.h:52-106 get_scalar_track_error and vector_get_max_component: the components that the type does not have
are zero, and so is the least absolute value -/
def scalarTrackError (raw lossy : List ℚ) : ℚ :=
  (List.zipWith (fun a b => abs (fsub a b)) raw lossy).foldl max 0

/-- track_error.impl.h:198-215: the loop over the tracks -/
def scalarTracks (outputs : List Nat) (raw lossy : List (List ℚ)) (time : ℚ) : List Nat → Result → Option Result
  | [], r => some r
  | i :: rest, r => do
    let output ← outputs[i]?
    if output = invalidIndex then scalarTracks outputs raw lossy time rest r
    else
      let a ← raw[i]?
      let b ← lossy[output]?
      scalarTracks outputs raw lossy time rest (keepWorst r i (scalarTrackError a b) time)

/-- track_error.impl.h:190-216: the loop over the samples -/
def scalarSamples (outputs : List Nat) (raw lossy : ℚ → List (List ℚ)) (timeOf : Nat → ℚ) :
    List Nat → Result → Option Result
  | [], r => some r
  | s :: rest, r => do
    let r ← scalarTracks outputs (raw (timeOf s)) (lossy (timeOf s)) (timeOf s) (List.range outputs.length) r
    scalarSamples outputs raw lossy timeOf rest r

/-- track_error.impl.h:165-219 calculate_scalar_track_error; `outputs` is get_output_index of every track -/
def scalarError (numSamples : Nat) (outputs : List Nat) (rate : ℚ) (duration : FInf)
    (raw lossy : ℚ → List (List ℚ)) : Option Result :=
  if numSamples = 0 then some .default
  else if outputs.length = 0 then some .default
  else scalarSamples outputs raw lossy (fun s => sampleTime s rate duration) (List.range numSamples) .start

/-- What calculate_transform_track_error gets from the error metric: `convert` (identity without needs_conversion),
local_to_object_space's product, apply_additive_to_base and calculate_error with a shell distance. -/
structure Metric (T C : Type) where
  convert : T → C
  mul : C → C → C
  additive : C → C → C
  error : C → C → ℚ → ℚ

/-- The additive base: additive_base_tracks, when it is not empty -/
structure Base (T : Type) where
  numSamples : Nat
  duration : ℚ
  sample : ℚ → List T

/-- track_error.impl.h:352-354: the time at which the base is sampled -/
def Base.timeOf {T : Type} (b : Base T) (time clipDuration : ℚ) : ℚ :=
  if 1 < b.numSamples then fmul (fdiv time clipDuration) b.duration else 0

/-- track_error.impl.h:524-535, 641-652 remap_output: the raw pose, overwritten by what was decompressed -/
def remap {T : Type} (raw lossy : List T) : List Nat → Nat → Option (List T)
  | [], _ => some raw
  | bone :: rest, output => do
    let x ← lossy[output]?
    if bone < raw.length then remap (raw.set bone x) lossy rest (output + 1) else none

/-- track_error.impl.h:343-364: the local pose the metric works on -/
def localPose {T C : Type} (M : Metric T C) (base : Option (Base T)) (clipDuration time : ℚ) (pose : List T) : List C :=
  match base with
  | none => pose.map M.convert
  | some b => List.zipWith M.additive ((b.sample (b.timeOf time clipDuration)).map M.convert) (pose.map M.convert)

/-- track_error.impl.h:369-385: the loop over the bones -/
def bones {T C : Type} (M : Metric T C) (shells : List ℚ) (raw lossy : List C) (time : ℚ) : List Nat → Result → Option Result
  | [], r => some r
  | i :: rest, r => do
    let a ← raw[i]?
    let b ← lossy[i]?
    let shell ← shells[i]?
    bones M shells raw lossy time rest (keepWorst r i (M.error a b shell) time)

/-- track_error.impl.h:333-386: the loop over the samples; the object poses keep what the previous sample has written -/
def samples {T C : Type} (M : Metric T C) (base : Option (Base T)) (clipDuration : ℚ) (parents : List Nat)
    (shells : List ℚ) (mapping : List Nat) (raw lossy : ℚ → List T) (timeOf : Nat → ℚ) :
    List Nat → List C → List C → Result → Option Result
  | [], _, _, r => some r
  | s :: rest, rawObject, lossyObject, r => do
    let pose0 := raw (timeOf s)
    let pose1 ← remap pose0 (lossy (timeOf s)) mapping 0
    let rawObject ← localToObject M.mul parents (localPose M base clipDuration (timeOf s) pose0)
      (List.range parents.length) rawObject
    let lossyObject ← localToObject M.mul parents (localPose M base clipDuration (timeOf s) pose1)
      (List.range parents.length) lossyObject
    let r ← bones M shells rawObject lossyObject (timeOf s) (List.range parents.length) r
    samples M base clipDuration parents shells mapping raw lossy timeOf rest rawObject lossyObject r

/-- track_error.impl.h:222-395 calculate_transform_track_error; `garbage0` and `garbage1` are what the object poses hold when
they are allocated -/
def transformError {T C : Type} (M : Metric T C) (base : Option (Base T)) (numSamples : Nat) (parents : List Nat)
    (shells : List ℚ) (mapping : List Nat) (rate clipDuration : ℚ) (raw lossy : ℚ → List T) (garbage0 garbage1 : List C) :
    Option Result :=
  if numSamples = 0 then some .default
  else if parents.length = 0 then some .default
  else samples M base clipDuration parents shells mapping raw lossy (fun s => sampleTime s rate (.fin clipDuration))
    (List.range numSamples) garbage0 garbage1 .start

end Acl.TrackError
