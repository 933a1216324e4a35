import Verif.Transform.Compact
/-
Pre-processing of raw track lists.
/repo/includes/acl/compression/impl/pre_process.impl.h:46-262
/repo/includes/acl/compression/impl/pre_process.scalar.h:44-107
/repo/includes/acl/compression/impl/pre_process.transform.h:48-330
/repo/includes/acl/compression/impl/optimize_looping.transform.h:52-176 (is_clip_looping)
/repo/includes/acl/compression/impl/pre_process.common.h:77-95 (get_shell_metadata: computed once, kept)

Scalar samples are the numbers their floats denote (NaN and infinity do not exist). Transforms are bit patterns. Every track of a
list has the same number of samples (track_array::is_valid): indices past the end are not modelled. The error metric, the rigid
shells, the normalization of RTM and the key frame of the base that goes with a sample are arbitrary functions; an error is a
value of any linear order. Memory allocation and floating point exceptions are not modelled.
-/
namespace Acl.PreProcess
open Acl.F32 Acl.Transform Acl.Compact

/-- A scalar track: track_desc_scalarf::precision, and its samples, a list of components each -/
structure ScalarTrack where
  precision : ℚ
  samples : List (List ℚ)
  deriving DecidableEq

/-- A transform track: track_desc_transformf::default_value, and its samples -/
structure TransformTrack where
  default : Qvv
  samples : List Qvv
  deriving DecidableEq

/-- The tracks of a track list: all are of the same type -/
inductive Tracks where
  | scalar (l : List ScalarTrack)
  | transform (l : List TransformTrack)
  deriving DecidableEq

/-- track_array -/
structure TrackList where
  tracks : Tracks
  /-- get_looping_policy() == wrap -/
  wraps : Bool
  deriving DecidableEq

/-- pre_process.h:47-84 pre_process_actions -/
structure Actions where
  normalizeRotations : Bool
  ensurePositiveW : Bool
  optimizeLooping : Bool
  sanitizeConstant : Bool
  sanitizeDefault : Bool

/-- An error metric: transform_error_metrics.h:48-330. `convert` takes the sample index and is_lossy. -/
structure Metric (C E σ : Type) where
  convert : Nat → Bool → Qvv → C
  convertBase : Nat → Qvv → C
  additive : C → C → C
  /-- calculate_error, with the shell of the bone -/
  error : σ → C → C → E
  /-- rigid_shell_metadata_t::precision -/
  precision : σ → E

/-- pre_process.h:101-119 pre_process_settings_t -/
structure Settings (C E σ : Type) where
  actions : Actions
  /-- precision_policy == lossy -/
  lossy : Bool
  metric : Option (Metric C E σ)
  /-- additive_format != none -/
  additive : Bool
  /-- additive_base: the samples of its tracks -/
  base : Option (List (List Qvv))

/-- The functions that are not part of the model -/
structure Env (σ : Type) where
  isNormalized : Vec4 → Bool
  normalize : Vec4 → Vec4
  /-- compute_clip_shell_distances: the shells of the bones of a track list -/
  shells : List TransformTrack → Nat → σ
  /-- pre_process.transform.h:221-228: the sample of the base nearest to the time of a sample -/
  baseKey : Nat → Nat

/-- The errors of pre_process_track_list -/
inductive Error where
  | additiveScalar
  | missingBase
  | emptyBase
  | missingMetric
  deriving DecidableEq, Repr

/-! ## Rotations -/

/-- The change of the rotation of every sample -/
def mapRotations (f : Vec4 → Vec4) (l : List TransformTrack) : List TransformTrack :=
  l.map fun t => { t with samples := t.samples.map fun s => { s with rotation := f s.rotation } }

/-- pre_process.transform.h:48-66 pre_process_normalize_rotations -/
def normalizeRotations {σ : Type} (env : Env σ) (lossy : Bool) (l : List TransformTrack) : List TransformTrack :=
  if !lossy then l else mapRotations (fun q => if !env.isNormalized q then env.normalize q else q) l

/-- rtm::quat_neg -/
def negate (q : Vec4) : Vec4 := ⟨q.x ^^^ 0x80000000#32, q.y ^^^ 0x80000000#32, q.z ^^^ 0x80000000#32, q.w ^^^ 0x80000000#32⟩

/-- rtm::quat_ensure_positive_w: the opposite quaternion when W is not at least zero -/
def positiveW (q : Vec4) : Vec4 := if 0 ≤ ofBits q.w then q else negate q

/-- pre_process.transform.h:68-81 pre_process_ensure_quat_w_positive -/
def ensurePositiveW (l : List TransformTrack) : List TransformTrack := mapRotations positiveW l

/-! ## Scalar tracks -/

/-- A lane of load_as_vector (core/track_traits.h:58-110): zero past the components -/
def lane (s : List ℚ) (k : Nat) : ℚ := s.getD k 0

/-- rtm::vector_all_near_equal -/
def allNear (a b : List ℚ) (precision : ℚ) : Bool := (List.range 4).all fun k => decide (|fsub (lane a k) (lane b k)| ≤ precision)

/-- pre_process.scalar.h:44-73 pre_process_optimize_looping_scalar -/
def loopScalar (n : Nat) (l : List ScalarTrack) : List ScalarTrack :=
  if l.all fun t => allNear (t.samples.getD 0 []) (t.samples.getD (n - 1) []) t.precision then
    l.map fun t => { t with samples := t.samples.set (n - 1) (t.samples.getD 0 []) }
  else l

/-- pre_process.scalar.h:88-97: a lane of the minimum over the samples: it starts with the first one -/
def minLane (k : Nat) (l : List (List ℚ)) : ℚ := (l.drop 1).foldl (fun m s => min m (lane s k)) (lane (l.getD 0 []) k)

/-- The maximum: it starts with the last sample -/
def maxLane (k : Nat) (l : List (List ℚ)) : ℚ := (l.drop 1).foldl (fun m s => max m (lane s k)) (lane (l.getD (l.length - 1) []) k)

/-- pre_process.scalar.h:99-100: the extent is within the precision -/
def isConstantScalar (t : ScalarTrack) : Bool :=
  (List.range 4).all fun k => decide (fsub (maxLane k t.samples) (minLane k t.samples) ≤ t.precision)

/-- pre_process.scalar.h:75-107 pre_process_sanitize_constant_tracks_scalar -/
def constantScalar (t : ScalarTrack) : ScalarTrack :=
  if isConstantScalar t then { t with samples := t.samples.mapIdx fun i s => if 1 ≤ i then t.samples.getD 0 [] else s } else t

/-! ## Transform tracks -/

/-- A component of a transform -/
def Qvv.get (t : Qvv) : Kind → Vec4
  | .rotation => t.rotation
  | .translation => t.translation
  | .scale => t.scale

/-- What the metric needs for a track list -/
structure Measure (C E σ : Type) where
  metric : Metric C E σ
  shells : Nat → σ
  baseKey : Nat → Nat
  /-- the samples of the base, when there is an additive format -/
  base : Option (List (List Qvv))

/-- A sample of a list of samples; indices are within bounds -/
def sampleAt (l : List Qvv) (i : Nat) : Qvv := l.getD i ⟨⟨0, 0, 0, 0⟩, ⟨0, 0, 0, 0⟩, ⟨0, 0, 0, 0⟩⟩

/-- pre_process.transform.h:199-249: what the metric compares for sample `i` of track `j` -/
def Measure.prepared {C E σ : Type} (M : Measure C E σ) (j i : Nat) (isLossy : Bool) (t : Qvv) : C :=
  match M.base with
  | none => M.metric.convert i isLossy t
  | some base => M.metric.additive (M.metric.convertBase (M.baseKey i) (sampleAt (base.getD j []) (M.baseKey i))) (M.metric.convert i isLossy t)

/-- pre_process.transform.h:251: the error of a transform in place of sample `i` of track `j` -/
def Measure.distance {C E σ : Type} (M : Measure C E σ) (j i : Nat) (raw lossy : Qvv) : E :=
  M.metric.error (M.shells j) (M.prepared j i false raw) (M.prepared j i true lossy)

/-- pre_process.transform.h:114-260 pre_process_are_samples_constant -/
def areConstant {C E σ : Type} [LinearOrder E] (M : Measure C E σ) (j : Nat) (samples : List Qvv) (reference : Vec4) (kind : Kind) : Bool :=
  (List.range samples.length).all fun i =>
    !decide (M.distance j i (sampleAt samples i) ((sampleAt samples i).set kind reference) > M.metric.precision (M.shells j))

/-- The component of the samples from the index `first` on -/
def replaceFrom (first : Nat) (kind : Kind) (v : Vec4) (samples : List Qvv) : List Qvv :=
  samples.mapIdx fun i s => if first ≤ i then s.set kind v else s

/-- pre_process.transform.h:273-292: a sub-track of sanitize_constant -/
def constantSub {C E σ : Type} [LinearOrder E] (M : Measure C E σ) (j : Nat) (kind : Kind) (samples : List Qvv) : List Qvv :=
  if areConstant M j samples (Qvv.get (sampleAt samples 0) kind) kind then replaceFrom 1 kind (Qvv.get (sampleAt samples 0) kind) samples
  else samples

/-- pre_process.transform.h:262-294 pre_process_sanitize_constant_tracks_transform, for one track -/
def constantTransform {C E σ : Type} [LinearOrder E] (M : Measure C E σ) (j : Nat) (t : TransformTrack) : TransformTrack :=
  { t with samples := constantSub M j .scale (constantSub M j .translation (constantSub M j .rotation t.samples)) }

/-- pre_process.transform.h:308-327: a sub-track of sanitize_default -/
def defaultSub {C E σ : Type} [LinearOrder E] (M : Measure C E σ) (j : Nat) (default : Qvv) (kind : Kind) (samples : List Qvv) : List Qvv :=
  if areConstant M j samples (Qvv.get default kind) kind then replaceFrom 0 kind (Qvv.get default kind) samples else samples

/-- pre_process.transform.h:296-330 pre_process_sanitize_default_tracks_transform, for one track -/
def defaultTransform {C E σ : Type} [LinearOrder E] (M : Measure C E σ) (j : Nat) (t : TransformTrack) : TransformTrack :=
  { t with samples := defaultSub M j t.default .scale (defaultSub M j t.default .translation (defaultSub M j t.default .rotation t.samples)) }

/-- optimize_looping.transform.h:122-163: what the metric compares, the first sample on the first sample of the base and the last
one on the last -/
def Measure.loopPrepared {C E σ : Type} (M : Measure C E σ) (n j baseSample : Nat) (t : Qvv) : C :=
  match M.base with
  | none => M.metric.convert (n - 1) true t
  | some base => M.metric.additive (M.metric.convertBase ((base.getD 0 []).length - 1) (sampleAt (base.getD j []) baseSample))
      (M.metric.convert (n - 1) true t)

/-- The index of the last sample of the base -/
def Measure.baseLast {C E σ : Type} (M : Measure C E σ) : Nat :=
  match M.base with
  | none => 0
  | some base => (base.getD 0 []).length - 1

/-- optimize_looping.transform.h:52-176 is_clip_looping: the error of every track -/
def isLooping {C E σ : Type} [LinearOrder E] (M : Measure C E σ) (n : Nat) (l : List TransformTrack) : Bool :=
  (List.range l.length).all fun j =>
    !decide (M.metric.error (M.shells j)
      (M.loopPrepared n j 0 (sampleAt ((l.map (·.samples)).getD j []) 0))
      (M.loopPrepared n j M.baseLast (sampleAt ((l.map (·.samples)).getD j []) (n - 1))) > M.metric.precision (M.shells j))

/-- pre_process.transform.h:83-104 pre_process_optimize_looping_transform -/
def loopTransform {C E σ : Type} [LinearOrder E] (M : Measure C E σ) (n : Nat) (l : List TransformTrack) : List TransformTrack :=
  if isLooping M n l then l.map fun t => { t with samples := t.samples.set (n - 1) (sampleAt t.samples 0) } else l

/-! ## The function -/

/-- get_num_samples_per_track -/
def TrackList.numSamples (a : TrackList) : Nat :=
  match a.tracks with
  | .scalar l => (l.map (·.samples.length)).getD 0 0
  | .transform l => (l.map (·.samples.length)).getD 0 0

/-- is_empty -/
def TrackList.isEmpty (a : TrackList) : Bool :=
  match a.tracks with
  | .scalar l => l.isEmpty
  | .transform l => l.isEmpty

/-- pre_process.impl.h:46-98 pre_process_optimize_looping: when there is something to do -/
def loops (lossy wraps : Bool) (n : Nat) : Bool := lossy && !wraps && decide (1 < n)

/-- The actions on scalar tracks: pre_process.impl.h:228-257 -/
def scalarActions (actions : Actions) (lossy wraps : Bool) (n : Nat) (l : List ScalarTrack) : List ScalarTrack :=
  let l1 := if actions.optimizeLooping && loops lossy wraps n then loopScalar n l else l
  if actions.sanitizeConstant && lossy then l1.map constantScalar else l1

/-- The lossy actions on transform tracks that need a metric -/
def transformActions {C E σ : Type} [LinearOrder E] (M : Measure C E σ) (actions : Actions) (wraps : Bool) (n : Nat)
    (l : List TransformTrack) : List TransformTrack :=
  let l1 := if actions.optimizeLooping && loops true wraps n then loopTransform M n l else l
  let l2 := if actions.sanitizeConstant then l1.mapIdx (constantTransform M) else l1
  if actions.sanitizeDefault then l2.mapIdx (defaultTransform M) else l2

/-- The actions on rotations: pre_process.impl.h:216-226 -/
def rotationActions {σ : Type} (env : Env σ) (actions : Actions) (lossy : Bool) (l : List TransformTrack) : List TransformTrack :=
  let l1 := if actions.normalizeRotations then normalizeRotations env lossy l else l
  if actions.ensurePositiveW then ensurePositiveW l1 else l1

/-- pre_process.impl.h:196-206: the checks of the additive settings -/
def additiveError {C E σ : Type} (s : Settings C E σ) (a : TrackList) : Option Error :=
  if !s.additive then none
  else match a.tracks, s.base with
    | .scalar _, _ => some .additiveScalar
    | .transform _, none => some .missingBase
    | .transform _, some b => if b.isEmpty then some .emptyBase else none

/-- Whether one of the actions needs the metric -/
def needsMetric (actions : Actions) : Bool := actions.optimizeLooping || actions.sanitizeConstant || actions.sanitizeDefault

/-- pre_process.impl.h:183-262 pre_process_track_list: the error, and the track list as it is left. The shells are those of the track
list when they are first needed: after the actions on rotations. Simplified: the test for a missing metric, which the code repeats
before each of the three actions that need it, is made once: nothing is changed between these tests. -/
def preProcess {C E σ : Type} [LinearOrder E] (env : Env σ) (s : Settings C E σ) (a : TrackList) : Option Error × TrackList :=
  if a.isEmpty then (none, a)
  else if a.numSamples = 0 then (none, a)
  else match additiveError s a with
    | some e => (some e, a)
    | none =>
      match a.tracks with
      | .scalar l => (none, { a with tracks := .scalar (scalarActions s.actions s.lossy a.wraps a.numSamples l) })
      | .transform l =>
        if !s.lossy then (none, { a with tracks := .transform (rotationActions env s.actions s.lossy l) })
        else match s.metric with
          | none => (if needsMetric s.actions then some .missingMetric else none, { a with tracks := .transform (rotationActions env s.actions s.lossy l) })
          | some m =>
            (none, { a with tracks := .transform (transformActions
              ⟨m, env.shells (rotationActions env s.actions s.lossy l), env.baseKey, if s.additive then s.base else none⟩
              s.actions a.wraps a.numSamples (rotationActions env s.actions s.lossy l)) })

end Acl.PreProcess
