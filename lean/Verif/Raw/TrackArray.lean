import Verif.Core.Interpolation
import Verif.Core.Lerp
/-
Raw track arrays: validation, sampling, output mapping.
/repo/includes/acl/compression/track_array.h:88-105
/repo/includes/acl/compression/impl/track_array.impl.h:100-205 (durations, is_valid), 207-420 (sampling)
/repo/includes/acl/compression/impl/track.impl.h:167-186 (track::is_valid)
/repo/includes/acl/compression/impl/track_list_context.h:206-230 (create_output_track_mapping)
/repo/includes/acl/compression/impl/write_track_metadata.h:105-143 (write_parent_track_indices)
/repo/includes/acl/compression/impl/compress.scalar.impl.h, compress.transform.impl.h:271 (users of the mapping)

The blends of RTM (scalar_lerp, vector_lerp, quat_lerp) are arbitrary functions here. An index past the samples of a
track is `none`. Allocators are left out: an array without one has no tracks.
-/
namespace Acl.Raw
open Acl.Interp

/-- core/track_types.h track_type8 -/
inductive TrackType where | float1f | float2f | float3f | float4f | vector4f | qvvf
  deriving DecidableEq, Repr

/-- core/track_types.h: an invalid track index -/
def invalidIndex : Nat := 2 ^ 32 - 1

/-- A sample: its floats, or a transform. -/
structure Sample where
  floats : List ℚ
  rotation : List ℚ
  translation : List ℚ
  scale : List ℚ
  deriving DecidableEq

/-- compression/track.h track; `descValid` is the result of `desc.is_valid()`. -/
structure Track where
  type : TrackType
  samples : List Sample
  sampleRate : ℚ
  outputIndex : Nat
  parentIndex : Nat
  hasData : Bool
  descValid : Bool

/-- compression/track_array.h track_array -/
structure TrackArray where
  tracks : List Track
  looping : Looping

/-- track_array.h:92 get_num_samples_per_track -/
def TrackArray.numSamples (a : TrackArray) : Nat := match a.tracks with | [] => 0 | t :: _ => t.samples.length
/-- track_array.h:96 get_track_type -/
def TrackArray.type (a : TrackArray) : TrackType := match a.tracks with | [] => .float1f | t :: _ => t.type
/-- track_array.h:104 get_sample_rate -/
def TrackArray.sampleRate (a : TrackArray) : ℚ := match a.tracks with | [] => 0 | t :: _ => t.sampleRate

/-- track.impl.h:167-186 track::is_valid; finiteness of the rate is implied by the model of floats -/
def Track.isValid (t : Track) : Bool :=
  if !t.hasData then true
  else if t.samples.length = 2 ^ 32 - 1 then false
  else if t.sampleRate ≤ 0 then false
  else t.descValid

/-- track_array.impl.h:141-164: the loop of is_valid over the tracks -/
def trackOk (a : TrackArray) (t : Track) : Bool :=
  t.type == a.type && t.samples.length == a.numSamples && t.sampleRate == a.sampleRate && t.isValid &&
    !(t.type == .qvvf && t.parentIndex != invalidIndex && decide (a.tracks.length ≤ t.parentIndex))

/-- track_array.impl.h:166-187: the output indices, the number of outputs so far; `none` is an error -/
def countOutputs (numTracks : Nat) : List Nat → Nat → Option Nat
  | [], n => some n
  | o :: rest, n =>
    if o ≠ invalidIndex ∧ numTracks ≤ o then none
    else if o ≠ invalidIndex then
      if rest.any (fun o2 => o == o2) then none else countOutputs numTracks rest (n + 1)
    else countOutputs numTracks rest n

/-- track_array.impl.h:189-205: every output index below the count is used -/
def contiguous (outputs : List Nat) (numOutputs : Nat) : Bool :=
  (List.range numOutputs).all fun k => outputs.any fun o => k == o

/-- track_array.impl.h:135-208 is_valid (true: no error) -/
def TrackArray.isValid (a : TrackArray) : Bool :=
  a.tracks.all (trackOk a) &&
    match countOutputs a.tracks.length (a.tracks.map (·.outputIndex)) 0 with
    | none => false
    | some n => contiguous (a.tracks.map (·.outputIndex)) n

/-! ## The output mapping -/

/-- track_list_context.h:208-215: the number of tracks that are not stripped -/
def numOutputTracks (a : TrackArray) : Nat :=
  a.tracks.foldl (fun n t => if t.outputIndex = invalidIndex then n - 1 else n) a.tracks.length

/-- track_list_context.h:218-224: `output_indices[output_index] = track_index`; `none` is a write out of bounds -/
def fillMapping : List Track → Nat → List Nat → Option (List Nat)
  | [], _, out => some out
  | t :: rest, i, out =>
    if t.outputIndex ≠ invalidIndex then
      if t.outputIndex < out.length then fillMapping rest (i + 1) (out.set t.outputIndex i) else none
    else fillMapping rest (i + 1) out

/-- track_list_context.h:206-229 create_output_track_mapping; the array is not initialized, `garbage` stands for it -/
def outputMapping (garbage : Nat) (a : TrackArray) : Option (List Nat) :=
  fillMapping a.tracks 0 (List.replicate (numOutputTracks a) garbage)

/-- write_track_metadata.h:109-121 find_output_index -/
def findOutputIndex (mapping : List Nat) (track : Nat) : Nat :=
  if track = invalidIndex then invalidIndex
  else
    let k := mapping.findIdx (fun t => t == track)
    if k < mapping.length then k else invalidIndex

/-- write_track_metadata.h:126-139 write_parent_track_indices: the parent of every output track -/
def parentOutputIndices (a : TrackArray) (mapping : List Nat) : Option (List Nat) :=
  mapping.mapM fun track => (a.tracks[track]?).map fun t => findOutputIndex mapping t.parentIndex

/-! ## Sampling -/

/-- The blends of RTM. -/
structure Blends where
  scalarLerp : List ℚ → List ℚ → ℚ → List ℚ
  vectorLerp : List ℚ → List ℚ → ℚ → List ℚ
  quatLerp : List ℚ → List ℚ → ℚ → List ℚ

/-- What the writer receives. -/
inductive Event where
  | float (type : TrackType) (track : Nat) (value : List ℚ)
  | rotation (track : Nat) (value : List ℚ)
  | translation (track : Nat) (value : List ℚ)
  | scale (track : Nat) (value : List ℚ)
  deriving DecidableEq

/-- track_array.impl.h:112-125 get_finite_duration -/
def TrackArray.finiteDuration (a : TrackArray) : FInf :=
  if a.tracks.length = 0 then .fin 0
  else
    let n := a.numSamples
    let n := if a.looping = .wrap ∧ n ≠ 0 then (n + 1) % 2 ^ 32 else n
    calculateFiniteDuration n a.sampleRate

/-- track_array.impl.h:249-343 and 368-419: one track; the switch is on `type` -/
def sampleOne (B : Blends) (type : TrackType) (t : Track) (index f0 f1 : Nat) (alpha : ℚ) : Option (List Event) := do
  let s0 ← t.samples[f0]?
  let s1 ← t.samples[f1]?
  match type with
  | .float1f => pure [.float .float1f index (B.scalarLerp s0.floats s1.floats alpha)]
  | .float2f => pure [.float .float2f index (B.vectorLerp s0.floats s1.floats alpha)]
  | .float3f => pure [.float .float3f index (B.vectorLerp s0.floats s1.floats alpha)]
  | .float4f => pure [.float .float4f index (B.vectorLerp s0.floats s1.floats alpha)]
  | .vector4f => pure [.float .vector4f index (B.vectorLerp s0.floats s1.floats alpha)]
  | .qvvf => pure [.rotation index (B.quatLerp s0.rotation s1.rotation alpha),
      .translation index (B.vectorLerp s0.translation s1.translation alpha),
      .scale index (B.vectorLerp s0.scale s1.scale alpha)]

/-- track_array.impl.h:232-243 interpolation_alpha_per_policy, indexed by the policy -/
def alphaPerPolicy (alpha : ℚ) : Rounding → ℚ
  | .none => applyRounding alpha .none
  | .floor => applyRounding alpha .floor
  | .ceil => applyRounding alpha .ceil
  | .nearest => applyRounding alpha .nearest
  | .perTrack => applyRounding alpha .none

/-- track_array.impl.h:245-346: the loop over the tracks of sample_tracks -/
def sampleLoop (B : Blends) (type : TrackType) (policyOf : Nat → Rounding) (f0 f1 : Nat) (alpha : ℚ) :
    List Track → Nat → Option (List Event)
  | [], _ => some []
  | t :: rest, i => do
    let e ← sampleOne B type t i f0 f1 (alphaPerPolicy alpha (policyOf i))
    let es ← sampleLoop B type policyOf f0 f1 alpha rest (i + 1)
    pure (e ++ es)

/-- track_array.impl.h:208-347 sample_tracks; `policyOf` is writer.get_rounding_policy -/
def sampleTracks (B : Blends) (a : TrackArray) (time : ℚ) (rounding : Rounding) (policyOf : Rounding → Nat → Rounding) :
    Option (List Event) := do
  let t := clampTime time a.finiteDuration
  let (f0, f1, alpha) ← samplesWithRate a.numSamples a.sampleRate t .perTrack a.looping
  sampleLoop B a.type (policyOf rounding) f0 f1 alpha a.tracks 0

/-- track_array.impl.h:349-423 sample_track -/
def sampleTrack (B : Blends) (a : TrackArray) (index : Nat) (time : ℚ) (rounding : Rounding)
    (policyOf : Rounding → Nat → Rounding) : Option (List Event) := do
  let track ← a.tracks[index]?
  let t := clampTime time a.finiteDuration
  let (f0, f1, alpha) ← samplesWithRate a.numSamples a.sampleRate t (policyOf rounding index) a.looping
  sampleOne B track.type track index f0 f1 alpha

end Acl.Raw
