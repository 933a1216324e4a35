import Verif.Transform.Quantize
/-
Detection of constant and default sub-tracks.
/repo/includes/acl/compression/impl/compact.transform.h:73-195 (are_samples_constant), 197-346 (the six tests),
  354-478 (compact_constant_streams)
/repo/includes/acl/compression/impl/normalize.transform.h:50-98 (the clip ranges), track_stream.h:215-245 (get_sample, get_sample_clamped),
  349-395 (track_stream_range)
Samples are bit patterns. The error metric is arbitrary: conversion, additive base and error are functions; an error is a value of
any linear order (a NaN error, which the code accepts as precise enough, is outside of it). The error correction under
ACL_IMPL_ENABLE_CONSTANT_ERROR_CORRECTION is not compiled and not modelled.
-/
namespace Acl.Compact
open Acl.F32 Acl.RangeReduction Acl.Transform

/-- rtm::qvvf -/
structure Qvv where
  rotation : Vec4
  translation : Vec4
  scale : Vec4
  deriving DecidableEq, Repr

/-- compact.transform.h:137-149: the fix up of the lossy transform -/
def Qvv.set (t : Qvv) (kind : Kind) (v : Vec4) : Qvv :=
  match kind with
  | .rotation => ⟨v, t.translation, t.scale⟩
  | .translation => ⟨t.rotation, v, t.scale⟩
  | .scale => ⟨t.rotation, t.translation, v⟩

/-- A SIMD lane. -/
inductive Lane where | x | y | z | w
  deriving DecidableEq, Repr

/-- A component of a vector. -/
def component (v : Vec4) : Lane → BitVec 32
  | .x => v.x
  | .y => v.y
  | .z => v.z
  | .w => v.w

/-- rtm::vector_all_equal -/
def allEqual (a b : Vec4) : Bool :=
  ofBits a.x = ofBits b.x ∧ ofBits a.y = ofBits b.y ∧ ofBits a.z = ofBits b.z ∧ ofBits a.w = ofBits b.w

/-- rtm::vector_set_w(v, 0.0F) -/
def zeroW (v : Vec4) : Vec4 := ⟨v.x, v.y, v.z, 0⟩

/-- transform_streams (clip_context.h) and transform_range (track_stream.h:397-402) of a bone -/
structure Streams where
  /-- rotations, translations and scales -/
  samples : Kind → List Vec4
  flags : Kind → StreamFlags
  range : Kind → Lane → Range

/-- What the tests read besides the streams. -/
structure Setup (C E : Type) where
  rotationFormat : RotationFormat
  translationFormat : VectorFormat
  scaleFormat : VectorFormat
  /-- quat_normalize(quat_from_positive_w(rotation)): track_stream.h:215-232 -/
  rebuildW : Vec4 → Vec4
  /-- convert_transforms of the metric by sample index and is_lossy, the identity when needs_conversion is false -/
  convert : Nat → Bool → Qvv → C
  /-- convert_transforms with is_additive_base -/
  convertBase : Nat → Qvv → C
  /-- apply_additive_to_base: the base and the additive transform -/
  additive : C → C → C
  /-- calculate_error with the local shell distance of the bone -/
  error : Nat → C → C → E
  /-- clip_shell_metadata[transform_index].precision -/
  precision : Nat → E
  /-- has_additive_base: the base transform of a bone at one of its samples (get_sample_clamped) -/
  base : Option (Nat → Nat → Qvv)
  /-- compact.transform.h:160-167: the sample of the base nearest to the time of a sample -/
  baseKey : Nat → Nat

/-- rotation_format8::quatf_full, vector_format8::vector3f_full: the raw formats -/
def Setup.isFull {C E : Type} (S : Setup C E) : Kind → Bool
  | .rotation => S.rotationFormat = .quatfFull
  | .translation => S.translationFormat = .full
  | .scale => S.scaleFormat = .full

/-- track_stream.h:215-232, 296-299, 347-350 get_sample, of a sample that is already read. The streams are in the high precision
format of the variant (convert_rotation.transform.h:72). -/
def Setup.read {C E : Type} (S : Setup C E) (kind : Kind) (v : Vec4) : Vec4 :=
  if kind = .rotation ∧ S.rotationFormat ≠ .quatfFull then S.rebuildW v else v

/-- get_sample_clamped -/
def Setup.sampleClamped {C E : Type} (S : Setup C E) (b : Streams) (kind : Kind) (index : Nat) : Option Vec4 :=
  ((b.samples kind)[min index ((b.samples kind).length - 1)]?).map (S.read kind)

/-- compact.transform.h:128-132: the raw transform -/
def Setup.transformAt {C E : Type} (S : Setup C E) (b : Streams) (index : Nat) : Option Qvv := do
  let r ← S.sampleClamped b .rotation index
  let t ← S.sampleClamped b .translation index
  let s ← S.sampleClamped b .scale index
  some ⟨r, t, s⟩

/-- compact.transform.h:154-192: what the metric compares -/
def Setup.prepared {C E : Type} (S : Setup C E) (bone index : Nat) (isLossy : Bool) (t : Qvv) : C :=
  match S.base with
  | none => S.convert index isLossy t
  | some base => S.additive (S.convertBase (S.baseKey index) (base bone (S.baseKey index))) (S.convert index isLossy t)

/-- compact.transform.h:154-194: the error of a transform -/
def Setup.distance {C E : Type} (S : Setup C E) (bone index : Nat) (raw lossy : Qvv) : E :=
  S.error bone (S.prepared bone index false raw) (S.prepared bone index true lossy)

/-- compact.transform.h:73-203 are_samples_constant, over the sample indices -/
def samplesConstant {C E : Type} [LinearOrder E] (S : Setup C E) (b : Streams) (bone : Nat) (reference : Vec4) (kind : Kind) :
    List Nat → Option Bool
  | [] => some true
  | i :: rest => do
    let raw ← S.transformAt b i
    if S.distance bone i raw (raw.set kind reference) > S.precision bone then some false
    else samplesConstant S b bone reference kind rest

/-- track_stream.h:373-381 is_constant(0.0F) -/
def exactlyConstant (range : Lane → Range) : Bool :=
  (range .x).min = (range .x).max ∧ (range .y).min = (range .y).max ∧ (range .z).min = (range .z).max ∧ (range .w).min = (range .w).max

/-- compact.transform.h:205-223, 250-268, 295-316 are_rotations_constant, are_translations_constant, are_scales_constant -/
def isConstant {C E : Type} [LinearOrder E] (S : Setup C E) (numSamples : Nat) (hasScale : Bool) (b : Streams) (bone : Nat)
    (kind : Kind) : Option Bool :=
  if numSamples = 0 then some true
  else if kind = .scale ∧ hasScale = false then some true
  else if S.isFull kind then some (exactlyConstant (b.range kind))
  else do
    let first ← (b.samples kind)[0]?
    samplesConstant S b bone (S.read kind first) kind (List.range numSamples)

/-- compact.transform.h:225-248, 270-293, 318-344 are_rotations_default, are_translations_default, are_scales_default -/
def isDefault {C E : Type} [LinearOrder E] (S : Setup C E) (numSamples : Nat) (hasScale : Bool) (b : Streams) (bone : Nat)
    (defaultValue : Vec4) (kind : Kind) : Option Bool :=
  if numSamples = 0 then some true
  else if kind = .scale ∧ hasScale = false then some true
  else if S.isFull kind then do
    let first ← (b.samples kind)[0]?
    some (allEqual first defaultValue)
  else samplesConstant S b bone defaultValue kind (List.range numSamples)

/-- compact.transform.h:398, 426, 453: the value before the test for the default one -/
def firstValue (numSamples : Nat) (hasScale : Bool) (b : Streams) (kind : Kind) (defaultValue : Vec4) : Option Vec4 :=
  if numSamples ≠ 0 ∧ (kind = .scale → hasScale = true) then (b.samples kind)[0]? else some defaultValue

/-- compact.transform.h:402-413, 430-442, 457-469: the constant stream and its range -/
def Streams.replace (b : Streams) (kind : Kind) (value : Vec4) (isDefault : Bool) : Streams where
  samples := fun k => if k = kind then [value] else b.samples k
  flags := fun k => if k = kind then ⟨isDefault, true⟩ else b.flags k
  range := fun k => if k = kind then fun l => fromMinExtent (ofBits (component (if kind = .rotation then value else zeroW value) l)) 0 else b.range k

/-- compact.transform.h:396, 424, 451: desc.default_value -/
def defaultOf (defaults : Qvv) : Kind → Vec4
  | .rotation => defaults.rotation
  | .translation => defaults.translation
  | .scale => defaults.scale

/-- compact.transform.h:392-418, 420-446, 448-475: one sub-track -/
def compactSubTrack {C E : Type} [LinearOrder E] (S : Setup C E) (numSamples : Nat) (hasScale : Bool) (bone : Nat) (defaults : Qvv)
    (kind : Kind) (b : Streams) : Option Streams := do
  let defaultValue := defaultOf defaults kind
  let constant ← isConstant S numSamples hasScale b bone kind
  if constant then do
    let first ← firstValue numSamples hasScale b kind defaultValue
    let default ← isDefault S numSamples hasScale b bone defaultValue kind
    some (b.replace kind (if default then defaultValue else first) default)
  else some b

/-- compact.transform.h:373-476: a bone -/
def compactBone {C E : Type} [LinearOrder E] (S : Setup C E) (numSamples : Nat) (hasScale : Bool) (bone : Nat) (defaults : Qvv)
    (b : Streams) : Option Streams := do
  let b ← compactSubTrack S numSamples hasScale bone defaults .rotation b
  let b ← compactSubTrack S numSamples hasScale bone defaults .translation b
  compactSubTrack S numSamples hasScale bone defaults .scale b

/-- compact.transform.h:373-476: the loop over the bones, starting at bone `first` -/
def compactFrom {C E : Type} [LinearOrder E] (S : Setup C E) (numSamples : Nat) (hasScale : Bool) : Nat → List (Qvv × Streams) →
    Option (List Streams)
  | _, [] => some []
  | first, (defaults, b) :: rest => do
    let b ← compactBone S numSamples hasScale first defaults b
    let others ← compactFrom S numSamples hasScale (first + 1) rest
    some (b :: others)

/-- compact.transform.h:354-480 compact_constant_streams: the streams and has_scale. A bone comes with its default value. -/
def compact {C E : Type} [LinearOrder E] (S : Setup C E) (numSamples : Nat) (hasScale : Bool) (bones : List (Qvv × Streams)) :
    Option (List Streams × Bool) := do
  let out ← compactFrom S numSamples hasScale 0 bones
  let numDefaultScales := (out.filter fun b => (b.flags .scale).isConstant && (b.flags .scale).isDefault).length
  some (out, numDefaultScales != bones.length)

/-- normalize.transform.h:50-98 calculate_track_range, extract_clip_bone_ranges: one sub-track -/
def rangeOf (kind : Kind) (samples : List Vec4) (lane : Lane) : Range :=
  if lane = .w ∧ kind ≠ .rotation then fromMinMax 0 0
  else trackRange (samples.map fun v => ofBits (component v lane))

/-- clip_context.impl.h:117-159, normalize.transform.h:78-112: a bone before the detection, with its samples -/
def Streams.ofSamples (samples : Kind → List Vec4) : Streams where
  samples := samples
  flags := fun _ => ⟨false, false⟩
  range := fun kind => rangeOf kind (samples kind)

end Acl.Compact
