import Verif.Transform.SubTracks
import Verif.Transform.ConstantCache
import Verif.Transform.AnimatedCache
import Verif.Core.Interpolation
/-
Model of the decompression of a whole pose and of a single track, once `seek` has run.
/repo/includes/acl/decompression/impl/decompression.transform.h
/repo/includes/acl/core/track_writer.h

A run is the list of the calls made to the track writer, in order; a failed assert and a load out of bounds are
`none`. Conventions as in Values.lean and AnimatedCache.lean. The rotation, translation and scale copies of a loop are
one definition here when they differ only by names. Not modelled: prefetching, the floating point exception state, the
asserts on finite values and normalized rotations.
-/
namespace Acl.Transform

/-- core/sample_rounding_policy.h `sample_rounding_policy`. -/
abbrev Rounding := _root_.Acl.Interp.Rounding

/-- core/track_writer.h:43-64 `default_sub_track_mode`. -/
inductive DefaultMode where | skipped | constant | variable | legacy
  deriving DecidableEq, Repr

/-- How two key frame samples are combined. -/
inductive Interp where
  /-- with the interpolation alpha of the context -/
  | contextAlpha
  /-- whole pose with per track rounding: the slot of the policy, out of the four the group reader fills -/
  | slot (p : Rounding)
  /-- single track with per track rounding: with the alpha of the context rounded by the policy -/
  | roundedAlpha (p : Rounding)
  deriving DecidableEq, Repr

/-- A value handed to the track writer. -/
inductive Value where
  /-- what `get_constant_default_*` of the writer returned -/
  | writerConstant
  /-- what `get_variable_default_*` of the writer returned for the track -/
  | writerVariable (track : Nat)
  /-- the default scale in the header of the clip -/
  | headerScale
  /-- a constant rotation -/
  | rotation (q : Quat)
  /-- a constant translation or scale -/
  | vector (v : Vec3)
  /-- two samples, and how they are combined -/
  | animated (s : Sample × Sample) (how : Interp)
  deriving DecidableEq, Repr

/-- A call to `write_rotation`, `write_translation` or `write_scale`. -/
structure Event where
  kind : Kind
  track : Nat
  value : Value
  deriving DecidableEq, Repr

/-- core/track_writer.h: the answers of a track writer. -/
structure Writer where
  mode : Kind → DefaultMode
  skipAll : Kind → Bool
  skipTrack : Kind → Nat → Bool
  rounding : Rounding → Nat → Rounding

/-- What `seek` leaves in the context for one key frame (decompression.transform.h:520-560), with the two sizes of its
segment header. -/
structure KeyFrame where
  fmt : Nat
  seg : Nat
  data : List (BitVec 8)
  bit : Nat
  rotationBits : Nat
  translationBits : Nat

/-- The context and the headers: what the decompression functions read. `sampled` is `sample_time >= 0`. -/
structure Context where
  clip : List (BitVec 8)
  types : List (BitVec 32)
  numTracks : Nat
  hasScale : Bool
  sampled : Bool
  rotationFormat : RotationFormat
  translationFormat : VectorFormat
  scaleFormat : VectorFormat
  cfg : AnimCfg
  perTrackRounding : Bool
  rounding : Rounding
  constantData : Nat
  clipRanges : Nat
  numConstantRotations : Nat
  numConstantTranslations : Nat
  numAnimatedRotations : Nat
  numAnimatedTranslations : Nat
  numAnimatedScales : Nat
  key0 : KeyFrame
  key1 : KeyFrame

/-- animated_track_cache.transform.h:1203-1221 `animated_track_cache_v0`; the scales are not initialized when the clip has
no scale. -/
structure AnimCache where
  rotations : AnimState
  translations : AnimState
  scales : Option AnimState

/-- animated_track_cache.transform.h:1224-1314 `initialize`. `align_to(n, 4)` is `(n + 3) / 4 * 4`. -/
def AnimCache.initialize (x : Context) : AnimCache :=
  let variableR := x.rotationFormat = .dropWVariable
  let paddedR := (x.numAnimatedRotations + 3) / 4 * 4
  let rotation (k : KeyFrame) : SegCtx := ⟨k.fmt, k.seg, k.data, k.bit⟩
  let clipT := x.clipRanges + x.numAnimatedRotations * (if variableR then 12 * 2 else 0)
  let translation (k : KeyFrame) : SegCtx :=
    ⟨k.fmt + paddedR * (if variableR then 1 else 0), k.seg + paddedR * (if variableR then 6 else 0), k.data,
      k.bit + k.rotationBits⟩
  let variableT := x.translationFormat = .varBits
  let clipS := clipT + x.numAnimatedTranslations * (if variableT then 12 * 2 else 0)
  let scale (k : KeyFrame) : SegCtx :=
    ⟨(translation k).fmt + x.numAnimatedTranslations * (if variableT then 1 else 0),
      (translation k).seg + x.numAnimatedTranslations * (if variableT then 6 else 0), k.data,
      (translation k).bit + k.translationBits⟩
  let state (left clip : Nat) (c : KeyFrame → SegCtx) : AnimState := ⟨fun _ => none, left, 0, 0, clip, c x.key0, c x.key1⟩
  { rotations := state x.numAnimatedRotations x.clipRanges rotation
    translations := state x.numAnimatedTranslations clipT translation
    scales := if x.hasScale then some (state x.numAnimatedScales clipS scale) else none }

/-- The constant cache of a context. -/
def Context.constantCache (x : Context) : ConstCache :=
  ConstCache.initialize x.rotationFormat x.constantData x.numConstantRotations x.numConstantTranslations

/-- Is the rotation format the full one? (`unpack_quat_128` path) -/
def Context.fullRotations (x : Context) : Bool := x.rotationFormat = .quatfFull

/-- decompression.transform.h:1563-1565: the first entry of a kind in the table. -/
def Context.base (x : Context) : Kind → Nat
  | .rotation => 0
  | .translation => numSubTrackEntries x.numTracks
  | .scale => numSubTrackEntries x.numTracks + numSubTrackEntries x.numTracks

/-- decompression.transform.h:583, 631 (and copies): a default value, for a mode that is not `skipped`. The constant the
code falls back to when the mode is `variable` is never written. -/
def defaultValue (mode : DefaultMode) (track : Nat) : Value :=
  match mode with
  | .variable => .writerVariable track
  | .legacy => .headerScale
  | _ => .writerConstant

/-- `!skip_all && !skip_track` then a write. -/
def write (w : Writer) (kind : Kind) (track : Nat) (v : Value) (ev : List Event) : List Event :=
  if !w.skipAll kind && !w.skipTrack kind track then ev ++ [⟨kind, track, v⟩] else ev

/-- decompression.transform.h:574-675 `unpack_default_rotation_sub_tracks`, 882-983 translations, 1202-1308 scales. -/
def unpackDefaults (x : Context) (w : Writer) (kind : Kind) (ev : List Event) : Option (List Event) :=
  if w.mode kind = .skipped then some ev
  else
    (visitEntries x.types (x.base kind) (selectDefault (numSubTrackEntries x.numTracks - 1) (paddingMask x.numTracks))
      0xAA000000#32 highLanes some some
      (fun (s : Unit × List Event) t => some (s.1, write w kind t (defaultValue (w.mode kind) t) s.2))
      (numSubTrackEntries x.numTracks) 0 ((), ev)).map Prod.snd

/-- decompression.transform.h:678-748 `unpack_constant_rotation_sub_tracks`. -/
def unpackConstantRotations (x : Context) (w : Writer) (s : ConstCache × List Event) : Option (ConstCache × List Event) :=
  visitEntries x.types (x.base .rotation) (fun _ => selectConstant) 0x55000000#32 lowLanes
    (fun s => (s.1.unpackGroup x.clip x.fullRotations).map (·, s.2)) some
    (fun s t => s.1.consumeRotation.bind fun (q, c) => some (c, write w .rotation t (.rotation q) s.2))
    (numSubTrackEntries x.numTracks) 0 s

/-- decompression.transform.h:986-1072 `unpack_constant_translation_sub_tracks`; the sample is only loaded when it is
written. -/
def unpackConstantTranslations (x : Context) (w : Writer) (s : ConstCache × List Event) : Option (ConstCache × List Event) :=
  visitEntries x.types (x.base .translation) (fun _ => selectConstant) 0x55000000#32 lowLanes some some
    (fun s t =>
      let p := s.1.consumeTranslation
      if !w.skipAll .translation && !w.skipTrack .translation t then
        (loadVec4 x.clip p.1).bind fun v => some (p.2, s.2 ++ [⟨.translation, t, .vector v.xyz⟩])
      else some (p.2, s.2))
    (numSubTrackEntries x.numTracks) 0 s

/-- decompression.transform.h:1311-1397 `unpack_constant_scale_sub_tracks`. -/
def unpackConstantScales (x : Context) (w : Writer) (s : ConstCache × List Event) : Option (ConstCache × List Event) :=
  visitEntries x.types (x.base .scale) (fun _ => selectConstant) 0x55000000#32 lowLanes some some
    (fun s t =>
      let p := s.1.consumeScale
      if !w.skipAll .scale && !w.skipTrack .scale t then
        (loadVec4 x.clip p.1).bind fun v => some (p.2, s.2 ++ [⟨.scale, t, .vector v.xyz⟩])
      else some (p.2, s.2))
    (numSubTrackEntries x.numTracks) 0 s

/-- decompression.transform.h:792-803 (and copies): the policy of a track, asserted not to be `per_track`. -/
def slotOf (x : Context) (w : Writer) (t : Nat) : Option Interp :=
  if x.perTrackRounding then
    if w.rounding x.rounding t = .perTrack then none else some (.slot (w.rounding x.rounding t))
  else some .contextAlpha

/-- decompression.transform.h:751-879 `unpack_animated_rotation_sub_tracks`, 1075-1199 translations, 1400-1524 scales;
`unpackGroup` is the group reader of the kind. -/
def unpackAnimated (x : Context) (w : Writer) (kind : Kind) (unpackGroup : AnimState → Option AnimState)
    (s : AnimState × List Event) : Option (AnimState × List Event) :=
  visitEntries x.types (x.base kind) (fun _ => selectAnimated) 0xAA000000#32 highLanes some
    (fun s => (unpackGroup s.1).map (·, s.2))
    (fun s t => (slotOf x w t).bind fun how => s.1.consume.bind fun (v, a) =>
      some (a, write w kind t (.animated v how) s.2))
    (numSubTrackEntries x.numTracks) 0 s

/-- decompression.transform.h:1660-1675: every track has the default scale. `fuel` tracks left from `t`. -/
def writeDefaultScales (w : Writer) : Nat → Nat → List Event → List Event
  | 0, _, ev => ev
  | n + 1, t, ev => writeDefaultScales w n (t + 1) (write w .scale t (defaultValue (w.mode .scale) t) ev)

/-- decompression.transform.h:1526-1735 `decompress_tracks_v0`. The assert on the sample time is not modelled: the early
return that follows it is. -/
def decompressTracks (x : Context) (w : Writer) : Option (List Event) :=
  if x.numTracks = 0 then some []
  else if !x.sampled then some []
  else
    let cc := x.constantCache
    let ac := AnimCache.initialize x
    (unpackDefaults x w .rotation []).bind fun ev =>
    (unpackConstantRotations x w (cc, ev)).bind fun (cc, ev) =>
    (unpackDefaults x w .translation ev).bind fun ev =>
    (unpackConstantTranslations x w (cc, ev)).bind fun (cc, ev) =>
    (if x.hasScale then
      (unpackDefaults x w .scale ev).bind fun ev =>
      (unpackConstantScales x w (cc, ev)).map Prod.snd
    else if w.mode .scale = .skipped then some ev
    else some (writeDefaultScales w x.numTracks 0 ev)).bind fun ev =>
    (unpackAnimated x w .rotation (·.unpackRotationGroup x.cfg x.rotationFormat x.clip) (ac.rotations, ev)).bind fun (_, ev) =>
    (unpackAnimated x w .translation (·.unpackVectorGroup x.cfg x.translationFormat x.clip) (ac.translations, ev)).bind fun (_, ev) =>
    if x.hasScale then
      ac.scales.bind fun a =>
      (unpackAnimated x w .scale (·.unpackVectorGroup x.cfg x.scaleFormat x.clip) (a, ev)).map Prod.snd
    else some ev

/-- decompression.transform.h:1826-1851 and 1983-1990 (and copies): a default value of the single track path; the skip
flags of the writer are not looked at. -/
def writeDefault (w : Writer) (kind : Kind) (t : Nat) : List Event :=
  if w.mode kind = .skipped then [] else [⟨kind, t, defaultValue (w.mode kind) t⟩]

/-- decompression.transform.h:1970-1979: the alpha of the single track path. -/
def alphaOf (x : Context) (w : Writer) (t : Nat) : Option Interp :=
  if x.perTrackRounding then
    if w.rounding x.rounding t = .perTrack then none else some (.roundedAlpha (w.rounding x.rounding t))
  else some .contextAlpha

/-- decompression.transform.h:1820 `scale_sub_track_mask`. -/
def Context.kindMask (x : Context) (kind : Kind) : BitVec 32 :=
  if kind = .scale ∧ x.hasScale = false then 0#32 else 0xFFFFFFFF#32

/-- decompression.transform.h:1810: where the single track path loads the types of a kind from. -/
def Context.singleBase (x : Context) (kind : Kind) : Nat :=
  if kind = .scale ∧ x.hasScale = false then 0 else x.base kind

/-- decompression.transform.h:1865-1893: number of sub-tracks of a class before the track. -/
def Context.count (x : Context) (kind : Kind) (classMask : BitVec 32) (t : Nat) : Option Nat :=
  (countBefore x.types (x.singleBase kind) t (x.kindMask kind) classMask (t / 16 + 1) 0 0).map BitVec.toNat

/-- decompression.transform.h:1753-2050 `decompress_track_v0`. The asserts on the sample time and the track index are
not modelled: the early returns that follow them are. The readers of the three kinds are independent, the model runs
each one where its value is written rather than skipping all the groups first. -/
def decompressTrack (x : Context) (w : Writer) (t : Nat) : Option (List Event) :=
  if x.numTracks = 0 then some []
  else if !x.sampled then some []
  else if t ≥ x.numTracks then some []
  else
    (subTrackTypes x.types x.hasScale x.numTracks t).bind fun (rt, tt, st) =>
    if rt ||| tt ||| st = 0 then some (writeDefault w .rotation t ++ writeDefault w .translation t ++ writeDefault w .scale t)
    else
      let cc := x.constantCache
      let ac := AnimCache.initialize x
      (x.count .rotation 0x55555555#32 t).bind fun constR =>
      (x.count .rotation 0xAAAAAAAA#32 t).bind fun animR =>
      (x.count .translation 0x55555555#32 t).bind fun constT =>
      (x.count .translation 0xAAAAAAAA#32 t).bind fun animT =>
      (x.count .scale 0x55555555#32 t).bind fun constS =>
      (x.count .scale 0xAAAAAAAA#32 t).bind fun animS =>
      (alphaOf x w t).bind fun how =>
      -- rotation
      (if rt = 0 then some (writeDefault w .rotation t)
        else if rt &&& 1 ≠ 0 then
          (if constR / 4 ≠ 0 then cc.skipRotationGroups x.fullRotations (constR / 4) else some cc).bind fun cc =>
          (cc.rotationWithinGroup x.clip x.fullRotations (constR % 4)).bind fun q => some [⟨.rotation, t, .rotation q⟩]
        else
          (if animR / 4 ≠ 0 then ac.rotations.skipRotationGroups x.cfg x.rotationFormat x.clip (animR / 4) else some ac.rotations).bind fun a =>
          (a.rotationWithinGroup x.cfg x.rotationFormat x.clip (animR % 4)).bind fun v => some [⟨.rotation, t, .animated v how⟩]).bind fun evR =>
      -- translation
      (if tt = 0 then some (writeDefault w .translation t)
        else if tt &&& 1 ≠ 0 then
          let cc := if constT / 4 ≠ 0 then cc.skipTranslationGroups (constT / 4) else cc
          (cc.translationWithinGroup x.clip (constT % 4)).bind fun v => some [⟨.translation, t, .vector v⟩]
        else
          (if animT / 4 ≠ 0 then ac.translations.skipVectorGroups x.cfg x.translationFormat x.clip (animT / 4) else some ac.translations).bind fun a =>
          (a.vectorWithinGroup x.cfg x.translationFormat x.clip (animT % 4)).bind fun v => some [⟨.translation, t, .animated v how⟩]).bind fun evT =>
      -- scale
      (if st = 0 then some (writeDefault w .scale t)
        else if st &&& 1 ≠ 0 then
          let cc := if constS / 4 ≠ 0 then cc.skipScaleGroups (constS / 4) else cc
          (cc.scaleWithinGroup x.clip (constS % 4)).bind fun v => some [⟨.scale, t, .vector v⟩]
        else
          ac.scales.bind fun a =>
          (if animS / 4 ≠ 0 then a.skipVectorGroups x.cfg x.scaleFormat x.clip (animS / 4) else some a).bind fun a =>
          (a.vectorWithinGroup x.cfg x.scaleFormat x.clip (animS % 4)).bind fun v => some [⟨.scale, t, .animated v how⟩]).bind fun evS =>
      some (evR ++ evT ++ evS)

end Acl.Transform
