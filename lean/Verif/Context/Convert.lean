import Verif.Context.Buffer
import Verif.Layout.Accessors
import Verif.Transform.Quantize
/-
From compressed transform tracks back to raw tracks.
/repo/includes/acl/compression/impl/convert.impl.h:78-253 convert_track_list(compressed_tracks)
/repo/includes/acl/core/impl/debug_track_writer.h:51-100, 176-206 (the writer)
/repo/includes/acl/math/quatf.h:135-149 quat_from_positive_w4
/repo/includes/acl/decompression/impl/decompression_context.transform.h:188-201 should_interpolate_samples

The samples of the result are what the writer holds after each seek: the default value it was initialized with, or the last value that was written
together with the interpolation factor of the context. `storedVector` and `storedRotation` are their numbers. Square root and quat_normalize are arbitrary
functions. Not modelled: memory allocation, floating point exceptions, the branches for scalar tracks.
-/
namespace Acl.Convert
open Acl.F32 Acl.Interp Acl.Context Acl.Transform

/-- convert.impl.h:153, 207: the time of a sample -/
def sampleTime (i : Nat) (rate : ℚ) : FInf → ℚ
  | .fin d => min (fdiv (ofNat i) rate) d
  | .inf => fdiv (ofNat i) rate

/-- What the debug writer holds for a sub-track. -/
inductive Stored where
  /-- debug_track_writer.h:82-96 initialize_with_defaults: the components of the default value -/
  | default (bits : List (BitVec 32))
  /-- a value written by the decompression, and the interpolation factor -/
  | written (alpha : ℚ) (v : Value)

/-- The buffer of the debug writer: debug_track_writer.h:241 tracks_typed.qvvf -/
abbrev Buffer := Transform.Kind → Nat → Stored

/-- The components of the default value of a description -/
def defaultBits (d : Meta.TransformDesc) : Transform.Kind → List (BitVec 32)
  | .rotation => [d.rotation.x, d.rotation.y, d.rotation.z, d.rotation.w]
  | .translation => [d.translation.x, d.translation.y, d.translation.z]
  | .scale => [d.scale.x, d.scale.y, d.scale.z]

/-- debug_track_writer.h:82-96 initialize_with_defaults: the output index of a track says where its default goes. The memory is not initialized before:
it is taken as zero. -/
def initialBuffer (descs : List Meta.TransformDesc) : Buffer :=
  descs.foldl (fun b d kind t => if t = d.outputIndex then .default (defaultBits d kind) else b kind t) fun _ _ => .default []

/-- debug_track_writer.h:178-200 write_rotation, write_translation, write_scale -/
def Buffer.write (alpha : ℚ) (b : Buffer) (e : Event) : Buffer :=
  fun kind t => if e.kind = kind ∧ e.track = t then .written alpha e.value else b kind t

/-- debug_track_writer.h:72-77: defaults are skipped, and nothing else (core/track_writer.h) -/
def debugWriter : Writer where
  mode := fun _ => .skipped
  skipAll := fun _ => false
  skipTrack := fun _ _ => false
  rounding := fun r _ => r

/-- decompression/decompression_settings.h:68-180 decompression_settings: what both contexts of convert_track_list have in common -/
def settings : Context.Settings where
  skipChecks := false
  wrapping := true
  clampTimes := true
  databases := false

/-- convert.impl.h:151-188, 205-242: seek to the time of every sample with the same context and the same writer, and keep what it holds -/
def samplePoses (w : World) (m : Bytes) (rate : ℚ) (duration : FInf) : List Nat → Ctx TransformSeek → Buffer → Option (List Buffer)
  | [], _, _ => some []
  | i :: rest, ctx, buf =>
    (Context.seek transformKind settings w ctx (sampleTime i rate duration) .nearest).bind fun ctx' =>
    ctx'.seen.bind fun q =>
    (poseContext m q false .nearest).bind fun pose =>
    (decompressTracks pose debugWriter).bind fun ev =>
    (samplePoses w m rate duration rest ctx' (ev.foldl (Buffer.write q.alpha) buf)).map fun l =>
      ev.foldl (Buffer.write q.alpha) buf :: l

/-- A raw transform track: name, description, samples -/
structure RawTrack where
  name : Bytes
  desc : Meta.TransformDesc
  samples : List (Transform.Kind → Stored)

/-- A raw track list. Simplified: the tracks have the sample rate in the code. -/
structure RawList where
  name : Bytes
  sampleRate : BitVec 32
  tracks : List RawTrack
  /-- track_array.h: m_looping_policy, sample_looping_policy::non_looping when it is not set -/
  looping : Looping
  /-- convert.impl.h:140-143: whether the samples were read with the settings that only support the raw formats -/
  rawSettings : Bool

/-- The errors of convert_track_list -/
inductive Error where
  | invalid
  | missingMetadata
  deriving DecidableEq

/-- `string(allocator, const char*)`: a null pointer is the empty string -/
def text : Meta.CString → Bytes
  | .null => []
  | .str s => s

/-- convert.impl.h:96-131: the description and the name of a track -/
def trackInfo (m : Bytes) (i : Nat) : Option (Option Meta.TransformDesc × Bytes) :=
  (Meta.getTransformDescription m i).bind fun d => (Meta.getTrackName m i).map fun n => (d, text n)

/-- convert.impl.h:140-143 -/
def isRaw (misc : BitVec 32) : Bool :=
  Headers.getRotationFormat misc == 0#32 && Headers.getTranslationFormat misc == 0#32 && Headers.getScaleFormat misc == 0#32

/-- convert.impl.h:78-253 convert_track_list, for transform tracks that are at address `a` of `w`. `none` is undefined behaviour. -/
def convert (w : World) (a : Nat) (m : Bytes) : Option (Except Error RawList) :=
  (tracksIsValid m true false).bind fun v =>
  if v ≠ .ok then some (.error .invalid) else
  (Meta.loadTracksHeader m).bind fun h =>
  (Meta.getFiniteDuration m .asCompressed).bind fun duration =>
  (Meta.getName m).bind fun name =>
  ((List.range h.numTracks.toNat).mapM (trackInfo m)).bind fun infos =>
  match infos.mapM (·.1) with
  | none => some (.error .missingMetadata)
  | some descs =>
    (initCtx transformKind settings w {} a none).bind fun ctx =>
    (samplePoses w m (ofBits h.sampleRate) duration (List.range h.numSamples.toNat) ctx.1 (initialBuffer descs)).map fun poses =>
      .ok ⟨text name, h.sampleRate,
        (List.range h.numTracks.toNat).filterMap fun t => (infos[t]?).bind fun x => x.1.map fun d => ⟨x.2, d, poses.map fun b kind => b kind t⟩,
        .clamp, isRaw h.misc⟩

/-! ## The numbers -/

/-- quatf.h:135-149 quat_from_positive_w4, one of the four rotations -/
def positiveW (fused : Bool) (sqrt : ℚ → ℚ) (x y z : ℚ) : ℚ :=
  sqrt |Lerp.negMulSub fused z z (Lerp.negMulSub fused y y (Lerp.negMulSub fused x x 1))|

/-- A component of a default value -/
def bitsLane (bits : List (BitVec 32)) : Axis → ℚ
  | .x => ofBits (bits.getD 0 0)
  | .y => ofBits (bits.getD 1 0)
  | .z => ofBits (bits.getD 2 0)

/-- One component of a translation or a scale the writer holds -/
def storedVector (fused : Bool) (lane : Axis) : Stored → ℚ
  | .default bits => bitsLane bits lane
  | .written _ (.vector v) => ofBits (v.lane lane)
  | .written alpha (.animated (d0, d1) how) => evalVector fused alpha (evalSample fused lane d0) (evalSample fused lane d1) how
  | .written _ _ => 0

/-- animated_track_cache.transform.h:1416-1420: a rotation of a key frame, its W reconstructed when the format drops it -/
def keyRotation (fused : Bool) (sqrt : ℚ → ℚ) (s : Sample) : Lerp.Quat :=
  let x := evalSample fused .x s
  let y := evalSample fused .y s
  let z := evalSample fused .z s
  match s.raw with
  | .float4 q => ⟨x, y, z, ofBits q.w⟩
  | _ => ⟨x, y, z, positiveW fused sqrt x y z⟩

/-- animated_track_cache.transform.h:1593-1632 with decompression_context.transform.h:188-201: an animated rotation. With the settings that only support the
raw format a key frame is picked when the factor is not inside. -/
def animatedRotation (raw fused : Bool) (sqrt : ℚ → ℚ) (normalize : Lerp.Quat → Lerp.Quat) (alpha : ℚ) (d0 d1 : Sample) : Lerp.Quat :=
  if raw then
    if 0 < alpha ∧ alpha < 1 then Lerp.quatLerp fused (keyRotation fused sqrt d0) (keyRotation fused sqrt d1) alpha
    else if alpha ≤ 0 then keyRotation fused sqrt d0 else keyRotation fused sqrt d1
  else normalize (Lerp.quatLerp fused (keyRotation fused sqrt d0) (keyRotation fused sqrt d1) alpha)

/-- A rotation the writer holds, when it is animated -/
def storedRotation (raw fused : Bool) (sqrt : ℚ → ℚ) (normalize : Lerp.Quat → Lerp.Quat) : Stored → Option Lerp.Quat
  | .written alpha (.animated (d0, d1) _) => some (animatedRotation raw fused sqrt normalize alpha d0 d1)
  | _ => none

end Acl.Convert
