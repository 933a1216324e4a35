import Verif.Context.Convert
import Verif.Scalar.Buffer
/-
From compressed scalar tracks back to raw tracks.
/repo/includes/acl/compression/impl/convert.impl.h:78-253 convert_track_list(compressed_tracks), the cases of scalar tracks
/repo/includes/acl/core/impl/debug_track_writer.h:101-175 (the writer)

`fused` says whether the target has fused multiply-add. Not modelled: memory allocation, floating point exceptions.
-/
namespace Acl.Convert
open Acl.F32 Acl.Interp Acl.Context

/-- debug_track_writer.h:101-175: what the writer holds for every output track: the components of the last value written. Nothing is in the memory before a
value is written. -/
abbrev ScalarBuffer := Nat → List ℚ

/-- debug_track_writer.h:101-175 write_float1, write_float2, write_float3, write_float4, write_vector4: the components of the track type -/
def ScalarBuffer.write (fused : Bool) (alpha : ℚ) (b : ScalarBuffer) (e : Scalar.Event) : ScalarBuffer :=
  fun t => if e.track = t then (List.range (Scalar.numSampleElements e.type)).map fun k => Scalar.evalValue fused alpha k e.value else b t

/-- core/track_writer.h:95-110 with decompression_settings.h:160: the writer skips nothing and rounds as seek was told; the settings support every type, and
rounding per track. -/
def scalarWriter : Scalar.Writer where
  supported := fun _ => true
  perTrackRounding := true
  policyOf := fun p _ => p
  skip := fun _ => false

/-- convert.impl.h:205-242: seek to the time of every sample with the same context and the same writer, and keep what it holds -/
def sampleScalars (fused : Bool) (w : World) (m : Bytes) (rate : ℚ) (duration : FInf) :
    List Nat → Ctx (BitVec 32 × BitVec 32 × ℚ) → ScalarBuffer → Option (List ScalarBuffer)
  | [], _, _ => some []
  | i :: rest, ctx, buf =>
    (Context.seek scalarKind settings w ctx (sampleTime i rate duration) .nearest).bind fun ctx' =>
    ctx'.seen.bind fun q =>
    (Scalar.contextOf m q .nearest).bind fun pose =>
    (Scalar.decompressTracks pose scalarWriter).bind fun ev =>
    (sampleScalars fused w m rate duration rest ctx' (ev.foldl (ScalarBuffer.write fused q.2.2) buf)).map fun l =>
      ev.foldl (ScalarBuffer.write fused q.2.2) buf :: l

/-- A raw scalar track: name, description, samples (the components of each) -/
structure ScalarTrack where
  name : Bytes
  desc : Meta.ScalarDesc
  samples : List (List ℚ)

/-- A raw scalar track list. Simplified: the tracks have the type and the sample rate in the code. -/
structure ScalarList where
  name : Bytes
  type : Scalar.TrackType
  sampleRate : BitVec 32
  tracks : List ScalarTrack
  /-- track_array.h: m_looping_policy, sample_looping_policy::non_looping when it is not set -/
  looping : Looping

/-- convert.impl.h:96-131: the description and the name of a track -/
def scalarInfo (m : Bytes) (i : Nat) : Option (Option Meta.ScalarDesc × Bytes) :=
  (Meta.getScalarDescription m i).bind fun d => (Meta.getTrackName m i).map fun n => (d, text n)

/-- convert.impl.h:78-253 convert_track_list, for scalar tracks that are at address `a` of `w`. `none` is undefined behaviour. -/
def convertScalar (fused : Bool) (w : World) (a : Nat) (m : Bytes) : Option (Except Error ScalarList) :=
  (tracksIsValid m true false).bind fun v =>
  if v ≠ .ok then some (.error .invalid) else
  (Meta.loadTracksHeader m).bind fun h =>
  (Scalar.typeOf h.trackType).bind fun type =>
  (Meta.getFiniteDuration m .asCompressed).bind fun duration =>
  (Meta.getName m).bind fun name =>
  ((List.range h.numTracks.toNat).mapM (scalarInfo m)).bind fun infos =>
  match infos.mapM (·.1) with
  | none => some (.error .missingMetadata)
  | some _ =>
    (initCtx scalarKind settings w {} a none).bind fun ctx =>
    (sampleScalars fused w m (ofBits h.sampleRate) duration (List.range h.numSamples.toNat) ctx.1 fun _ => []).map fun poses =>
      .ok ⟨text name, type, h.sampleRate,
        (List.range h.numTracks.toNat).filterMap fun t => (infos[t]?).bind fun x => x.1.map fun d => ⟨x.2, d, poses.map fun b => b t⟩,
        .clamp⟩

end Acl.Convert
