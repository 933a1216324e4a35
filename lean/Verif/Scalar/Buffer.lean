import Verif.Scalar.Writer
import Verif.Scalar.Quantize
import Verif.Core.LoopOptimize
import Verif.Core.Hash
import Verif.Layout.Metadata
import Verif.Layout.Headers
import Verif.Context.Model
/-
The whole buffer of a compressed scalar track list, and what a decompression context reads of it.
/repo/includes/acl/compression/impl/compress.scalar.impl.h:64-270
/repo/includes/acl/core/impl/compressed_headers.h:60-165 (tracks_header, scalar_tracks_header)
/repo/includes/acl/core/impl/compressed_tracks.impl.h:40-80
/repo/includes/acl/decompression/impl/decompression.scalar.h:59-205, 248-263, 505-520

This joins Scalar/Writer.lean (the sections) with Layout/Metadata.lean (the headers around them, the optional metadata, the
size and the hash), and Scalar/Reader.lean (the decoder) with Context/Model.lean (the state machine and the time).
-/
namespace Acl.Scalar
open Acl.Headers

/-- core/track_types.h:51-83 `track_type8`, as a number. -/
def typeNumber : TrackType → BitVec 8
  | .float1f => 0#8 | .float2f => 1#8 | .float3f => 2#8 | .float4f => 3#8 | .vector4f => 4#8

/-- The same the other way; the switch of the decoder has no case for the others. -/
def typeOf (n : BitVec 8) : Option TrackType :=
  if n = 0#8 then some .float1f else if n = 1#8 then some .float2f else if n = 2#8 then some .float3f
  else if n = 3#8 then some .float4f else if n = 4#8 then some .vector4f else none

/-- compressed_headers.h:147-165 `scalar_tracks_header`: five words, in order. -/
def headerWords (c : Clip) : List (BitVec 32) :=
  [BitVec.ofNat 32 c.numBitsPerFrame, BitVec.ofNat 32 c.metadataOffset, BitVec.ofNat 32 c.constantOffset,
    BitVec.ofNat 32 c.rangeOffset, BitVec.ofNat 32 c.animatedOffset]

/-- compress.scalar.impl.h:160-199: the scalar header and the sections, after the tracks header. -/
def dataOf (t : TrackList) : Option (List (BitVec 8)) :=
  (compress t (List.replicate 20 0#8) []).bind fun c => some (floatsBytes (headerWords c) ++ c.bytes.drop 20)

/-- compress.scalar.impl.h:147-158: the fields of the tracks header that depend on the list; the tag, the version, the
algorithm, the number of tracks and the metadata flag are set by Meta.headerOf. -/
def tracksHeader (t : TrackList) (sampleRate : BitVec 32) (wraps : Bool) : Meta.Header where
  tag := 0
  version := 0
  algorithm := 0
  trackType := typeNumber t.trackType
  numTracks := 0
  numSamples := BitVec.ofNat 32 t.numSamples
  sampleRate := sampleRate
  misc := setIsWrapOptimized 0 wraps

/-- compress.scalar.impl.h:92-262: the buffer. -/
def writeBuffer (s : Meta.Settings) (src : Meta.Source) (t : TrackList) (sampleRate : BitVec 32) (wraps : Bool) :
    Option (List (BitVec 8)) :=
  (dataOf t).bind fun d => Meta.compress ⟨false, false⟩ s src (tracksHeader t sampleRate wraps) d

/-- The context of the compressor for the loop optimization (optimize_looping.scalar.h:45): all the tracks of the list,
those without an output too. -/
def loopContext (r : RawList) (numTracks : Nat) (sampleRate : BitVec 32) (looping : Interp.Looping) :
    LoopOptimize.Context (List (BitVec 32)) where
  numTracks := numTracks
  numSamples := r.numSamples
  sampleRate := F32.ofBits sampleRate
  looping := looping
  sample := r.sample

/-- compress.scalar.impl.h:77 with optimize_looping.scalar.h:45-103: `settings.optimize_loops` is `optimize`. -/
def optimized (optimize : Bool) (r : RawList) (numTracks : Nat) (sampleRate : BitVec 32) (looping : Interp.Looping) :
    LoopOptimize.Context (List (BitVec 32)) :=
  LoopOptimize.optimizeLooping optimize false (LoopOptimize.nearScalar (numSampleElements r.trackType) r.precision)
    (loopContext r numTracks sampleRate looping)

/-- compress.scalar.impl.h:64-270 `compress_scalar_track_list`. The metadata source says how many tracks there are. The test
for samples that are not finite (initialize_context) is a hypothesis of the theorems. -/
def compressScalar (fused : Bool) (upper : ℚ) (optimize : Bool) (s : Meta.Settings) (src : Meta.Source) (r : RawList)
    (sampleRate : BitVec 32) (looping : Interp.Looping) : Option (List (BitVec 8)) :=
  let o := optimized optimize r src.tracks.length sampleRate looping
  writeBuffer s src (quantizeList fused upper { r with numSamples := o.numSamples, sample := o.sample }) sampleRate
    (o.looping == .wrap)

/-! ### Reading -/

/-- decompression.scalar.h:248-263, 505-520 with compressed_headers.h:60-165: the fields the decoder uses. The scalar header
starts at byte 32. -/
def openBuffer (m : List (BitVec 8)) : Option Clip :=
  (Meta.loadTracksHeader m).bind fun h =>
  (typeOf h.trackType).bind fun type =>
  (load32 m 32).bind fun bitsPerFrame =>
  (load32 m 36).bind fun metadata =>
  (load32 m 40).bind fun constants =>
  (load32 m 44).bind fun ranges =>
  (load32 m 48).bind fun animated =>
  some {
    isV2_0 := h.version == 7#16
    trackType := type
    numTracks := h.numTracks.toNat
    numSamples := h.numSamples.toNat
    numBitsPerFrame := bitsPerFrame.toNat
    metadataOffset := metadata.toNat
    constantOffset := constants.toNat
    rangeOffset := ranges.toNat
    animatedOffset := animated.toNat
    bytes := m.drop 32 }

/-- compressed_tracks.impl.h:40-80: the fields initialize, set_looping_policy and seek read of a scalar track list. -/
def tracksOf (supported : Nat → Bool) (m : List (BitVec 8)) : Option Context.Tracks :=
  (Meta.loadTracksHeader m).bind fun h =>
  (load32 m 4).bind fun hash =>
  (tracksIsValid m true false).bind fun validity =>
  (load32 m 32).bind fun bitsPerFrame =>
  some {
    hash := hash
    isValid := validity = .ok
    isVersionSupported := supported h.version.toNat
    numTracks := h.numTracks.toNat
    clip := ⟨h.numSamples.toNat, F32.ofBits h.sampleRate, h.version.toNat ≤ 7, getIsWrapOptimized h.misc⟩
    numSegments := 0
    startIndices := []
    hasStrippedKeyframes := false
    sampleIndices := []
    hasDatabase := false
    clipHeaderOffset := 0
    numBitsPerFrame := bitsPerFrame }

/-- core/sample_rounding_policy.h: the policy seek was given, as the decompression functions see it. -/
def policy : Interp.Rounding → Policy
  | .none => .none | .floor => .floor | .ceil => .ceil | .nearest => .nearest | .perTrack => .perTrack

/-- decompression.scalar.h:59-80: the context of decompress_tracks and decompress_track once seek found `q`. -/
def contextOf (m : List (BitVec 8)) (q : BitVec 32 × BitVec 32 × ℚ) (r : Interp.Rounding) : Option Ctx :=
  (openBuffer m).bind fun clip => some
    { clip := clip, seeked := true, rounding := policy r, bitOffset0 := q.1.toNat, bitOffset1 := q.2.1.toNat }

end Acl.Scalar
