import Verif.Core.Interpolation
import Verif.Float.Bits
import Verif.Layout.Metadata
/-
Model of the accessors of compressed_tracks and of make_compressed_tracks, on the bytes of the buffer.
/repo/includes/acl/core/impl/compressed_tracks.impl.h:68-141, 278-335
/repo/includes/acl/core/compressed_tracks.h:60-68

`none` is an out of bounds read. The sample rate is a finite float.
-/
namespace Acl.Meta
open Acl.Headers Acl.Interp

/-- compressed_tracks.h:63 get_size, a field of raw_buffer_header (compressed_headers.h:39-47) -/
def getSize (m : Bytes) : Option Nat := (load32 m 0).map (·.toNat)
/-- compressed_tracks.h:68 get_hash -/
def getHash (m : Bytes) : Option (BitVec 32) := load32 m 4
/-- compressed_tracks.impl.h:72 get_version -/
def getVersion (m : Bytes) : Option Nat := (loadTracksHeader m).map (·.version.toNat)
/-- compressed_tracks.impl.h:74 get_num_tracks -/
def getNumTracks (m : Bytes) : Option Nat := (loadTracksHeader m).map (·.numTracks.toNat)
/-- compressed_tracks.impl.h:76 get_num_samples_per_track -/
def getNumSamples (m : Bytes) : Option Nat := (loadTracksHeader m).map (·.numSamples.toNat)
/-- compressed_tracks.impl.h:78 get_track_type -/
def getTrackType (m : Bytes) : Option (BitVec 8) := (loadTracksHeader m).map (·.trackType)
/-- compressed_tracks.impl.h:122 get_sample_rate, the bits of the float -/
def getSampleRate (m : Bytes) : Option (BitVec 32) := (loadTracksHeader m).map (·.sampleRate)
/-- compressed_tracks.impl.h:124 has_database -/
def hasDatabase (m : Bytes) : Option Bool := (loadTracksHeader m).map fun h => getHasDatabase h.misc
/-- compressed_tracks.impl.h:126 has_trivial_default_values -/
def hasTrivialDefaultValues (m : Bytes) : Option Bool := (loadTracksHeader m).map fun h => getHasTrivialDefaultValues h.misc
/-- compressed_tracks.impl.h:128 has_stripped_keyframes -/
def hasStrippedKeyframes (m : Bytes) : Option Bool := (loadTracksHeader m).map fun h => getHasStrippedKeyframes h.misc
/-- compressed_tracks.impl.h:130 get_default_scale -/
def getDefaultScale (m : Bytes) : Option (BitVec 32) := (loadTracksHeader m).map fun h => Headers.getDefaultScale h.misc
/-- compressed_tracks.impl.h:132-139 get_looping_policy -/
def getLoopingPolicy (m : Bytes) : Option Looping :=
  (loadTracksHeader m).map fun h => if h.version.toNat ≤ 7 then .clamp else if getIsWrapOptimized h.misc then .wrap else .clamp

/-- compressed_tracks.impl.h:80-120: the looping policy that get_duration and get_finite_duration go by -/
def durationPolicy (h : Header) (p : Looping) : Looping :=
  if p = .asCompressed then
    if h.version.toNat ≤ 7 then .clamp else if getIsWrapOptimized h.misc then .wrap else .clamp
  else p

/-- compressed_tracks.impl.h:92-95, 113-116; num_samples++ wraps -/
def durationSamples (h : Header) (p : Looping) : Nat :=
  if durationPolicy h p = .wrap ∧ h.numSamples ≠ 0#32 then (h.numSamples + 1#32).toNat else h.numSamples.toNat

/-- compressed_tracks.impl.h:80-99 get_duration -/
def getDuration (m : Bytes) (p : Looping) : Option FInf :=
  (loadTracksHeader m).map fun h => calculateDuration (durationSamples h p) (F32.ofBits h.sampleRate)

/-- compressed_tracks.impl.h:101-120 get_finite_duration -/
def getFiniteDuration (m : Bytes) (p : Looping) : Option FInf :=
  (loadTracksHeader m).map fun h => calculateFiniteDuration (durationSamples h p) (F32.ofBits h.sampleRate)

/-- compressed_tracks.impl.h:304-335 make_compressed_tracks: whether a pointer is returned, and the error if one is asked for
(`wantsError`: out_error_result is not null). -/
def makeCompressedTracks (m : Bytes) (aligned wantsError : Bool) : Option (Bool × Option Validity) :=
  if wantsError then (tracksIsValid m aligned false).map fun v => (v == .ok, some v)
  else some (true, none)

end Acl.Meta
