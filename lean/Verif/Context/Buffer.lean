import Verif.Context.Model
import Verif.Core.Hash
import Verif.Float.Bits
import Verif.Transform.ClipWriter
/-
What a decompression context reads of a compressed transform clip in memory, and the context of the decompression functions
after `seek`. This joins Context/Model.lean (the state machine, and the time) with Transform/ClipWriter.lean (the bytes).
/repo/includes/acl/core/impl/compressed_tracks.impl.h:40-80, 125-141, 278-302
/repo/includes/acl/decompression/impl/decompression.transform.h:84-131, 205-565

The sample rate is a finite float.
-/
namespace Acl.Context
open Acl.Headers

/-- core/impl/compressed_tracks.impl.h: the fields a context reads. `supported` is is_version_supported of the version
selector. The database header (tracks_database_header) is at the offset of word 8 of the transform header; its first word is
clip_header_offset. -/
def tracksOf (supported : Nat → Bool) (m : Bytes) : Option Tracks :=
  (Meta.loadTracksHeader m).bind fun h =>
  (load32 m 4).bind fun hash =>
  (tracksIsValid m true false).bind fun validity =>
  (Transform.readSeekClip m).bind fun c =>
  (if getHasDatabase h.misc then (Clip.field m 8).bind fun p => load32 m (Clip.base + p) else some 0).bind fun clipHeaderOffset =>
  some {
    hash := hash
    isValid := validity = .ok
    isVersionSupported := supported h.version.toNat
    numTracks := h.numTracks.toNat
    clip := ⟨h.numSamples.toNat, F32.ofBits h.sampleRate, h.version.toNat ≤ 7, getIsWrapOptimized h.misc⟩
    numSegments := c.numSegments
    startIndices := c.startIndices
    hasStrippedKeyframes := getHasStrippedKeyframes h.misc
    sampleIndices := c.sampleIndices
    hasDatabase := getHasDatabase h.misc
    clipHeaderOffset := clipHeaderOffset
    numBitsPerFrame := 0 }

/-- decompression.transform.h:520-565: the pointers of the context once the key frames were found in the clip. -/
def poseContext (m : Bytes) (x : TransformSeek) (perTrack : Bool) (r : Interp.Rounding) : Option Transform.Context :=
  Transform.openContext m x.frame0 x.frame1 perTrack r

end Acl.Context
