import Verif.Layout.Clip
import Verif.Transform.AnimatedWriter
import Verif.Transform.Decompress
import Verif.Transform.Seek
/-
Model of the end of the transform compressor (from the quantized streams to the compressed buffer) and of what the
decompressor reads from the buffer when it is initialized and seeks.
/repo/includes/acl/compression/impl/compress.transform.impl.h:285-470
/repo/includes/acl/compression/impl/write_stream_data.h, write_range_data.h, write_segment_data.h, animated_track_utils.h
/repo/includes/acl/compression/impl/normalize.transform.h:411-439
/repo/includes/acl/decompression/impl/decompression.transform.h:84-130, 231-565

Conventions as in Layout/Clip.lean and AnimatedWriter.lean. A failed assert is `none`. Counts are natural numbers except
where the wrap of uint32_t is written.
-/
namespace Acl.Transform
open Acl.Headers

/-- segment_context.h: what the writers read of a segment. `garbage` is the uninitialized buffer
`group_animated_track_data` (write_stream_data.h:391). -/
structure SegmentSource where
  start : Nat
  numSamples : Nat
  hardKeyframes : BitVec 32
  garbage : List (BitVec 8)

/-- clip_context.h: what the writers read of a clip. `bones` are the output bones in output order, `strippedBones` the
others; the streams of a bone are those of each segment. `garbage` is the uninitialized group of ranges of
write_clip_range_data. -/
structure ClipSource where
  bones : List Bone
  strippedBones : List Bone
  hasScale : Bool
  rotationFormat : RotationFormat
  translationFormat : VectorFormat
  scaleFormat : VectorFormat
  /-- has_stripped_keyframes -/
  stripped : Bool
  segments : List SegmentSource
  garbage : Nat → RangeF

/-- The settings of the header that the compressor computes from the tracks: compress.transform.impl.h:421-430. -/
structure ClipFlags where
  defaultScaleOne : Bool
  trivialDefaults : Bool
  wrapOptimized : Bool
  sampleRate : BitVec 32

namespace ClipSource

/-- core/impl/track_formats.impl.h: is_rotation_format_variable, is_vector_format_variable. These are also the range
reduction flags: compress.transform.impl.h:188-198. -/
def isVariable (c : ClipSource) : Kind → Bool
  | .rotation => c.rotationFormat.isVariable
  | .translation => c.translationFormat = .varBits
  | .scale => c.scaleFormat = .varBits

/-- write_stream_data.h:75-103 get_num_constant_samples, for a kind. The loop is over all bones, those that are stripped
from the output are skipped. -/
def numConstant (c : ClipSource) (kind : Kind) : Nat :=
  (c.bones.filter fun b => (kind ≠ .scale || c.hasScale) && isStoredConstant (b.flags kind)).length

/-- animated_track_utils.h:47-91 get_num_animated_sub_tracks, for a kind. -/
def numAnimated (c : ClipSource) (kind : Kind) : Nat := (c.bones.filter fun b => !(b.flags kind).isConstant).length

/-- write_stream_data.h:158-197 get_format_per_track_data_size: one byte per variable sub-track, rotations padded to 4. -/
def formatSize (c : ClipSource) : Nat :=
  let count (kind : Kind) : Nat := if c.isVariable kind then c.numAnimated kind else 0
  let n := count .rotation + count .translation + count .scale
  if count .rotation % 4 ≠ 0 then n + (4 - count .rotation % 4) else n

/-- normalize.transform.h:411-439: range_data_size, six bytes per normalized sub-track, rotations padded to 4; segments are
only normalized when there are several (compress.transform.impl.h:257-265). -/
def rangeSize (c : ClipSource) : Nat :=
  if c.segments.length > 1 then
    let count (kind : Kind) : Nat := if c.isVariable kind then c.numAnimated kind else 0
    let n := 6 * count .rotation + 6 * count .translation + 6 * count .scale
    if count .rotation % 4 ≠ 0 then n + (4 - count .rotation % 4) * 6 else n
  else 0

/-- write_range_data.h:55-77 get_clip_range_data_size: 24 bytes per normalized sub-track; the bones that are stripped from
the output are counted as well. -/
def clipRangeSize (c : ClipSource) : Nat :=
  let count (kind : Kind) : Nat :=
    if c.isVariable kind then ((c.bones ++ c.strippedBones).filter fun b => !(b.flags kind).isConstant).length else 0
  24 * count .rotation + 24 * count .translation + 24 * count .scale

/-- Does the segment store its sample `i`? write_stream_data.h:422-424 -/
def keep (c : ClipSource) (s : SegmentSource) (i : Nat) : Bool := !c.stripped || s.hardKeyframes.getMsbD i

/-- The number of key frames a segment stores: all of them, or keyframe_stripping.h:134. -/
def numStored (c : ClipSource) (s : SegmentSource) : Nat := if c.stripped then (countSetBits32 s.hardKeyframes).toNat else s.numSamples

/-- write_stream_data.h:147-153, keyframe_stripping.h:135-136: animated_data_size, in uint32_t. -/
def animatedSize (poseBits numStored : Nat) : Nat := alignUp (poseBits * numStored % 2 ^ 32) 8 % 2 ^ 32 / 8

/-- write_segment_data.h:151-176: write the section when its size is not zero; what is written has that size. -/
def sectionOf (size : Nat) (w : Option (List (BitVec 8))) : Option (List (BitVec 8)) :=
  if size ≠ 0 then w.bind fun bytes => if bytes.length = size then some bytes else none else some []

/-- write_stream_data.h:124-156 calculate_animated_data_size and write_segment_data.h:122-182, for segment `seg`. -/
def segmentOf (c : ClipSource) (seg : Nat) (s : SegmentSource) : Option Clip.Segment :=
  (poseBits c.bones seg .rotation).bind fun rotation =>
  (poseBits c.bones seg .translation).bind fun translation =>
  (poseBits c.bones seg .scale).bind fun scale =>
  let pose := rotation + translation + scale
  let size := animatedSize pose (c.numStored s)
  (sectionOf c.formatSize (writeFormats c.hasScale c.bones seg)).bind fun formats =>
  (sectionOf c.rangeSize (writeSegmentRanges c.isVariable c.hasScale c.bones seg)).bind fun ranges =>
  (sectionOf size (writeAnimated c.hasScale c.bones seg (c.keep s) s.numSamples size s.garbage)).bind fun animated =>
  some ⟨BitVec.ofNat 32 s.start, BitVec.ofNat 32 pose, BitVec.ofNat 32 rotation, BitVec.ofNat 32 translation, s.hardKeyframes,
    formats, ranges, animated⟩

/-- The segments from number `seg` on. -/
def segmentsOf (c : ClipSource) : Nat → List SegmentSource → Option (List Clip.Segment)
  | _, [] => some []
  | seg, s :: rest => (c.segmentOf seg s).bind fun g => (segmentsOf c (seg + 1) rest).map (g :: ·)

/-- The constant samples of a bone: write_stream_data.h:199-317. -/
def constBone (b : Bone) : ConstBone :=
  ⟨b.flags .rotation, b.flags .translation, b.flags .scale, b.rotation, b.vector .translation, b.vector .scale⟩

/-- compress.transform.impl.h:293-306, 429-465: what is written in the clip. -/
def inputOf (c : ClipSource) : Option Clip.Input :=
  (c.segmentsOf 0 c.segments).bind fun segments =>
  (if c.isVariable .rotation || c.isVariable .translation || c.isVariable .scale then
    writeClipRanges c.isVariable c.hasScale c.bones c.garbage else some []).bind fun clipRanges =>
  some {
    counts := ⟨BitVec.ofNat 32 (c.numAnimated .rotation), BitVec.ofNat 32 (c.numAnimated .translation), BitVec.ofNat 32 (c.numAnimated .scale),
      BitVec.ofNat 32 (c.numConstant .rotation), BitVec.ofNat 32 (c.numConstant .translation), BitVec.ofNat 32 (c.numConstant .scale)⟩
    numVariable := c.formatSize
    stripped := c.stripped
    types := writePackedSubTrackTypes c.hasScale (c.bones.map (·.flags .rotation)) (c.bones.map (·.flags .translation)) (c.bones.map (·.flags .scale))
    constants := writeConstantTrackData c.rotationFormat c.hasScale (c.bones.map constBone)
    clipRanges := clipRanges
    clipRangeSize := c.clipRangeSize
    segments := segments }

/-- core/track_formats.h:47-70: the values of rotation_format8 and vector_format8. -/
def rotationCode : RotationFormat → BitVec 32
  | .quatfFull => 0
  | .dropWFull => 2
  | .dropWVariable => 3
def vectorCode : VectorFormat → BitVec 32
  | .full => 0
  | .varBits => 1

/-- compress.transform.impl.h:419-430: the flags of the header; the buffer was zero. The flag of the metadata is set in
Layout/Metadata.lean. -/
def misc (c : ClipSource) (f : ClipFlags) : BitVec 32 :=
  let m := setRotationFormat 0 (rotationCode c.rotationFormat)
  let m := setTranslationFormat m (vectorCode c.translationFormat)
  let m := setScaleFormat m (vectorCode c.scaleFormat)
  let m := setHasScale m c.hasScale
  let m := setDefaultScale m (if f.defaultScaleOne then 1 else 0)
  let m := setHasDatabase m false
  let m := setHasTrivialDefaultValues m f.trivialDefaults
  let m := setHasStrippedKeyframes m c.stripped
  setIsWrapOptimized m f.wrapOptimized

/-- clip_context::num_samples: the samples of all segments. -/
def numSamples (c : ClipSource) : Nat := (c.segments.map (·.numSamples)).sum

/-- compress.transform.impl.h:412-430: the tracks header. -/
def header (c : ClipSource) (f : ClipFlags) : Meta.Header :=
  { tag := 0xac11ac11#32, version := 10#16, algorithm := 0#8, trackType := 12#8, numTracks := BitVec.ofNat 32 c.bones.length,
    numSamples := BitVec.ofNat 32 c.numSamples, sampleRate := f.sampleRate, misc := c.misc f }

/-- The end of the compressor: the compressed buffer. -/
def compress (c : ClipSource) (e : Meta.Extra) (s : Meta.Settings) (src : Meta.Source) (f : ClipFlags) : Option (List (BitVec 8)) :=
  c.inputOf.bind fun x => Clip.compress e s src (c.header f) x

end ClipSource

/-! ## The decompressor -/

/-- compressed_headers.h:111-116 and track_formats.h: the formats. The other values are not formats. -/
def rotationFormatOf (v : BitVec 32) : Option RotationFormat :=
  if v = 0 then some .quatfFull else if v = 2 then some .dropWFull else if v = 3 then some .dropWVariable else none
def vectorFormatOf (v : BitVec 32) : Option VectorFormat :=
  if v = 0 then some .full else if v = 1 then some .varBits else none

/-- `n` words at `p`. -/
def readWords (m : List (BitVec 8)) (p : Nat) : Nat → Option (List (BitVec 32))
  | 0 => some []
  | n + 1 => (load32 m p).bind fun w => (readWords m (p + 4) n).map (w :: ·)

/-- stripped_segment_header_t::sample_indices of `n` segments, from number `i` on. -/
def readSampleIndices (m : List (BitVec 8)) : Nat → Nat → Option (List (BitVec 32))
  | 0, _ => some []
  | n + 1, i =>
    (Clip.segmentHeaderAt m i).bind fun p => (load32 m (p + 16)).bind fun w => (readSampleIndices m n (i + 1)).map (w :: ·)

/-- decompression.transform.h:239-276, 374-380: what the search of the key frames reads, without a database. -/
def readSeekClip (m : List (BitVec 8)) : Option Seek.Clip :=
  (Meta.loadTracksHeader m).bind fun h =>
  (Clip.field m 0).bind fun numSegments =>
  (if numSegments > 1 then readWords m Clip.startIndicesAt (numSegments + 1) else some []).bind fun starts =>
  (if Clip.hasSampleIndices h.misc then readSampleIndices m numSegments 0 else some []).bind fun indices =>
  some ⟨h.numSamples.toNat, numSegments, starts.map BitVec.toNat, Clip.hasSampleIndices h.misc, indices, none⟩

/-- decompression.transform.h:531-560: the pointers and the bit offset (uint32_t) of a key frame in the clip, and the sizes
in its segment header. -/
def keyFrameOf (m : List (BitVec 8)) (f : Seek.KeyFrame) : Option KeyFrame :=
  (Clip.segmentDataAt m f.segment).bind fun d =>
  (Clip.segmentHeaderAt m f.segment).bind fun p =>
  (load32 m p).bind fun pose => (load32 m (p + 4)).bind fun rotation => (load32 m (p + 8)).bind fun translation =>
  some ⟨d.1, d.2.1, m.drop d.2.2, f.position * pose.toNat % 2 ^ 32, rotation.toNat, translation.toNat⟩

/-- compressed_headers.h:243-256, decompression.transform.h:91-121: the context once its two key frames are known. `perTrack`
is the setting is_per_track_rounding_supported(), `single` is uses_single_segment. -/
def contextOf (m : List (BitVec 8)) (key0 key1 : KeyFrame) (single perTrack : Bool) (rounding : Rounding) : Option Context :=
  (Meta.loadTracksHeader m).bind fun h =>
  (rotationFormatOf (getRotationFormat h.misc)).bind fun rotationFormat =>
  (vectorFormatOf (getTranslationFormat h.misc)).bind fun translationFormat =>
  (vectorFormatOf (getScaleFormat h.misc)).bind fun scaleFormat =>
  (Clip.field m 0).bind fun numSegments =>
  (Clip.field m 2).bind fun numAnimatedRotations =>
  (Clip.field m 3).bind fun numAnimatedTranslations =>
  (Clip.field m 4).bind fun numAnimatedScales =>
  (Clip.field m 5).bind fun numConstantRotations =>
  (Clip.field m 6).bind fun numConstantTranslations =>
  (Clip.typesAt m).bind fun typesAt =>
  (readWords m typesAt (numSubTrackEntries h.numTracks.toNat * (if getHasScale h.misc then 3 else 2))).bind fun types =>
  (Clip.constantsAt m).bind fun constantsAt =>
  (Clip.clipRangesAt m).bind fun clipRangesAt =>
  some {
    clip := m
    types := types
    numTracks := h.numTracks.toNat
    hasScale := getHasScale h.misc
    sampled := true
    rotationFormat := rotationFormat
    translationFormat := translationFormat
    scaleFormat := scaleFormat
    cfg := ⟨if h.version.toNat ≥ 9 then 31 else 32, numSegments > 1, single⟩
    perTrackRounding := perTrack
    rounding := rounding
    constantData := constantsAt
    clipRanges := clipRangesAt
    numConstantRotations := numConstantRotations
    numConstantTranslations := numConstantTranslations
    numAnimatedRotations := numAnimatedRotations
    numAnimatedTranslations := numAnimatedTranslations
    numAnimatedScales := numAnimatedScales
    key0 := key0
    key1 := key1 }

/-- decompression.transform.h:527-565: the context after `seek` has chosen the key frames `f0` and `f1` of the clip. -/
def openContext (m : List (BitVec 8)) (f0 f1 : Seek.KeyFrame) (perTrack : Bool) (rounding : Rounding) : Option Context :=
  (keyFrameOf m f0).bind fun key0 =>
  (if f0.segment = f1.segment then
      (keyFrameOf m f1).map fun k => { k with fmt := key0.fmt, seg := key0.seg, data := key0.data }
    else keyFrameOf m f1).bind fun key1 =>
  contextOf m key0 key1 (f0.segment = f1.segment) perTrack rounding

/-- decompression.transform.h:262-565: the rest of `seek`, once the two key frames of the time are known; without a database.
The context and the interpolation alpha. -/
def seekContext {α : Type} (remapAlpha : α → Nat → Nat → Nat → α) (m : List (BitVec 8)) (wrapping : Bool) (kf0 kf1 : Nat) (alpha : α)
    (perTrack : Bool) (rounding : Rounding) : Option (Context × α) :=
  (readSeekClip m).bind fun c =>
  (Seek.seekKeyFrames remapAlpha wrapping c kf0 kf1 alpha).bind fun r =>
  (openContext m r.1 r.2.1 perTrack rounding).map fun x => (x, r.2.2)

end Acl.Transform
