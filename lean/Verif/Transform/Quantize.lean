import Verif.Transform.ClipWriter
import Verif.Transform.RangeReduction
import Verif.Transform.Segmenting
import Verif.Float.Bits
import Verif.Core.Interpolation
/-
From the samples of transform tracks to the quantized streams of a clip, and the values the decoder computes.
/repo/includes/acl/compression/impl/compress.transform.impl.h:233-269 (the passes, in order)
/repo/includes/acl/compression/impl/normalize.transform.h:50-107 (clip ranges), 114-200 (segment ranges), 346-409 (normalization)
/repo/includes/acl/compression/impl/segment.transform.h:180-250 (segments, and the first sample of each)
/repo/includes/acl/compression/impl/quantize.transform.h:324-560 (how a sub-track is quantized at a bit rate)
/repo/includes/acl/compression/impl/write_range_data.h:241-311 (8 bit segment ranges)
/repo/includes/acl/decompression/impl/animated_track_cache.transform.h:559-590, 838-960, 1020-1101 (decoding a sample), 1795-1886, 1910-2010
(interpolating translations and scales)

The input is a clip once the looping policy was optimized, rotations were converted to the rotation format and constant
sub-tracks were found; a rotation without W has its sign already chosen. The bit rate of every animated
sub-track of every segment is any legal one: the search of quantize.transform.h picks it from the error metric of the user.
Floats are rationals rounded with `F32.rnd`; samples are bit patterns.
-/
namespace Acl.Transform
open Acl.F32 Acl.Lerp Acl.ScalarPacking Acl.RangeReduction

/-- A component of a vector or of a rotation without its W. -/
inductive Axis where | x | y | z
  deriving DecidableEq, Repr

/-- A component of a vector. -/
def Vec3.lane (v : Vec3) : Axis → BitVec 32
  | .x => v.x
  | .y => v.y
  | .z => v.z

/-- An output transform track: transform_streams.h, with the raw samples it is quantized from. -/
structure RawBone where
  flags : Kind → StreamFlags
  /-- the value of a constant rotation -/
  rotation : Vec4
  /-- the value of a constant translation or scale -/
  vector : Kind → Vec3
  /-- the samples of the animated sub-tracks, by sample of the clip; W is only used by quatf_full -/
  sample : Kind → Nat → Vec4
  /-- the selected bit rates, by segment -/
  bitRate : Nat → Kind → Nat
  /-- what the memory of the quantized samples holds before -/
  memory : Nat → Kind → Nat → List (BitVec 8)

/-- clip_context.h: a clip before normalization. -/
structure RawClip where
  bones : List RawBone
  strippedBones : List RawBone
  hasScale : Bool
  rotationFormat : RotationFormat
  translationFormat : VectorFormat
  scaleFormat : VectorFormat
  numSamples : Nat
  segmenting : Segmenting.Settings
  /-- has_stripped_keyframes and the hard key frames of every segment: keyframe_stripping.h -/
  stripped : Bool
  hardKeyframes : Nat → BitVec 32
  segmentGarbage : Nat → List (BitVec 8)
  garbage : Nat → RangeF

namespace RawClip

/-- segment.transform.h:115-180: the number of samples of every segment -/
def sizes (r : RawClip) : List Nat := Segmenting.segmentSizes r.numSamples r.segmenting

/-- segment.transform.h:187-249: the first sample of segment `g` (clip_sample_index) -/
def start (r : RawClip) (g : Nat) : Nat := (r.sizes.take g).sum

/-- core/impl/track_formats.impl.h: is_rotation_format_variable, is_vector_format_variable; compress.transform.impl.h:188-198 -/
def isVariable (r : RawClip) : Kind → Bool
  | .rotation => r.rotationFormat.isVariable
  | .translation => r.translationFormat = .varBits
  | .scale => r.scaleFormat = .varBits

end RawClip

namespace RawBone

/-- A component of a sample. -/
def value (b : RawBone) (kind : Kind) (lane : Axis) (n : Nat) : ℚ := ofBits ((b.sample kind n).xyz.lane lane)

/-- normalize.transform.h:78-112 extract_clip_bone_ranges -/
def clipRangeOf (b : RawBone) (r : RawClip) (kind : Kind) (lane : Axis) : Range :=
  trackRange ((List.range r.numSamples).map (b.value kind lane))

/-- normalize.transform.h:346-376 normalize_clip_streams -/
def clipNormalized (b : RawBone) (r : RawClip) (kind : Kind) (lane : Axis) (n : Nat) : ℚ :=
  normalizeSample (b.value kind lane n) (b.clipRangeOf r kind lane)

/-- normalize.transform.h:114-200 extract_segment_bone_ranges, out of the normalized samples -/
def segmentRangeOf (b : RawBone) (r : RawClip) (g : Nat) (kind : Kind) (lane : Axis) : Range :=
  fixupRange (trackRange ((List.range (r.sizes.getD g 0)).map fun i => b.clipNormalized r kind lane (r.start g + i)))

/-- normalize.transform.h:378-409 normalize_segment_streams; only with several segments (compress.transform.impl.h:259) -/
def normalized (b : RawBone) (r : RawClip) (g : Nat) (kind : Kind) (lane : Axis) (i : Nat) : ℚ :=
  if r.sizes.length > 1 then normalizeSample (b.clipNormalized r kind lane (r.start g + i)) (b.segmentRangeOf r g kind lane)
  else b.clipNormalized r kind lane (r.start g + i)

/-- scalar_packing.h:42-48; a conversion that is undefined gives 0 -/
def pack (x : ℚ) (n : Nat) : Nat := (packUnsigned x n).getD 0

/-- write_range_data.h:265-300 pack_vector3_u24_unsafe, one component of a range -/
def byte (x : ℚ) : BitVec 8 := BitVec.ofNat 8 (pack x 8)

/-- quantize.transform.h:372-420, 478-529, and the same for scales: sample `i` of the segment at a bit rate. The constant
is the first sample of the segment before it is normalized over the segment (segment.transform.h:241-244). -/
def variableSample (b : RawBone) (r : RawClip) (g : Nat) (kind : Kind) (i : Nat) : RawSample :=
  if isConstantBitRate (b.bitRate g kind) then
    let word (lane : Axis) : BitVec 16 := BitVec.ofNat 16 (pack (b.clipNormalized r kind lane (r.start g)) 16)
    .const16 (word .x) (word .y) (word .z)
  else if isRawBitRate (b.bitRate g kind) then .float3 (b.sample kind (r.start g + i)).xyz
  else
    let n := (getNumBitsAtBitRate (b.bitRate g kind)).getD 0
    let word (lane : Axis) : BitVec 32 := BitVec.ofNat 32 (pack (b.normalized r g kind lane i) n)
    .quantized n (word .x) (word .y) (word .z)

/-- quantize.transform.h:324-352, 440-467, and the same for scales: a format that is not variable -/
def fixedSample (b : RawBone) (r : RawClip) (g : Nat) (kind : Kind) (i : Nat) : RawSample :=
  if kind = .rotation ∧ r.rotationFormat = .quatfFull then .float4 (b.sample kind (r.start g + i))
  else .float3 (b.sample kind (r.start g + i)).xyz

/-- quantize.transform.h:376-380: the sizes and formats of the streams -/
def streamOf (b : RawBone) (r : RawClip) (g : Nat) (kind : Kind) : Stream :=
  if r.isVariable kind then ⟨some (b.bitRate g kind), 16, b.variableSample r g kind, b.memory g kind⟩
  else ⟨none, if kind = .rotation then packedRotationSize r.rotationFormat else 12, b.fixedSample r g kind, b.memory g kind⟩

/-- The quantized track. -/
def quantize (b : RawBone) (r : RawClip) : Bone where
  flags := b.flags
  rotation := b.rotation
  vector := b.vector
  clipRange := fun kind =>
    let mn (lane : Axis) := toBits (b.clipRangeOf r kind lane).min
    let ex (lane : Axis) := toBits (b.clipRangeOf r kind lane).extent
    ⟨⟨mn .x, mn .y, mn .z⟩, ⟨ex .x, ex .y, ex .z⟩⟩
  segmentRange := fun g kind =>
    let mn (lane : Axis) := byte (b.segmentRangeOf r g kind lane).min
    let ex (lane : Axis) := byte (b.segmentRangeOf r g kind lane).extent
    ⟨mn .x, mn .y, mn .z, ex .x, ex .y, ex .z⟩
  stream := fun g kind => b.streamOf r g kind

end RawBone

/-- compress.transform.impl.h:245-280: from the clip to its quantized streams. -/
def RawClip.quantize (r : RawClip) : ClipSource where
  bones := r.bones.map fun b => b.quantize r
  strippedBones := r.strippedBones.map fun b => b.quantize r
  hasScale := r.hasScale
  rotationFormat := r.rotationFormat
  translationFormat := r.translationFormat
  scaleFormat := r.scaleFormat
  stripped := r.stripped
  segments := (List.range r.sizes.length).map fun g =>
    ⟨r.start g, r.sizes.getD g 0, r.hardKeyframes g, r.segmentGarbage g⟩
  garbage := r.garbage

/-! ## The values of the decoder -/

def Range8.min (s : Range8) : Axis → BitVec 8
  | .x => s.minX
  | .y => s.minY
  | .z => s.minZ
def Range8.extent (s : Range8) : Axis → BitVec 8
  | .x => s.extentX
  | .y => s.extentY
  | .z => s.extentZ

/-- animated_track_cache.transform.h:559-590, 1040-1070: one component of a sample as it is unpacked -/
def evalRaw (lane : Axis) : RawSample → ℚ
  | .const16 x y z => unpackUnsigned (match lane with | .x => x | .y => y | .z => z).toNat 16
  | .quantized n x y z => unpackUnsigned (match lane with | .x => x | .y => y | .z => z).toNat n
  | .float3 v => ofBits (v.lane lane)
  | .float4 v => ofBits (v.xyz.lane lane)

/-- animated_track_cache.transform.h:838-847, 1082-1091: the segment range, when there is one that is not ignored -/
def evalSegment (fused : Bool) (lane : Axis) (u : ℚ) : Option Range8 → ℚ
  | none => u
  | some s => mulAdd fused u (unpackUnsigned (s.extent lane).toNat 8) (unpackUnsigned (s.min lane).toNat 8)

/-- animated_track_cache.transform.h:944-960, 1093-1100: the clip range, when it is not ignored -/
def evalClip (fused : Bool) (lane : Axis) (u : ℚ) : Option RangeF → ℚ
  | none => u
  | some c => mulAdd fused u (ofBits (c.extent.lane lane)) (ofBits (c.min.lane lane))

/-- One component of a key frame. -/
def evalSample (fused : Bool) (lane : Axis) (s : Sample) : ℚ :=
  evalClip fused lane (evalSegment fused lane (evalRaw lane s.raw) s.segment) s.clip

/-- animated_track_cache.transform.h:1795-1823, 1875-1886 (translations), 1920-1945, 2000-2010 (scales): how the two key frames
are combined; `t` is the factor of the context. A cached sample of a rounding policy is one of the two key frames. -/
def evalVector (fused : Bool) (t d0 d1 : ℚ) : Interp → ℚ
  | .contextAlpha => lerp fused d0 d1 t
  | .roundedAlpha p => lerp fused d0 d1 (Acl.Interp.applyRounding t p)
  | .slot .none => lerp fused d0 d1 t
  | .slot .floor => d0
  | .slot .ceil => d1
  | .slot .nearest => if t < 1 / 2 then d0 else d1
  | .slot .perTrack => lerp fused d0 d1 t

end Acl.Transform
