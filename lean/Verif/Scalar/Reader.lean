import Verif.Core.BitRates
import Verif.Core.Packing
/-
Model of the decompression of scalar track lists.
/repo/includes/acl/decompression/impl/decompression.scalar.h
/repo/includes/acl/math/scalar_packing.h, vector4_packing.h (readers, Verif/Core/Packing.lean)

Conventions. `bytes` is the memory from the start of the `scalar_tracks_header` to the end of the buffer; the
offsets of the header are relative to it, as in the code. A load outside of it and a failed assert are `none`.
uint32_t bit offsets wrap (`u32`); pointers into the constant and range values are byte offsets.
Simplifications. Floats are bit patterns and the arithmetic is the free term `Value` of what was loaded; a
vector value is the list of its `numComponents` first lanes (the lanes above are unspecified by the API), but the
16 bytes the vector loads touch must be readable. The five branches by track type, which repeat the same code with
1, 2, 3, 4 and 4 components, are one definition.
-/
namespace Acl.Scalar

/-- core/track_types.h `track_type8`, the types of scalar tracks that are supported. -/
inductive TrackType where | float1f | float2f | float3f | float4f | vector4f
  deriving DecidableEq, Repr

/-- core/track_types.h:193-220 `get_track_num_sample_elements`. -/
def numSampleElements : TrackType → Nat
  | .float1f => 1 | .float2f => 2 | .float3f => 3 | .float4f => 4 | .vector4f => 4

/-- core/sample_rounding_policy.h `sample_rounding_policy`. -/
inductive Policy where | none | floor | ceil | nearest | perTrack
  deriving DecidableEq, Repr

/-- An interpolation factor: the one the seek computed, or what a rounding policy makes out of it. -/
inductive Alpha where
  | seek | zero | one | roundedNearest
  deriving DecidableEq, Repr

/-- core/impl/interpolation_utils.impl.h:37-55 `apply_rounding_policy`. -/
def applyRounding : Policy → Alpha
  | .none => .seek | .floor => .zero | .ceil => .one | .nearest => .roundedNearest | .perTrack => .seek

/-- A sample of one key frame. -/
inductive Sample where
  /-- the components are stored as floats -/
  | raw (components : List (BitVec 32))
  /-- `n` bit components, expanded with a range -/
  | quantized (n : Nat) (components min extent : List (BitVec 32))
  deriving DecidableEq, Repr

/-- The value handed to the track writer. -/
inductive Value where
  | constant (components : List (BitVec 32))
  | lerp (a b : Sample) (alpha : Alpha)
  deriving DecidableEq, Repr

/-- A call of `track_writer::write_float1` ... `write_vector4`, by track type. -/
structure Event where
  type : TrackType
  track : Nat
  value : Value
  deriving DecidableEq, Repr

/-- The fields of `tracks_header` and `scalar_tracks_header` (core/impl/compressed_headers.h:60-165) the decoder
uses, with the memory. -/
structure Clip where
  isV2_0 : Bool
  trackType : TrackType
  numTracks : Nat
  numSamples : Nat
  numBitsPerFrame : Nat
  metadataOffset : Nat
  constantOffset : Nat
  rangeOffset : Nat
  animatedOffset : Nat
  bytes : List (BitVec 8)

/-- decompression.scalar.h:59-80 `persistent_scalar_decompression_context_v0`; `seeked` is
`sample_time >= 0`. -/
structure Ctx where
  clip : Clip
  seeked : Bool
  rounding : Policy
  bitOffset0 : Nat
  bitOffset1 : Nat

/-- The decompression settings and the track writer. -/
structure Writer where
  supported : TrackType → Bool
  perTrackRounding : Bool
  policyOf : Policy → Nat → Policy
  skip : Nat → Bool

/-- uint32_t arithmetic wraps. -/
def u32 (x : Nat) : Nat := x % 4294967296

/-- decompression.scalar.h:196-199: the end of `seek_v0`, for the key frames found. -/
def seekTo (clip : Clip) (rounding : Policy) (keyFrame0 keyFrame1 : Nat) : Ctx where
  clip := clip
  seeked := true
  rounding := rounding
  bitOffset0 := u32 (keyFrame0 * clip.numBitsPerFrame)
  bitOffset1 := u32 (keyFrame1 * clip.numBitsPerFrame)

/-- `rtm::scalar_load` (4 bytes) for one component, `rtm::vector_load` (16 bytes) otherwise. -/
def loadFloats (numComponents : Nat) (m : List (BitVec 8)) (p : Nat) : Option (List (BitVec 32)) :=
  if numComponents = 1 then (loadLE32 m p).bind fun x => some [x]
  else
    (loadLE32 m (p + 0)).bind fun x => (loadLE32 m (p + 4)).bind fun y => (loadLE32 m (p + 8)).bind fun z =>
    (loadLE32 m (p + 12)).bind fun w => some ([x, y, z, w].take numComponents)

/-- unpack_scalarf_32_unsafe, unpack_vector2_64_unsafe, unpack_vector3_96_unsafe, unpack_vector4_128_unsafe: the
components from `i` to `numComponents`. -/
def readRawFrom (m : List (BitVec 8)) (bit : Nat) : Nat → Nat → Option (List (BitVec 32))
  | 0, _ => some []
  | n + 1, i => (readRaw m bit i).bind fun x => (readRawFrom m bit n (i + 1)).bind fun xs => some (x :: xs)

/-- unpack_scalarf_uXX_unsafe, unpack_vector2_uXX_unsafe, unpack_vector3_uXX_unsafe, unpack_vector4_uXX_unsafe. -/
def readQuantized (numComponents n : Nat) (m : List (BitVec 8)) (bit : Nat) : Option (List (BitVec 32)) :=
  match numComponents with
  | 1 => (unpackScalar n m bit).bind fun x => some [x]
  | 2 => (unpackVector2 n m bit).bind fun (x, y) => some [x, y]
  | 3 => (unpackVector3 n m bit).bind fun (x, y, z) => some [x, y, z]
  | _ => (unpackVector4 n m bit).bind fun (x, y, z, w) => some [x, y, z, w]

/-- decompression.scalar.h:279-285, 295-305, 335-345, 375-385, 415-425, 455-460: one animated sample at a bit
offset relative to the animated values. -/
def readSample (c : Nat) (clip : Clip) (n rangePtr bit : Nat) : Option Sample :=
  if n = 32 then
    (readRawFrom (clip.bytes.drop clip.animatedOffset) bit c 0).bind fun v => some (.raw v)
  else
    (readQuantized c n (clip.bytes.drop clip.animatedOffset) bit).bind fun v =>
    (loadFloats c clip.bytes rangePtr).bind fun min =>
    (loadFloats c clip.bytes (rangePtr + 4 * c)).bind fun extent =>
    some (.quantized n v min extent)

/-- The bit width of a track: decompression.scalar.h:268-271, 535-540, 550-553 with the table of 259-260. -/
def numBitsOf (clip : Clip) (track : Nat) : Option Nat :=
  (clip.bytes[clip.metadataOffset + track]?).bind fun bitRate =>
  if bitRate.toNat < (scalarBitRateTable clip.isV2_0).length then (scalarBitRateTable clip.isV2_0)[bitRate.toNat]? else none

/-- decompression.scalar.h:234-247: `interpolation_alpha_per_policy`, indexed by policy. -/
def alphaPerPolicy : Policy → Alpha
  | .none => applyRounding .none
  | .floor => applyRounding .floor
  | .ceil => applyRounding .ceil
  | .nearest => applyRounding .nearest
  | .perTrack => applyRounding .none

/-- The moving state of the loop of `decompress_tracks_v0`. -/
structure Cursor where
  constant : Nat
  range : Nat
  bit0 : Nat
  bit1 : Nat

/-- decompression.scalar.h:266-473: one iteration of the loop of `decompress_tracks_v0`. -/
def stepTrack (ctx : Ctx) (w : Writer) (track : Nat) (cur : Cursor) : Option (List Event × Cursor) :=
  let clip := ctx.clip
  let c := numSampleElements clip.trackType
  (numBitsOf clip track).bind fun n =>
  let policy := w.policyOf ctx.rounding track
  let alpha := if w.perTrackRounding then alphaPerPolicy policy else .seek
  if w.perTrackRounding && policy == .perTrack then none else
  if w.supported clip.trackType then
    if n = 0 then
      (loadFloats c clip.bytes cur.constant).bind fun v =>
      some (if w.skip track then [] else [⟨clip.trackType, track, .constant v⟩], { cur with constant := cur.constant + 4 * c })
    else
      (readSample c clip n cur.range cur.bit0).bind fun a =>
      (readSample c clip n cur.range cur.bit1).bind fun b =>
      some (if w.skip track then [] else [⟨clip.trackType, track, .lerp a b alpha⟩],
        { cur with
          range := if n = 32 then cur.range else cur.range + 2 * (4 * c)
          bit0 := u32 (cur.bit0 + n * c)
          bit1 := u32 (cur.bit1 + n * c) })
  else some ([], cur)

/-- decompression.scalar.h:266-473: the loop, from track `track`, `left` tracks left. -/
def tracksLoop (ctx : Ctx) (w : Writer) : Nat → Nat → Cursor → Option (List Event)
  | 0, _, _ => some []
  | left + 1, track, cur =>
    (stepTrack ctx w track cur).bind fun (es, cur) =>
    (tracksLoop ctx w left (track + 1) cur).bind fun rest => some (es ++ rest)

/-- decompression.scalar.h:203-478 `decompress_tracks_v0`. -/
def decompressTracks (ctx : Ctx) (w : Writer) : Option (List Event) :=
  if ctx.clip.numTracks = 0 then some [] else
  if ctx.seeked then
    tracksLoop ctx w ctx.clip.numTracks 0 ⟨ctx.clip.constantOffset, ctx.clip.rangeOffset, ctx.bitOffset0, ctx.bitOffset1⟩
  else none

/-- The state of the scan of `decompress_track_v0`. -/
structure Scan where
  constant : Nat
  range : Nat
  bit : Nat

/-- decompression.scalar.h:531-546: the scan of the tracks before the one requested. -/
def scanLoop (clip : Clip) : Nat → Nat → Scan → Option Scan
  | 0, _, s => some s
  | left + 1, track, s =>
    let c := numSampleElements clip.trackType
    (numBitsOf clip track).bind fun n =>
    let bit := u32 (s.bit + u32 (n * c))
    if n = 0 then scanLoop clip left (track + 1) { s with bit := bit, constant := s.constant + 4 * c }
    else if n < 32 then scanLoop clip left (track + 1) { s with bit := bit, range := s.range + 4 * (c * 2) }
    else scanLoop clip left (track + 1) { s with bit := bit }

/-- decompression.scalar.h:483-705 `decompress_track_v0`. The asserts are returns in a build without asserts; the
ones on the track index and on the seek are kept as asserts. -/
def decompressTrack (ctx : Ctx) (w : Writer) (track : Nat) : Option (List Event) :=
  let clip := ctx.clip
  if clip.numTracks = 0 then some [] else
  if !ctx.seeked then none else
  if track ≥ clip.numTracks then none else
  let c := numSampleElements clip.trackType
  let policy := w.policyOf ctx.rounding track
  let alpha := if w.perTrackRounding then applyRounding policy else .seek
  if w.perTrackRounding && policy == .perTrack then none else
  (scanLoop clip track 0 ⟨clip.constantOffset, clip.rangeOffset, 0⟩).bind fun s =>
  (numBitsOf clip track).bind fun n =>
  if w.supported clip.trackType then
    if n = 0 then
      (loadFloats c clip.bytes s.constant).bind fun v => some [⟨clip.trackType, track, .constant v⟩]
    else
      (readSample c clip n s.range (u32 (ctx.bitOffset0 + s.bit))).bind fun a =>
      (readSample c clip n s.range (u32 (ctx.bitOffset1 + s.bit))).bind fun b =>
      some [⟨clip.trackType, track, .lerp a b alpha⟩]
  else some []

end Acl.Scalar
