import Verif.Core.BitRates
import Verif.Layout.Bytes
import Verif.Transform.AnimatedCache
import Verif.Transform.ConstantCache
/-
Model of the writers of the animated sub-track data of a transform clip: bit rates, clip ranges, segment ranges and the
key frames.
/repo/includes/acl/compression/impl/animated_track_utils.h
/repo/includes/acl/compression/impl/write_stream_data.h
/repo/includes/acl/compression/impl/write_range_data.h
/repo/includes/acl/compression/impl/quantize.transform.h (the last step: how a sample is packed)

Conventions. Bones are the output bones, in output order (already looked up through output_bone_mapping). Counters are
natural numbers (uint32_t in the code). A failed assert or an access out of bounds is `none`. An output pointer that only
moves forward is the list of the bytes written so far.
Simplification. The values are what the quantizer has computed: integers (`pack_scalar_unsigned`, C08 and C38) and floats.
-/
namespace Acl.Transform

/-- track_stream.h: the stream of an animated sub-track in a segment, after quantization. `bitRate` is `none` when it is
not variable (k_invalid_bit_rate). `value i` is the sample `i`; a sub-track with bit rate 0 has only the first one
(quantize.transform.h:380-396). `memory i` is what the memory of the sample holds before it is packed. -/
structure Stream where
  bitRate : Option Nat
  packedSize : Nat
  value : Nat → RawSample
  memory : Nat → List (BitVec 8)

/-- An output bone of a clip: flags, samples of the constant sub-tracks, ranges and streams (by segment). -/
structure Bone where
  flags : Kind → StreamFlags
  rotation : Vec4
  vector : Kind → Vec3
  clipRange : Kind → RangeF
  segmentRange : Nat → Kind → Range8
  stream : Nat → Kind → Stream

/-- quantize.transform.h:376-419 (and 324-357, the same for translations and scales): the bytes of sample `i`.
pack_vector3_u48_unsafe, pack_vector3_96, pack_vector3_uXX_unsafe, pack_vector4_128. -/
def Stream.rawSample (t : Stream) (i : Nat) : Option (List (BitVec 8)) :=
  match t.value i with
  | .const16 x y z => writeFront (t.memory i) (bytesLE x ++ bytesLE y ++ bytesLE z)
  | .quantized n x y z => packVector3 x y z n (t.memory i)
  | .float3 v => writeFront (t.memory i) (floatBytes [v.x, v.y, v.z])
  | .float4 v => writeFront (t.memory i) (floatBytes [v.x, v.y, v.z, v.w])

/-! ### Groups -/

/-- animated_track_utils.h:110-130: the loop of `group_writer_impl`; `g` is `group_size`. -/
def groupLoop {α σ : Type} (filter : α → Bool) (entry : Nat → α → σ → Option σ) (flush : Nat → σ → Option σ) :
    List α → Nat → σ → Option σ
  | [], g, s => if g ≠ 0 then flush g s else some s
  | b :: rest, g, s =>
    (if filter b then (entry g b s).map (g + 1, ·) else some (g, s)).bind fun (g, s) =>
    (if g = 4 then (flush g s).map (0, ·) else some (g, s)).bind fun (g, s) =>
    groupLoop filter entry flush rest g s

/-- animated_track_utils.h:97-140, 145-162 `animated_group_writer`: rotations, translations and scales; only the sub-tracks
that are not constant. -/
def groupWriter {σ : Type} (hasScale : Bool) (bones : List Bone) (filter : Kind → Bone → Bool)
    (entry : Kind → Nat → Bone → σ → Option σ) (flush : Kind → Nat → σ → Option σ) (s : σ) : Option σ :=
  let run (kind : Kind) (s : σ) : Option σ :=
    groupLoop (fun b => !(b.flags kind).isConstant && filter kind b) (entry kind) (flush kind) bones 0 s
  (run .rotation s).bind fun s =>
  (run .translation s).bind fun s =>
  if hasScale then run .scale s else some s

/-! ### Bit rates -/

/-- write_stream_data.h:467-535 `write_format_per_track_data`. The state is the bytes written and the group of 4 bytes. -/
def writeFormats (hasScale : Bool) (bones : List Bone) (seg : Nat) : Option (List (BitVec 8)) :=
  (groupWriter hasScale bones (fun kind b => (b.stream seg kind).bitRate.isSome)
    (fun kind g b (s : List (BitVec 8) × List (BitVec 8)) =>
      (b.stream seg kind).bitRate.bind fun r => (formatByte r).bind fun byte =>
      (store s.2 g [byte]).map fun group => (s.1, group))
    (fun kind g s =>
      let copySize := if kind = .rotation then 4 else g
      some (s.1 ++ s.2.take copySize, List.replicate 4 0))
    ([], List.replicate 4 0)).map (·.1)

/-! ### Ranges -/

/-- `range_reduction_flags8`: which kinds of sub-tracks are normalized. -/
abbrev RangeFlags := Kind → Bool

/-- write_range_data.h:80-205 `write_clip_range_data`. The state is the bytes written and the ranges of the group. Rotations
are only normalized without their W component (`quatf_drop_w_variable`). -/
def writeClipRanges (flags : RangeFlags) (hasScale : Bool) (bones : List Bone) (garbage : Nat → RangeF) :
    Option (List (BitVec 8)) :=
  (groupWriter hasScale bones (fun kind _ => flags kind)
    (fun kind g b (s : List (BitVec 8) × (Nat → RangeF)) =>
      if g < 4 then some (s.1, fun i => if i = g then b.clipRange kind else s.2 i) else none)
    (fun kind g s =>
      let lanes (f : RangeF → BitVec 32) : List (BitVec 8) := floatBytes ((List.range g).map fun i => f (s.2 i))
      if kind = .rotation then
        some (s.1 ++ lanes (·.min.x) ++ lanes (·.min.y) ++ lanes (·.min.z) ++
          lanes (·.extent.x) ++ lanes (·.extent.y) ++ lanes (·.extent.z), s.2)
      else
        some (s.1 ++ (List.range g).flatMap fun i =>
          floatBytes [(s.2 i).min.x, (s.2 i).min.y, (s.2 i).min.z] ++
          floatBytes [(s.2 i).extent.x, (s.2 i).extent.y, (s.2 i).extent.z], s.2))
    ([], garbage)).map (·.1)

/-- Bytes one after the other, `stride` apart. -/
def storeStrided (stride : Nat) : List (BitVec 8) → Nat → List (BitVec 8) → Option (List (BitVec 8))
  | [], _, m => some m
  | b :: rest, p, m => (store m p [b]).bind fun m => storeStrided stride rest (p + stride) m

/-- write_range_data.h:241-311: the six bytes of a sub-track, in the order they are written: its constant sample when its
bit rate is 0 (the bytes of a rotation are swapped), or its segment range. -/
def segmentRangeBytes (kind : Kind) (t : Stream) (r : Range8) : Option (List (BitVec 8)) :=
  if t.bitRate = some 0 then
    (t.rawSample 0).bind fun sample =>
    (byteAt sample 0).bind fun s0 => (byteAt sample 1).bind fun s1 => (byteAt sample 2).bind fun s2 =>
    (byteAt sample 3).bind fun s3 => (byteAt sample 4).bind fun s4 => (byteAt sample 5).bind fun s5 =>
    some (if kind = .rotation then [s1, s0, s3, s2, s5, s4] else [s0, s1, s2, s3, s4, s5])
  else some [r.minX, r.minY, r.minZ, r.extentX, r.extentY, r.extentZ]

/-- write_range_data.h:208-338 `write_segment_range_data`. The state is the bytes written and the group of 24 bytes. -/
def writeSegmentRanges (flags : RangeFlags) (hasScale : Bool) (bones : List Bone) (seg : Nat) : Option (List (BitVec 8)) :=
  (groupWriter hasScale bones (fun kind _ => flags kind)
    (fun kind g b (s : List (BitVec 8) × List (BitVec 8)) =>
      (segmentRangeBytes kind (b.stream seg kind) (b.segmentRange seg kind)).bind fun bytes =>
      (if kind = .rotation then storeStrided 4 bytes g s.2 else store s.2 (g * 6) bytes).map fun group => (s.1, group))
    (fun kind g s =>
      let copySize := if kind = .rotation then 4 else g
      some (s.1 ++ s.2.take (copySize * 6), List.replicate 24 0))
    ([], List.replicate 24 0)).map (·.1)

/-! ### Key frames -/

/-- write_stream_data.h:319-362 `write_animated_sample`. -/
def writeAnimatedSample (t : Stream) (i : Nat) (dest : List (BitVec 8)) (bit : Nat) : Option (List (BitVec 8) × Nat) :=
  (t.rawSample i).bind fun raw =>
  match t.bitRate with
  | some r =>
    (getNumBitsAtBitRate r).bind fun n =>
    if isConstantBitRate r then none
    else if isRawBitRate r then
      (loadLE32 raw 0).bind fun x => (loadLE32 raw 4).bind fun y => (loadLE32 raw 8).bind fun z =>
      writeRawSample dest bit [x, y, z]
    else writeQuantizedSample dest bit raw n
  | none =>
    (loadLE32 raw 0).bind fun x => (loadLE32 raw 4).bind fun y => (loadLE32 raw 8).bind fun z =>
    if t.packedSize = 16 then (loadLE32 raw 12).bind fun w => writeRawSample dest bit [x, y, z, w]
    else writeRawSample dest bit [x, y, z]

/-- write_stream_data.h:376, 391-392: `animated_track_data`, `bit_offset`, `group_animated_track_data`, `group_bit_offset` -/
structure AnimOut where
  dest : List (BitVec 8)
  bit : Nat
  group : List (BitVec 8)
  groupBit : Nat

/-- write_stream_data.h:425-445: one key frame. -/
def writeFrame (hasScale : Bool) (bones : List Bone) (seg i : Nat) (s : AnimOut) : Option AnimOut :=
  groupWriter hasScale bones (fun _ _ => true)
    (fun kind _ b (s : AnimOut) =>
      if (b.stream seg kind).bitRate ≠ some 0 then
        (writeAnimatedSample (b.stream seg kind) i s.group s.groupBit).map fun (group, groupBit) =>
          { s with group := group, groupBit := groupBit }
      else some s)
    (fun _ _ s =>
      (memcpyBits s.dest s.bit s.group 0 s.groupBit).map fun dest =>
        { s with dest := dest, bit := s.bit + s.groupBit, groupBit := 0 })
    s

/-- write_stream_data.h:420-446: the loop over the samples of the segment; `left` of them, from `i` on. `keep i` is false
for the key frames that are stripped. -/
def writeFrames (hasScale : Bool) (bones : List Bone) (seg : Nat) (keep : Nat → Bool) : Nat → Nat → AnimOut → Option AnimOut
  | 0, _, s => some s
  | left + 1, i, s =>
    (if keep i then writeFrame hasScale bones seg i s else some s).bind fun s =>
    writeFrames hasScale bones seg keep left (i + 1) s

/-- write_stream_data.h:364-465 `write_animated_track_data` in a buffer of zeros. -/
def writeAnimated (hasScale : Bool) (bones : List Bone) (seg : Nat) (keep : Nat → Bool) (numSamples size : Nat)
    (garbage : List (BitVec 8)) : Option (List (BitVec 8)) :=
  (writeFrames hasScale bones seg keep numSamples 0 ⟨List.replicate size 0, 0, garbage, 0⟩).map (·.dest)

/-- write_stream_data.h:104-122 `calculate_animated_data_size` of a stream. -/
def Stream.poseBits (t : Stream) : Option Nat :=
  match t.bitRate with
  | some r => (getNumBitsAtBitRate r).map (· * 3)
  | none => some (t.packedSize * 8)

/-- write_stream_data.h:124-156: the bits of the animated sub-tracks of a kind in a key frame. -/
def poseBits (bones : List Bone) (seg : Nat) (kind : Kind) : Option Nat :=
  bones.foldl (fun acc b => acc.bind fun n =>
    if !(b.flags kind).isConstant then (b.stream seg kind).poseBits.map (n + ·) else some n) (some 0)

end Acl.Transform
