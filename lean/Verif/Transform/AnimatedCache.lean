import Verif.Transform.Values
/-
Model of the animated sub-track readers: the group reader the whole pose uses and the single sub-track reader.
/repo/includes/acl/decompression/impl/animated_track_cache.transform.h
/repo/includes/acl/decompression/impl/track_cache.h

Conventions. The clip is a byte buffer `m`, pointers into it are offsets; the key frame data is another buffer
(the clip itself or the bulk data of a database), addressed by a bit offset. A load outside of a buffer and a
failed assert are `none`. Counters and bit offsets are natural numbers (uint32_t in the code). The SSE2 path is
the one modelled where the paths load different amounts of memory (it loads the most).
Simplifications. A sample is the free term of what was loaded (see Values.lean): the raw value, the segment range
applied to it if any, the clip range applied to it if any. The byte masks of the 4 lanes are one Boolean per lane;
a masked lane is computed by the code as `v * 1 + 0`, which is `v` up to the sign of a zero. SOA and AOS
evaluation of the same arithmetic are the same term. A cache slot holds the samples of both key frames; the code
stores what the rounding policies compute out of them.
-/
namespace Acl.Transform

/-- The value of a sample before any range is applied. -/
inductive RawSample where
  /-- a sub-track that is constant in its segment: 16 bits per component, in the segment range data -/
  | const16 (x y z : BitVec 16)
  /-- `n` bits per component -/
  | quantized (n : Nat) (x y z : BitVec 32)
  /-- three floats -/
  | float3 (v : Vec3)
  /-- four floats -/
  | float4 (v : Vec4)
  deriving DecidableEq, Repr

/-- Segment range of a sub-track: 8 bits per component. -/
structure Range8 where
  minX : BitVec 8
  minY : BitVec 8
  minZ : BitVec 8
  extentX : BitVec 8
  extentY : BitVec 8
  extentZ : BitVec 8
  deriving DecidableEq, Repr

/-- Clip range of a sub-track. -/
structure RangeF where
  min : Vec3
  extent : Vec3
  deriving DecidableEq, Repr

/-- A decoded sample: the raw value and the ranges it is expanded with, segment first. -/
structure Sample where
  raw : RawSample
  segment : Option Range8
  clip : Option RangeF
  deriving DecidableEq, Repr

/-- animated_track_cache.transform.h:116-132 `segment_animated_sampling_context_v0`. -/
structure SegCtx where
  fmt : Nat
  seg : Nat
  data : List (BitVec 8)
  bit : Nat

/-- What the readers get from the decompression context: `rawBits` is 31 or 32 by version (lines 523, 698,
880, 1114), `singleSegment` is `uses_single_segment`. -/
structure AnimCfg where
  rawBits : Nat
  hasSegments : Bool
  singleSegment : Bool

/-- track_cache.h `track_cache_*_v0<8, 4>` with the sampling contexts of one kind of sub-track
(animated_track_cache.transform.h:1203-1221). -/
structure AnimState where
  samples : Nat → Option (Sample × Sample)
  left : Nat
  write : Nat
  read : Nat
  clip : Nat
  s0 : SegCtx
  s1 : SegCtx

/-! ### Loads -/

/-- A SIMD load of `n` bytes at `k`. -/
def loadBlock (m : List (BitVec 8)) (k n : Nat) : Option (Nat → BitVec 8) :=
  if k + n ≤ m.length then some (fun i => m.getD (k + i) 0) else none

/-- Lane of a 4 wide vector. -/
def Vec4.lane (v : Vec4) (i : Nat) : BitVec 32 :=
  match i with | 0 => v.x | 1 => v.y | 2 => v.z | _ => v.w

/-- math/vector4_packing.h `unpack_vector3_96_unsafe`. -/
def readFloat3 (data : List (BitVec 8)) (bit : Nat) : Option RawSample :=
  (readRaw data bit 0).bind fun x => (readRaw data bit 1).bind fun y => (readRaw data bit 2).bind fun z =>
  some (.float3 ⟨x, y, z⟩)

/-- math/vector4_packing.h `unpack_vector4_128_unsafe`. -/
def readFloat4 (data : List (BitVec 8)) (bit : Nat) : Option RawSample :=
  (readRaw data bit 0).bind fun x => (readRaw data bit 1).bind fun y => (readRaw data bit 2).bind fun z =>
  (readRaw data bit 3).bind fun w => some (.float4 ⟨x, y, z, w⟩)

/-- math/vector4_packing.h `unpack_vector3_uXX_unsafe`. -/
def readQuantized (n : Nat) (data : List (BitVec 8)) (bit : Nat) : Option RawSample :=
  (unpackVector3 n data bit).bind fun (x, y, z) => some (.quantized n x y z)

/-- A byte of the clip. -/
def byteAt (m : List (BitVec 8)) (k : Nat) : Option (BitVec 8) := m[k]?

/-- animated_track_cache.transform.h:559-562, 753-756: the constant sample of a rotation, spread over the SOA
range data of its group. -/
def readConstantRotation (m : List (BitVec 8)) (p : Nat) : Option RawSample :=
  (byteAt m (p + 0)).bind fun a => (byteAt m (p + 4)).bind fun b => (byteAt m (p + 8)).bind fun c =>
  (byteAt m (p + 12)).bind fun d => (byteAt m (p + 16)).bind fun e => (byteAt m (p + 20)).bind fun f =>
  some (.const16 (a ++ b) (c ++ d) (e ++ f))

/-- math/vector4_packing.h:628-653 `unpack_vector3_u48_unsafe`: a 16 byte load. -/
def readConstantVector3 (m : List (BitVec 8)) (p : Nat) : Option RawSample :=
  (loadBlock m p 16).bind fun v => some (.const16 (v 1 ++ v 0) (v 3 ++ v 2) (v 5 ++ v 4))

/-- Two math/vector4_packing.h:781-819 `unpack_vector3_u24_unsafe` (16 byte loads): the segment range of a
translation or scale. -/
def readRange24 (m : List (BitVec 8)) (pMin pExtent : Nat) : Option Range8 :=
  (loadBlock m pMin 16).bind fun a => (loadBlock m pExtent 16).bind fun b =>
  some ⟨a 0, a 1, a 2, b 0, b 1, b 2⟩

/-- Two `rtm::vector_load` (16 bytes): the clip range of a translation or scale. -/
def readClipRange (m : List (BitVec 8)) (pMin pExtent : Nat) : Option RangeF :=
  (loadVec4 m pMin).bind fun a => (loadVec4 m pExtent).bind fun b => some ⟨a.xyz, b.xyz⟩

/-! ### Rotations -/

/-- One lane out of `unpack_animated_quat`: the sample, and its bits of the two range masks. -/
structure Lane where
  raw : RawSample
  ignoreSegment : Bool
  ignoreClip : Bool

/-- animated_track_cache.transform.h:539-627: the loop of `unpack_animated_quat`; `n` lanes left, `i` the
current one. Returns the lanes and the final bit offset. -/
def unpackQuatLoop (cfg : AnimCfg) (fmt : RotationFormat) (m : List (BitVec 8)) (c : SegCtx) :
    Nat → Nat → Nat → Option (List Lane × Nat)
  | 0, _, bit => some ([], bit)
  | n + 1, i, bit =>
    let lane : Option (Lane × Nat) :=
      if fmt = .dropWVariable then
        (byteAt m (c.fmt + i)).bind fun b =>
        let numBits := b.toNat
        if numBits = 0 then
          (readConstantRotation m (c.seg + i)).bind fun r => some (⟨r, true, false⟩, bit)
        else if numBits = cfg.rawBits then
          (readFloat3 c.data bit).bind fun r => some (⟨r, true, true⟩, bit + 96)
        else
          (readQuantized numBits c.data bit).bind fun r => some (⟨r, false, false⟩, bit + numBits * 3)
      else if fmt = .quatfFull then
        (readFloat4 c.data bit).bind fun r => some (⟨r, false, false⟩, bit + 128)
      else
        (readFloat3 c.data bit).bind fun r => some (⟨r, false, false⟩, bit + 96)
    lane.bind fun (l, bit) =>
    (unpackQuatLoop cfg fmt m c n (i + 1) bit).bind fun (ls, bit) => some (l :: ls, bit)

/-- animated_track_cache.transform.h:515-687 `unpack_animated_quat`: the lanes and the updated context. -/
def unpackQuat (cfg : AnimCfg) (fmt : RotationFormat) (m : List (BitVec 8)) (num : Nat) (c : SegCtx) :
    Option (List Lane × SegCtx) :=
  (unpackQuatLoop cfg fmt m c num 0 c.bit).bind fun (lanes, bit) =>
  some (lanes, if fmt = .dropWVariable then { c with fmt := c.fmt + 4, seg := c.seg + 6 * 4, bit := bit }
    else { c with bit := bit })

/-- animated_track_cache.transform.h:157-299 `unpack_segment_range_data`: 32 bytes are loaded; lane `i`. -/
def unpackSegmentRange (m : List (BitVec 8)) (p : Nat) : Option (Nat → Range8) :=
  (loadBlock m p 16).bind fun lo => (loadBlock m (p + 16) 16).bind fun hi =>
  some fun i => ⟨lo i, lo (4 + i), lo (8 + i), lo (12 + i), hi i, hi (4 + i)⟩

/-- animated_track_cache.transform.h:391-470 `remap_clip_range_data4`: the six loads; lane `i`. -/
def loadClipRange4 (m : List (BitVec 8)) (p num : Nat) : Option (Nat → RangeF) :=
  let loadSize := num * 4
  (loadVec4 m (p + loadSize * 0)).bind fun a =>
  (loadVec4 m (p + loadSize * 1)).bind fun b =>
  (loadVec4 m (p + loadSize * 2)).bind fun c =>
  (loadVec4 m (p + loadSize * 3)).bind fun d =>
  (loadVec4 m (p + loadSize * 4)).bind fun e =>
  (loadVec4 m (p + loadSize * 5)).bind fun f =>
  some fun i => ⟨⟨a.lane i, b.lane i, c.lane i⟩, ⟨d.lane i, e.lane i, f.lane i⟩⟩

/-- animated_track_cache.transform.h:302-388, 391-470: apply the masks and ranges to lane `i`. -/
def remapLane (l : Lane) (segment : Option Range8) (clip : Option RangeF) : Sample :=
  ⟨l.raw, if l.ignoreSegment then none else segment, if l.ignoreClip then none else clip⟩

/-- `cache_ptr[i] = ...` for the lanes of a group; the cache has 8 slots and a group covers 4. Lanes past the
unpacked ones receive garbage, modelled as nothing. -/
def setGroup (samples : Nat → Option (Sample × Sample)) (slot : Nat) (l0 l1 : List Sample) :
    Option (Nat → Option (Sample × Sample)) :=
  if slot + 4 ≤ 8 then
    some fun i => if slot ≤ i ∧ i < slot + 4 then (List.zip l0 l1)[i - slot]? else samples i
  else none

/-- Samples of the lanes of a group, `i` is the index of the first one. -/
def remapLanes (segment : Option (Nat → Range8)) (clip : Option (Nat → RangeF)) : Nat → List Lane → List Sample
  | _, [] => []
  | i, l :: ls => remapLane l (segment.map (· i)) (clip.map (· i)) :: remapLanes segment clip (i + 1) ls

/-- animated_track_cache.transform.h:1317-1662 `unpack_rotation_group`. -/
def AnimState.unpackRotationGroup (cfg : AnimCfg) (fmt : RotationFormat) (m : List (BitVec 8)) (a : AnimState) :
    Option AnimState :=
  if a.left = 0 then some a
  else if a.write - a.read ≥ 4 then some a
  else
    let num := min a.left 4
    let slot := a.write % 8
    if fmt = .dropWVariable then
      -- lines 1343-1352
      (if cfg.hasSegments then
        (unpackSegmentRange m a.s0.seg).bind fun r0 =>
        (if cfg.singleSegment then some r0 else unpackSegmentRange m a.s1.seg).bind fun r1 =>
        some (some r0, some r1)
      else some (none, none)).bind fun ranges =>
      (unpackQuat cfg fmt m num a.s0).bind fun (lanes0, s0) =>
      (unpackQuat cfg fmt m num a.s1).bind fun (lanes1, s1) =>
      (loadClipRange4 m a.clip num).bind fun clip =>
      (setGroup a.samples slot (remapLanes ranges.1 (some clip) 0 lanes0)
        (remapLanes ranges.2 (some clip) 0 lanes1)).bind fun samples =>
      some ⟨samples, a.left - num, a.write + num, a.read, a.clip + num * 12 * 2, s0, s1⟩
    else
      (unpackQuat cfg fmt m num a.s0).bind fun (lanes0, s0) =>
      (unpackQuat cfg fmt m num a.s1).bind fun (lanes1, s1) =>
      (setGroup a.samples slot (remapLanes none none 0 lanes0) (remapLanes none none 0 lanes1)).bind fun samples =>
      some ⟨samples, a.left - num, a.write + num, a.read, a.clip, s0, s1⟩

/-- animated_track_cache.transform.h:712-741, 1019-1048: the fall-through switch over the lane index. -/
def skipBits (cfg : AnimCfg) (m : List (BitVec 8)) (fmt i : Nat) : Option Nat :=
  let size (b : BitVec 8) : Nat := if b.toNat = cfg.rawBits then 32 else b.toNat
  match i with
  | 0 => some 0
  | 1 => (byteAt m fmt).bind fun b0 => some (size b0)
  | 2 => (byteAt m (fmt + 1)).bind fun b1 => (byteAt m fmt).bind fun b0 => some (size b1 + size b0)
  | _ => (byteAt m (fmt + 2)).bind fun b2 => (byteAt m (fmt + 1)).bind fun b1 => (byteAt m fmt).bind fun b0 =>
      some (size b2 + size b1 + size b0)

/-- animated_track_cache.transform.h:813-846: the segment range of one rotation, byte loads. -/
def readSegmentRangeAt (m : List (BitVec 8)) (p : Nat) : Option Range8 :=
  (byteAt m (p + 0)).bind fun a => (byteAt m (p + 4)).bind fun b => (byteAt m (p + 8)).bind fun c =>
  (byteAt m (p + 12)).bind fun d => (byteAt m (p + 16)).bind fun e => (byteAt m (p + 20)).bind fun f =>
  some ⟨a, b, c, d, e, f⟩

/-- animated_track_cache.transform.h:850-866: the clip range of one rotation, float loads. -/
def readClipRangeAt (m : List (BitVec 8)) (p groupSize : Nat) : Option RangeF :=
  (loadLE32 m (p + groupSize * 0 * 4)).bind fun a =>
  (loadLE32 m (p + groupSize * 1 * 4)).bind fun b =>
  (loadLE32 m (p + groupSize * 2 * 4)).bind fun c =>
  (loadLE32 m (p + groupSize * 3 * 4)).bind fun d =>
  (loadLE32 m (p + groupSize * 4 * 4)).bind fun e =>
  (loadLE32 m (p + groupSize * 5 * 4)).bind fun f =>
  some ⟨⟨a, b, c⟩, ⟨d, e, f⟩⟩

/-- animated_track_cache.transform.h:689-869 `unpack_single_animated_quat`. -/
def unpackSingleQuat (cfg : AnimCfg) (fmt : RotationFormat) (m : List (BitVec 8)) (i groupSize clip : Nat)
    (c : SegCtx) : Option Sample :=
  if fmt = .dropWVariable then
    (skipBits cfg m c.fmt i).bind fun skip =>
    let bit := c.bit + skip * 3
    (byteAt m (c.fmt + i)).bind fun b =>
    let numBits := b.toNat
    let lane : Option Lane :=
      if numBits = 0 then (readConstantRotation m (c.seg + i)).bind fun r => some ⟨r, true, false⟩
      else if numBits = cfg.rawBits then (readFloat3 c.data bit).bind fun r => some ⟨r, true, true⟩
      else (readQuantized numBits c.data bit).bind fun r => some ⟨r, false, false⟩
    lane.bind fun l =>
    (if cfg.hasSegments && !l.ignoreSegment then (readSegmentRangeAt m (c.seg + i)).bind fun r => some (some r)
      else some none).bind fun segment =>
    (if !l.ignoreClip then (readClipRangeAt m (clip + i * 4) groupSize).bind fun r => some (some r)
      else some none).bind fun clip =>
    some ⟨l.raw, segment, clip⟩
  else if fmt = .quatfFull then
    (readFloat4 c.data (c.bit + i * 128)).bind fun r => some ⟨r, none, none⟩
  else
    (readFloat3 c.data (c.bit + i * 96)).bind fun r => some ⟨r, none, none⟩

/-- animated_track_cache.transform.h:1104-1191 `count_animated_group_bit_size`, for one key frame; each group
is a 16 byte load of which 4 bytes are used. `g` is the current group. -/
def countGroupBits (cfg : AnimCfg) (m : List (BitVec 8)) (fmt : Nat) : Nat → Nat → Nat → Option Nat
  | 0, _, sum => some sum
  | n + 1, g, sum =>
    (loadBlock m (fmt + g * 4) 16).bind fun v =>
    let size (b : BitVec 8) : Nat := if b.toNat = cfg.rawBits then 32 else b.toNat
    countGroupBits cfg m fmt n (g + 1) (sum + (size (v 0) + size (v 1) + size (v 2) + size (v 3)))

/-- animated_track_cache.transform.h:1676-1694, 1850-1867 and 1972-1989: the update of one context of a
variable format when `groups` are skipped. -/
def SegCtx.skip (cfg : AnimCfg) (m : List (BitVec 8)) (groups : Nat) (c : SegCtx) : Option SegCtx :=
  (countGroupBits cfg m c.fmt groups 0 0).bind fun bits =>
  some { c with fmt := c.fmt + groups * 4, seg := c.seg + groups * 6 * 4, bit := c.bit + bits * 3 }

/-- animated_track_cache.transform.h:1665-1707 `skip_rotation_groups`. -/
def AnimState.skipRotationGroups (cfg : AnimCfg) (fmt : RotationFormat) (m : List (BitVec 8)) (a : AnimState)
    (groups : Nat) : Option AnimState :=
  let num := groups * 4
  if num < a.left then
    if fmt = .dropWVariable then
      (a.s0.skip cfg m groups).bind fun s0 => (a.s1.skip cfg m groups).bind fun s1 =>
      some { a with left := a.left - num, s0 := s0, s1 := s1, clip := a.clip + 12 * 2 * 4 * groups }
    else
      let size := if fmt = .quatfFull then 32 * 4 * 4 * groups else 32 * 3 * 4 * groups
      some { a with left := a.left - num, s0 := { a.s0 with bit := a.s0.bit + size }, s1 := { a.s1 with bit := a.s1.bit + size } }
  else none

/-- animated_track_cache.transform.h:1710-1765 `unpack_rotation_within_group`: the samples of both key frames. -/
def AnimState.rotationWithinGroup (cfg : AnimCfg) (fmt : RotationFormat) (m : List (BitVec 8)) (a : AnimState)
    (i : Nat) : Option (Sample × Sample) :=
  if i < a.left ∧ i < 4 then
    let groupSize := min a.left 4
    (unpackSingleQuat cfg fmt m i groupSize a.clip a.s0).bind fun x =>
    (unpackSingleQuat cfg fmt m i groupSize a.clip a.s1).bind fun y => some (x, y)
  else none

/-- animated_track_cache.transform.h:1767-1772, 1889-1894, 2011-2016 `consume_rotation`, `consume_translation`,
`consume_scale`; the assert and reading a slot that was not written are `none`. -/
def AnimState.consume (a : AnimState) : Option ((Sample × Sample) × AnimState) :=
  if a.read < a.write then
    (a.samples (a.read % 8)).bind fun s => some (s, { a with read := a.read + 1 })
  else none

/-! ### Translations and scales -/

/-- animated_track_cache.transform.h:872-990 `unpack_animated_vector3`: the loop; `n` lanes left, `i` the
current one. Returns the samples and the updated context. -/
def unpackVector3Loop (cfg : AnimCfg) (fmt : VectorFormat) (m : List (BitVec 8)) (clip : Nat) :
    Nat → Nat → SegCtx → Option (List Sample × SegCtx)
  | 0, _, c => some ([], c)
  | n + 1, i, c =>
    let step : Option (Sample × SegCtx) :=
      if fmt = .varBits then
        (byteAt m c.fmt).bind fun b =>
        let numBits := b.toNat
        let c := { c with fmt := c.fmt + 1 }
        -- lines 903-920: the sample, the ignore flags and the context
        let lane : Option (Lane × SegCtx) :=
          if numBits = 0 then
            (readConstantVector3 m c.seg).bind fun r => some (⟨r, true, false⟩, { c with seg := c.seg + 6 })
          else if numBits = cfg.rawBits then
            (readFloat3 c.data c.bit).bind fun r => some (⟨r, true, true⟩, { c with bit := c.bit + 96, seg := c.seg + 6 })
          else
            (readQuantized numBits c.data c.bit).bind fun r => some (⟨r, false, false⟩, { c with bit := c.bit + numBits * 3 })
        lane.bind fun (l, c) =>
        -- lines 933-946
        (if cfg.hasSegments && !l.ignoreSegment then
            (readRange24 m c.seg (c.seg + 3)).bind fun r => some (some r, { c with seg := c.seg + 3 + 3 })
          else some (none, c)).bind fun (segment, c) =>
        -- lines 948-962
        (if !l.ignoreClip then
            (readClipRange m (clip + 12 * 2 * i) (clip + 12 * 2 * i + 12)).bind fun r => some (some r)
          else some none).bind fun clipRange =>
        some (⟨l.raw, segment, clipRange⟩, c)
      else
        (readFloat3 c.data c.bit).bind fun r => some (⟨r, none, none⟩, { c with bit := c.bit + 96 })
    step.bind fun (s, c) =>
    (unpackVector3Loop cfg fmt m clip n (i + 1) c).bind fun (ss, c) => some (s :: ss, c)

/-- animated_track_cache.transform.h:1775-1836 `unpack_translation_group`, 1897-1958 `unpack_scale_group`
(same code). -/
def AnimState.unpackVectorGroup (cfg : AnimCfg) (fmt : VectorFormat) (m : List (BitVec 8)) (a : AnimState) :
    Option AnimState :=
  if a.left = 0 then some a
  else if a.write - a.read ≥ 4 then some a
  else
    let num := min a.left 4
    let slot := a.write % 8
    (unpackVector3Loop cfg fmt m a.clip num 0 a.s0).bind fun (l0, s0) =>
    (unpackVector3Loop cfg fmt m a.clip num 0 a.s1).bind fun (l1, s1) =>
    (setGroup a.samples slot l0 l1).bind fun samples =>
    some ⟨samples, a.left - num, a.write + num, a.read, if fmt = .varBits then a.clip + num * 12 * 2 else a.clip, s0, s1⟩

/-- animated_track_cache.transform.h:993-1102 `unpack_single_animated_vector3`. -/
def unpackSingleVector3 (cfg : AnimCfg) (fmt : VectorFormat) (m : List (BitVec 8)) (i clip : Nat) (c : SegCtx) :
    Option Sample :=
  if fmt = .varBits then
    (skipBits cfg m c.fmt i).bind fun skip =>
    let bit := c.bit + skip * 3
    let seg := c.seg + 6 * i
    let clip := clip + 12 * 2 * i
    (byteAt m (c.fmt + i)).bind fun b =>
    let numBits := b.toNat
    let lane : Option Lane :=
      if numBits = 0 then (readConstantVector3 m seg).bind fun r => some ⟨r, true, false⟩
      else if numBits = cfg.rawBits then (readFloat3 c.data bit).bind fun r => some ⟨r, true, true⟩
      else (readQuantized numBits c.data bit).bind fun r => some ⟨r, false, false⟩
    lane.bind fun l =>
    (if cfg.hasSegments && !l.ignoreSegment then (readRange24 m seg (seg + 3)).bind fun r => some (some r)
      else some none).bind fun segment =>
    (if !l.ignoreClip then (readClipRange m clip (clip + 12)).bind fun r => some (some r)
      else some none).bind fun clip =>
    some ⟨l.raw, segment, clip⟩
  else
    (readFloat3 c.data (c.bit + i * 96)).bind fun r => some ⟨r, none, none⟩

/-- animated_track_cache.transform.h:1839-1876 `skip_translation_groups`, 1961-1998 `skip_scale_groups`. -/
def AnimState.skipVectorGroups (cfg : AnimCfg) (fmt : VectorFormat) (m : List (BitVec 8)) (a : AnimState)
    (groups : Nat) : Option AnimState :=
  let num := groups * 4
  if num < a.left then
    if fmt = .varBits then
      (a.s0.skip cfg m groups).bind fun s0 => (a.s1.skip cfg m groups).bind fun s1 =>
      some { a with left := a.left - num, s0 := s0, s1 := s1, clip := a.clip + 12 * 2 * 4 * groups }
    else
      let size := 32 * 3 * 4 * groups
      some { a with left := a.left - num, s0 := { a.s0 with bit := a.s0.bit + size }, s1 := { a.s1 with bit := a.s1.bit + size } }
  else none

/-- animated_track_cache.transform.h:1879-1887 `unpack_translation_within_group`, 2001-2009
`unpack_scale_within_group`: the samples of both key frames. -/
def AnimState.vectorWithinGroup (cfg : AnimCfg) (fmt : VectorFormat) (m : List (BitVec 8)) (a : AnimState)
    (i : Nat) : Option (Sample × Sample) :=
  if i < a.left ∧ i < 4 then
    (unpackSingleVector3 cfg fmt m i a.clip a.s0).bind fun x =>
    (unpackSingleVector3 cfg fmt m i a.clip a.s1).bind fun y => some (x, y)
  else none

end Acl.Transform
