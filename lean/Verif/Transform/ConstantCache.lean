import Verif.Transform.Values
import Verif.Transform.SubTracks
/-
Model of the constant sub-track data: writer and the two readers.
/repo/includes/acl/compression/impl/write_stream_data.h
/repo/includes/acl/decompression/impl/constant_track_cache.transform.h
/repo/includes/acl/decompression/impl/track_cache.h
Counters are natural numbers (the code uses uint32_t; a clip has fewer than 2^32 sub-tracks). Memory is the
byte buffer of the clip; pointers are offsets in it; loads outside of it are `none`.
-/
namespace Acl.Transform

/-! ### Writer -/

/-- The part of transform_streams the constant writer looks at, for the output bones in output order. The
samples are the first (only) sample of the stream after quantization (quantize.transform.h:324-357, 437-470:
16 bytes for a full rotation, 12 bytes otherwise). -/
structure ConstBone where
  rotation : StreamFlags
  translation : StreamFlags
  scale : StreamFlags
  rotationSample : Vec4
  translationSample : Vec3
  scaleSample : Vec3

/-- write_stream_data.h:233,282,303: the sub-track is constant and not default. -/
def isStoredConstant (f : StreamFlags) : Bool := !f.isDefault && f.isConstant

/-- write_stream_data.h:217-222: the swizzle buffers (the first `num_swizzle_written` items) and what was
written so far. -/
structure SwizzleState where
  out : List (BitVec 8)
  xs : List (BitVec 32)
  ys : List (BitVec 32)
  zs : List (BitVec 32)

/-- `std::memcpy` of floats. -/
def floatBytes (fs : List (BitVec 32)) : List (BitVec 8) := fs.flatMap bytesLE

/-- write_stream_data.h:243-252, 267-275: copy xxxx, yyyy, zzzz out and reset. -/
def SwizzleState.flush (st : SwizzleState) : SwizzleState :=
  ⟨st.out ++ floatBytes st.xs ++ floatBytes st.ys ++ floatBytes st.zs, [], [], []⟩

/-- write_stream_data.h:233-253: one constant rotation, swizzled. -/
def SwizzleState.push (st : SwizzleState) (v : Vec4) : SwizzleState :=
  let st := ⟨st.out, st.xs ++ [v.x], st.ys ++ [v.y], st.zs ++ [v.z]⟩
  if st.xs.length ≥ 4 then st.flush else st

/-- write_stream_data.h:225-276: the rotations. `dropW` is `swizzle_rotations` (line 217). -/
def writeConstantRotations (dropW : Bool) (bones : List ConstBone) : List (BitVec 8) :=
  if dropW then
    let st := bones.foldl (fun st b => if isStoredConstant b.rotation then st.push b.rotationSample else st)
      (⟨[], [], [], []⟩ : SwizzleState)
    (if st.xs.length ≠ 0 then st.flush else st).out
  else
    bones.foldl (fun out b => if isStoredConstant b.rotation then
      out ++ floatBytes [b.rotationSample.x, b.rotationSample.y, b.rotationSample.z, b.rotationSample.w] else out) []

/-- write_stream_data.h:278-291: the translations. -/
def writeConstantTranslations (bones : List ConstBone) : List (BitVec 8) :=
  bones.foldl (fun out b => if isStoredConstant b.translation then
    out ++ floatBytes [b.translationSample.x, b.translationSample.y, b.translationSample.z] else out) []

/-- write_stream_data.h:296-311: the scales. -/
def writeConstantScales (bones : List ConstBone) : List (BitVec 8) :=
  bones.foldl (fun out b => if isStoredConstant b.scale then
    out ++ floatBytes [b.scaleSample.x, b.scaleSample.y, b.scaleSample.z] else out) []

/-- write_stream_data.h:199-317 `write_constant_track_data`. -/
def writeConstantTrackData (fmt : RotationFormat) (hasScale : Bool) (bones : List ConstBone) : List (BitVec 8) :=
  writeConstantRotations (rotationVariant fmt = .dropW) bones ++ writeConstantTranslations bones ++
    (if hasScale then writeConstantScales bones else [])

/-! ### Reader -/

/-- track_cache.h `track_cache_quatf_v0<32, 1>` and constant_track_cache.transform.h:86-91. The cached samples
start uninitialized (`none`). -/
structure ConstCache where
  samples : Nat → Option Quat
  left : Nat
  write : Nat
  read : Nat
  rotations : Nat
  translations : Nat
  scales : Nat

/-- constant_track_cache.transform.h:93-107 `initialize`; `dataStart` is `get_constant_track_data()`,
`rotationSize` is the packed rotation size. -/
def ConstCache.init (rotationSize dataStart numRotations numTranslations : Nat) : ConstCache :=
  let rotations := dataStart
  let translations := rotations + rotationSize * numRotations
  let scales := translations + 12 * numTranslations
  ⟨fun _ => none, numRotations, 0, 0, rotations, translations, scales⟩

/-- constant_track_cache.transform.h:93-107 `initialize`: the packed rotation size comes from the format of
the highest precision. -/
def ConstCache.initialize (fmt : RotationFormat) (dataStart numRotations numTranslations : Nat) : ConstCache :=
  let packedFormat := if fmt.isVariable then highestVariantPrecision (rotationVariant fmt) else fmt
  .init (packedRotationSize packedFormat) dataStart numRotations numTranslations

/-- `cached_samples[0][slot] = v`; the cache has 32 slots. -/
def setSlot (samples : Nat → Option Quat) (slot : Nat) (v : Quat) : Option (Nat → Option Quat) :=
  if slot < 32 then some (fun i => if i = slot then some v else samples i) else none

/-- constant_track_cache.transform.h:137-150: the full precision loop (`unpack_quat_128` is a 16 byte load). -/
def unpackConstFull (m : List (BitVec 8)) : Nat → Nat → Nat → (Nat → Option Quat) → Option ((Nat → Option Quat) × Nat)
  | 0, ptr, _, samples => some (samples, ptr)
  | n + 1, ptr, slot, samples =>
    (loadVec4 m ptr).bind fun v =>
    (setSlot samples slot (.full v)).bind fun samples =>
    unpackConstFull m n (ptr + 16) (slot + 1) samples

/-- constant_track_cache.transform.h:153-192: the SOA loop. `fuel` bounds the iterations: each one unpacks at
least one sample. The quaternions are transposed back to AOS. -/
def unpackConstSoa (m : List (BitVec 8)) : Nat → Nat → Nat → Nat → (Nat → Option Quat) →
    Option ((Nat → Option Quat) × Nat)
  | 0, _, ptr, _, samples => some (samples, ptr)
  | fuel + 1, num, ptr, slot, samples =>
    if num = 0 then some (samples, ptr) else
    let count := min num 4
    let num := num - count
    let loadSize := count * 4
    (loadVec4 m (ptr + loadSize * 0)).bind fun xs =>
    (loadVec4 m (ptr + loadSize * 1)).bind fun ys =>
    (loadVec4 m (ptr + loadSize * 2)).bind fun zs =>
    let ptr := ptr + loadSize * 3
    (setSlot samples (slot + 0) (.dropW ⟨xs.x, ys.x, zs.x⟩)).bind fun samples =>
    (setSlot samples (slot + 1) (.dropW ⟨xs.y, ys.y, zs.y⟩)).bind fun samples =>
    (setSlot samples (slot + 2) (.dropW ⟨xs.z, ys.z, zs.z⟩)).bind fun samples =>
    (setSlot samples (slot + 3) (.dropW ⟨xs.w, ys.w, zs.w⟩)).bind fun samples =>
    unpackConstSoa m fuel num ptr (slot + 4) samples

/-- constant_track_cache.transform.h:110-208 `unpack_rotation_group`. -/
def ConstCache.unpackGroup (m : List (BitVec 8)) (full : Bool) (c : ConstCache) : Option ConstCache :=
  if c.left = 0 then some c
  else if c.write - c.read ≥ 16 then some c
  else
    let num := min c.left 16
    let slot := c.write % 32
    let r := if full then unpackConstFull m num c.rotations slot c.samples
      else unpackConstSoa m num num c.rotations slot c.samples
    r.bind fun (samples, ptr) =>
    some { c with left := c.left - num, write := c.write + num, samples := samples, rotations := ptr }

/-- constant_track_cache.transform.h:270-275 `consume_rotation`; the assert and reading an uninitialized slot
are `none`. -/
def ConstCache.consumeRotation (c : ConstCache) : Option (Quat × ConstCache) :=
  if c.read < c.write then
    (c.samples (c.read % 32)).bind fun q => some (q, { c with read := c.read + 1 })
  else none

/-- constant_track_cache.transform.h:211-233 `skip_rotation_groups`; the assert is `none`. -/
def ConstCache.skipRotationGroups (full : Bool) (c : ConstCache) (groups : Nat) : Option ConstCache :=
  let num := groups * 4
  if num < c.left then
    some { c with left := c.left - num, rotations := c.rotations + num * (if full then 16 else 12) }
  else none

/-- constant_track_cache.transform.h:236-268 `unpack_rotation_within_group`; the assert is `none`. -/
def ConstCache.rotationWithinGroup (m : List (BitVec 8)) (full : Bool) (c : ConstCache) (i : Nat) : Option Quat :=
  if i < c.left ∧ i < 4 then
    if full then (loadVec4 m (c.rotations + i * 16)).bind fun v => some (.full v)
    else
      let groupSize := min c.left 4
      let p := c.rotations + i * 4
      (loadLE32 m (p + groupSize * 0 * 4)).bind fun x =>
      (loadLE32 m (p + groupSize * 1 * 4)).bind fun y =>
      (loadLE32 m (p + groupSize * 2 * 4)).bind fun z => some (.dropW ⟨x, y, z⟩)
  else none

/-- constant_track_cache.transform.h:302-307 `consume_translation`: the offset of the sample. -/
def ConstCache.consumeTranslation (c : ConstCache) : Nat × ConstCache :=
  (c.translations, { c with translations := c.translations + 12 })

/-- constant_track_cache.transform.h:278-290 `skip_translation_groups`. -/
def ConstCache.skipTranslationGroups (c : ConstCache) (groups : Nat) : ConstCache :=
  { c with translations := c.translations + groups * 4 * 12 }

/-- constant_track_cache.transform.h:292-300 `unpack_translation_within_group`. -/
def ConstCache.translationWithinGroup (m : List (BitVec 8)) (c : ConstCache) (i : Nat) : Option Vec3 :=
  if i < 4 then (loadVec4 m (c.translations + i * 12)).bind fun v => some v.xyz else none

/-- constant_track_cache.transform.h:329-333 `consume_scale`: the offset of the sample. -/
def ConstCache.consumeScale (c : ConstCache) : Nat × ConstCache :=
  (c.scales, { c with scales := c.scales + 12 })

/-- constant_track_cache.transform.h:309-320 `skip_scale_groups`. -/
def ConstCache.skipScaleGroups (c : ConstCache) (groups : Nat) : ConstCache :=
  { c with scales := c.scales + groups * 4 * 12 }

/-- constant_track_cache.transform.h:322-330 `unpack_scale_within_group`. -/
def ConstCache.scaleWithinGroup (m : List (BitVec 8)) (c : ConstCache) (i : Nat) : Option Vec3 :=
  if i < 4 then (loadVec4 m (c.scales + i * 12)).bind fun v => some v.xyz else none

end Acl.Transform
