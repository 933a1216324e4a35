import Verif.Core.Bits
/-
Model of the part of seek_v0 that picks key frames, segments and where their data lives.
/repo/includes/acl/decompression/impl/decompression.transform.h:231-560

Inputs are the key frames and interpolation factor computed by
`find_linear_interpolation_samples_with_sample_rate` (modelled in Verif/Float). The interpolation factor has
an abstract type `α`; `remapAlpha alpha k0 c0 c1` stands for lines 280, 318 (and 421, 472):
find_linear_interpolation_alpha(alpha + float(k0), c0, c1, none, looping_policy).

`none` is undefined behaviour: division by zero, a shift by 32 or more, or an out of bounds read of the
segment start indices or segment headers. Unsigned subtraction `31 - x` with x > 31 gives a value above 31
and therefore an undefined shift.
-/
namespace Acl.Seek

/-- `0xFFFFFFFFU << n` / `>> n`: undefined for n ≥ 32. -/
def shlOnes (n : Nat) : Option (BitVec 32) := if n < 32 then some (0xFFFFFFFF#32 <<< n) else none
def shrOnes (n : Nat) : Option (BitVec 32) := if n < 32 then some (0xFFFFFFFF#32 >>> n) else none

/-- `31 - n` on uint32_t. -/
def sub31 (n : Nat) : Nat := (31 + 2^32 - n) % 2^32

/-- decompression.transform.h:308-309 (458-459): the closest loaded sample at or before `kf`. Sample `k` is
bit `31 - k`. -/
def nearestBefore (sampleIndices : BitVec 32) (kf : Nat) : Option Nat := do
  let mask ← shlOnes (sub31 kf)
  pure (sub31 (countTrailingZeros (sampleIndices &&& mask)).toNat)

/-- decompression.transform.h:312-313 (462-463): the closest loaded sample at or after `kf`. -/
def nearestAfter (sampleIndices : BitVec 32) (kf : Nat) : Option Nat := do
  let mask ← shrOnes kf
  pure (countLeadingZeros (sampleIndices &&& mask)).toNat

/-- decompression.transform.h:356-357 (509-510): position among the samples stored together. -/
def storedPosition (kf : Nat) (sampleIndices : BitVec 32) : Option Nat := do
  let mask ← shrOnes kf
  pure (countSetBits32 (andNot mask sampleIndices)).toNat

/-- Where the animated data of a key frame is read: the clip, or a database tier at an offset in its bulk
data (null `db_animated_track_data` means the clip, lines 547-556). -/
inductive Location where
  | clip
  | medium (offset : Nat)
  | low (offset : Nat)
  deriving DecidableEq, Repr

/-- Contents of a runtime segment header of the database (compressed_headers.h `tier_metadata`): high 32
bits offset in the tier's bulk data, low 32 bits the samples it holds; zero when not streamed in. -/
structure TierMetadata where
  medium : BitVec 64
  low : BitVec 64
  deriving DecidableEq, Repr

def lo32 (m : BitVec 64) : BitVec 32 := m.setWidth 32
def hi32 (m : BitVec 64) : Nat := (m >>> 32).toNat

/-- decompression.transform.h:289-304: all samples of the segment in memory. -/
def combinedIndices (clipIndices : BitVec 32) : Option TierMetadata → BitVec 32
  | none => clipIndices
  | some m => clipIndices ||| lo32 m.medium ||| lo32 m.low

/-- decompression.transform.h:320-353 (474-506): the samples stored together with `kf`, and where.
`kf > 31` makes the 64 bit shift by `31 - kf` undefined. -/
def locate (clipIndices : BitVec 32) (kf : Nat) : Option TierMetadata → Option (BitVec 32 × Location)
  | none => some (clipIndices, .clip)
  | some m =>
    if sub31 kf < 64 then
      let bit := 1#64 <<< (sub31 kf)
      if m.medium &&& bit ≠ 0 then some (lo32 m.medium, .medium (hi32 m.medium))
      else if m.low &&& bit ≠ 0 then some (lo32 m.low, .low (hi32 m.low))
      else some (clipIndices, .clip)
    else none

/-- One of the two key frames the decoder will read. -/
structure KeyFrame where
  segment : Nat
  /-- clip relative index of the key frame used -/
  clipIndex : Nat
  location : Location
  /-- which of the poses stored at `location` for this segment -/
  position : Nat
  deriving DecidableEq, Repr

/-- compressed_headers.h `stripped_segment_header_t::sample_indices` and the database metadata of every
segment (`db`: none when no database context is bound). -/
structure Clip where
  numSamples : Nat
  numSegments : Nat
  /-- transform_tracks_header segment start indices with the sentinel, when there are several segments -/
  startIndices : List Nat
  hasStrippedKeyframes : Bool
  sampleIndices : List (BitVec 32)
  db : Option (List TierMetadata)

/-- database metadata of a segment: lines 289-304, 432-455 -/
def segmentMetadata (db : Option (List TierMetadata)) (segment : Nat) : Option (Option TierMetadata) :=
  match db with
  | none => some none
  | some ms => match ms[segment]? with
    | none => none
    | some m => some (some m)

/-- decompression.transform.h:379-406: the search loop. `fuel` is the number of remaining iterations. -/
def searchLoop (wrapping : Bool) (starts : List Nat) (kf0 kf1 : Nat) : Nat → Nat → Option (Nat × Nat)
  | 0, _ => some (0, 0)
  | fuel + 1, segment => do
    let start ← starts[segment]?
    if kf0 < start then
      -- segment_index > 0 is asserted; 0 - 1 wraps and is then out of bounds
      if segment = 0 then none
      else
        let segment0 := segment - 1
        let segment1 := if wrapping && kf1 = 0 then 0 else if kf1 < start then segment0 else segment
        pure (segment0, segment1)
    else searchLoop wrapping starts kf0 kf1 fuel (segment + 1)

/-- decompression.transform.h:374-406: the segments of both key frames. -/
def findSegments (wrapping : Bool) (c : Clip) (kf0 kf1 : Nat) : Option (Nat × Nat) :=
  if c.numSegments = 0 then none
  else
    let approxNumSamples := c.numSamples / c.numSegments
    if approxNumSamples = 0 then none
    else
      let approxSegment := kf0 / approxNumSamples
      let start := if approxSegment > 0 then approxSegment - 1 else 0
      searchLoop wrapping c.startIndices kf0 kf1 4 start

/-- decompression.transform.h:267-371 single segment. -/
def seekSingle {α : Type} (remapAlpha : α → Nat → Nat → Nat → α) (c : Clip) (kf0 kf1 : Nat) (alpha : α) :
    Option (KeyFrame × KeyFrame × α) :=
  if c.hasStrippedKeyframes then do
    let clipIndices ← c.sampleIndices[0]?
    let md ← segmentMetadata c.db 0
    let indices := combinedIndices clipIndices md
    let k0 ← nearestBefore indices kf0
    let k1 ← nearestAfter indices kf1
    let (s0, l0) ← locate clipIndices k0 md
    let (s1, l1) ← locate clipIndices k1 md
    let p0 ← storedPosition k0 s0
    let p1 ← storedPosition k1 s1
    pure (⟨0, k0, l0, p0⟩, ⟨0, k1, l1, p1⟩, remapAlpha alpha kf0 k0 k1)
  else
    some (⟨0, kf0, .clip, kf0⟩, ⟨0, kf1, .clip, kf1⟩, alpha)

/-- decompression.transform.h:372-521 several segments. -/
def seekMulti {α : Type} (remapAlpha : α → Nat → Nat → Nat → α) (wrapping : Bool) (c : Clip) (kf0 kf1 : Nat)
    (alpha : α) : Option (KeyFrame × KeyFrame × α) := do
  let (g0, g1) ← findSegments wrapping c kf0 kf1
  let start0 ← c.startIndices[g0]?
  let start1 ← c.startIndices[g1]?
  let r0 := (kf0 + 2^32 - start0) % 2^32
  let r1 := (kf1 + 2^32 - start1) % 2^32
  if c.hasStrippedKeyframes then
    let clipIndices0 ← c.sampleIndices[g0]?
    let clipIndices1 ← c.sampleIndices[g1]?
    let md0 ← segmentMetadata c.db g0
    let md1 ← segmentMetadata c.db g1
    let k0 ← nearestBefore (combinedIndices clipIndices0 md0) r0
    let k1 ← nearestAfter (combinedIndices clipIndices1 md1) r1
    let (s0, l0) ← locate clipIndices0 k0 md0
    let (s1, l1) ← locate clipIndices1 k1 md1
    let p0 ← storedPosition k0 s0
    let p1 ← storedPosition k1 s1
    pure (⟨g0, start0 + k0, l0, p0⟩, ⟨g1, start1 + k1, l1, p1⟩, remapAlpha alpha kf0 (start0 + k0) (start1 + k1))
  else
    pure (⟨g0, start0 + r0, .clip, r0⟩, ⟨g1, start1 + r1, .clip, r1⟩, alpha)

/-- decompression.transform.h:267-521: from the key frames to interpolate to the key frames read. -/
def seekKeyFrames {α : Type} (remapAlpha : α → Nat → Nat → Nat → α) (wrapping : Bool) (c : Clip)
    (kf0 kf1 : Nat) (alpha : α) : Option (KeyFrame × KeyFrame × α) :=
  if c.numSegments = 1 then seekSingle remapAlpha c kf0 kf1 alpha
  else seekMulti remapAlpha wrapping c kf0 kf1 alpha

/-- decompression.transform.h:372-521 with several segments, when the metadata can change between two loads: the metadata of the
second key frame is loaded on its own (lines 449-454), also when both key frames are in the same segment. `db1` is the metadata
as the second loads see it; without writes in between it is that of the clip (`seekLoads_same`). A clip with a single segment loads
its metadata once. -/
def seekLoads {α : Type} (remapAlpha : α → Nat → Nat → Nat → α) (wrapping : Bool) (c : Clip) (db1 : Option (List TierMetadata))
    (kf0 kf1 : Nat) (alpha : α) : Option (KeyFrame × KeyFrame × α) :=
  if c.numSegments = 1 then seekSingle remapAlpha c kf0 kf1 alpha
  else do
    let (g0, g1) ← findSegments wrapping c kf0 kf1
    let start0 ← c.startIndices[g0]?
    let start1 ← c.startIndices[g1]?
    let r0 := (kf0 + 2^32 - start0) % 2^32
    let r1 := (kf1 + 2^32 - start1) % 2^32
    if c.hasStrippedKeyframes then
      let clipIndices0 ← c.sampleIndices[g0]?
      let clipIndices1 ← c.sampleIndices[g1]?
      let md0 ← segmentMetadata c.db g0
      let md1 ← segmentMetadata db1 g1
      let k0 ← nearestBefore (combinedIndices clipIndices0 md0) r0
      let k1 ← nearestAfter (combinedIndices clipIndices1 md1) r1
      let (s0, l0) ← locate clipIndices0 k0 md0
      let (s1, l1) ← locate clipIndices1 k1 md1
      let p0 ← storedPosition k0 s0
      let p1 ← storedPosition k1 s1
      pure (⟨g0, start0 + k0, l0, p0⟩, ⟨g1, start1 + k1, l1, p1⟩, remapAlpha alpha kf0 (start0 + k0) (start1 + k1))
    else
      pure (⟨g0, start0 + r0, .clip, r0⟩, ⟨g1, start1 + r1, .clip, r1⟩, alpha)

theorem seekLoads_same {α : Type} (remapAlpha : α → Nat → Nat → Nat → α) (wrapping : Bool) (c : Clip) (kf0 kf1 : Nat) (alpha : α) :
    seekLoads remapAlpha wrapping c c.db kf0 kf1 alpha = seekKeyFrames remapAlpha wrapping c kf0 kf1 alpha := rfl

theorem seekLoads_single {α : Type} (remapAlpha : α → Nat → Nat → Nat → α) (wrapping : Bool) (c : Clip) (db1 : Option (List TierMetadata)) (kf0 kf1 : Nat) (alpha : α)
    (h : c.numSegments = 1) : seekLoads remapAlpha wrapping c db1 kf0 kf1 alpha = seekKeyFrames remapAlpha wrapping c kf0 kf1 alpha := by
  unfold seekLoads seekKeyFrames
  rw [if_pos h, if_pos h]

/-- The first key frame comes from the first loads, the second one from the second loads. -/
theorem seekLoads_multi {α : Type} (remapAlpha : α → Nat → Nat → Nat → α) (wrapping : Bool) (c : Clip) (db1 : Option (List TierMetadata)) (kf0 kf1 : Nat) (alpha : α)
    (h : c.numSegments ≠ 1) (hs : c.hasStrippedKeyframes = true) {a0 a1 b0 b1 : KeyFrame} {x y : α}
    (h0 : seekKeyFrames remapAlpha wrapping c kf0 kf1 alpha = some (a0, a1, x))
    (h1 : seekKeyFrames remapAlpha wrapping { c with db := db1 } kf0 kf1 alpha = some (b0, b1, y)) :
    seekLoads remapAlpha wrapping c db1 kf0 kf1 alpha = some (a0, b1, remapAlpha alpha kf0 a0.clipIndex b1.clipIndex) := by
  unfold seekKeyFrames at h0 h1
  unfold seekLoads
  rw [if_neg h] at h0 ⊢
  rw [if_neg (show ¬ ({ c with db := db1 } : Clip).numSegments = 1 from h)] at h1
  unfold seekMulti at h0 h1
  have hf : findSegments wrapping { c with db := db1 } kf0 kf1 = findSegments wrapping c kf0 kf1 := rfl
  rw [hf] at h1
  simp only [hs, if_true, Option.bind_eq_bind, Option.bind_eq_some_iff, Option.pure_def, Option.some.injEq, Prod.mk.injEq] at h0 h1 ⊢
  obtain ⟨g, e1, s0, e2, s1, e3, i0, e4, i1, e5, m0, e6, m1, e7, k0, e8, k1, e9, l0, e10, l1, e11, p0, e12, p1, e13, e14, e15, -⟩ := h0
  obtain ⟨g', f1, s0', f2, s1', f3, i0', f4, i1', f5, m0', f6, m1', f7, k0', f8, k1', f9, l0', f10, l1', f11, p0', f12, p1', f13, f14, f15, -⟩ := h1
  rw [e1, Option.some.injEq] at f1
  subst f1
  rw [e2, Option.some.injEq] at f2
  subst f2
  rw [e3, Option.some.injEq] at f3
  subst f3
  rw [e5, Option.some.injEq] at f5
  subst f5
  exact ⟨g, e1, s0, e2, s1, e3, i0, e4, i1, e5, m0, e6, m1', f7, k0, e8, k1', f9, l0, e10, l1', f11, p0, e12, p1', f13, e14, f15, by rw [← e14, ← f15]⟩

end Acl.Seek
