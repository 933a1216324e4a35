import Verif.Transform.AnimatedCache
/-
Where the animated sample of a sub-track lives, stated for a sub-track index rather than for a reader state.
This is the layout both readers are proved to follow (AnimatedLemmas.lean) and the writer is proved to produce.
-/
namespace Acl.Transform

/-- Bits per component of a sub-track in the key frame data, from its format byte. -/
def componentBits (rawBits : Nat) (b : BitVec 8) : Nat := if b.toNat = rawBits then 32 else b.toNat

/-- Number of bits the first `k` sub-tracks take in a key frame; their format bytes are at `fmt`. -/
def bitsBefore (rawBits : Nat) (m : List (BitVec 8)) (fmt : Nat) : Nat → Nat
  | 0 => 0
  | k + 1 => bitsBefore rawBits m fmt k + 3 * componentBits rawBits (m.getD (fmt + k) 0)

/-- The sample of animated rotation `k` out of `N`. `c` and `clip` locate the data of the first one.
Segment ranges are in groups of 4 (24 bytes, padded), component by component; clip ranges are in groups of 4
(the last one not padded), component by component. -/
def rotationSampleAt (cfg : AnimCfg) (fmt : RotationFormat) (m : List (BitVec 8)) (clip N : Nat) (c : SegCtx) (k : Nat) :
    Option Sample :=
  match fmt with
  | .quatfFull => (readFloat4 c.data (c.bit + 128 * k)).map (⟨·, none, none⟩)
  | .dropWFull => (readFloat3 c.data (c.bit + 96 * k)).map (⟨·, none, none⟩)
  | .dropWVariable =>
    let segPos := c.seg + 24 * (k / 4) + k % 4
    let clipPos := clip + 96 * (k / 4) + 4 * (k % 4)
    let groupSize := min (N - 4 * (k / 4)) 4
    let bit := c.bit + bitsBefore cfg.rawBits m c.fmt k
    (byteAt m (c.fmt + k)).bind fun b =>
    if b.toNat = 0 then
      (readConstantRotation m segPos).bind fun r => (readClipRangeAt m clipPos groupSize).bind fun cr =>
      some ⟨r, none, some cr⟩
    else if b.toNat = cfg.rawBits then
      (readFloat3 c.data bit).bind fun r => some ⟨r, none, none⟩
    else
      (readQuantized b.toNat c.data bit).bind fun r =>
      (if cfg.hasSegments then (readSegmentRangeAt m segPos).map some else some none).bind fun sr =>
      (readClipRangeAt m clipPos groupSize).bind fun cr => some ⟨r, sr, some cr⟩

/-- The sample of animated translation (or scale) `k`. Ranges are one sub-track after the other. -/
def vectorSampleAt (cfg : AnimCfg) (fmt : VectorFormat) (m : List (BitVec 8)) (clip : Nat) (c : SegCtx) (k : Nat) :
    Option Sample :=
  match fmt with
  | .full => (readFloat3 c.data (c.bit + 96 * k)).map (⟨·, none, none⟩)
  | .varBits =>
    let segPos := c.seg + 6 * k
    let clipPos := clip + 24 * k
    let bit := c.bit + bitsBefore cfg.rawBits m c.fmt k
    (byteAt m (c.fmt + k)).bind fun b =>
    if b.toNat = 0 then
      (readConstantVector3 m segPos).bind fun r => (readClipRange m clipPos (clipPos + 12)).bind fun cr =>
      some ⟨r, none, some cr⟩
    else if b.toNat = cfg.rawBits then
      (readFloat3 c.data bit).bind fun r => some ⟨r, none, none⟩
    else
      (readQuantized b.toNat c.data bit).bind fun r =>
      (if cfg.hasSegments then (readRange24 m segPos (segPos + 3)).map some else some none).bind fun sr =>
      (readClipRange m clipPos (clipPos + 12)).bind fun cr => some ⟨r, sr, some cr⟩

end Acl.Transform
