import Verif.Scalar.Reader
/-
Model of the compression of scalar track lists, from the quantized tracks to the buffer.
/repo/includes/acl/compression/impl/write_track_data_impl.h
/repo/includes/acl/compression/impl/compress.scalar.impl.h

Simplifications. Floats are bit patterns; a quantized sample, which the code keeps as a float holding an integer
and casts back (write_track_data_impl.h:173), is that integer. The header fields are the record `Clip`. What the
code writes after the animated values (metadata or 15 bytes of padding) is a parameter `tail`.
-/
namespace Acl.Scalar

/-- The fields of `track_list_context` (compression/impl/track_list_context.h) the writers use. -/
structure TrackList where
  trackType : TrackType
  numSamples : Nat
  /-- `track_output_indices[0 .. num_output_tracks)` -/
  outputIndices : List Nat
  isConstant : Nat → Bool
  /-- `bit_rate_list[track].scalar.value` -/
  bitRate : Nat → Nat
  /-- `(*reference_list)[track][sample]` -/
  reference : Nat → Nat → List (BitVec 32)
  /-- `track_list[track][sample]`, quantized -/
  quantized : Nat → Nat → List (BitVec 32)
  rangeMin : Nat → List (BitVec 32)
  rangeExtent : Nat → List (BitVec 32)

/-- `memcpy` of a sample: `element_size` bytes. -/
def floatsBytes (v : List (BitVec 32)) : List (BitVec 8) := v.flatMap bytesLE

/-- write_track_data_impl.h:47-66 `write_track_metadata`. -/
def writeMetadata (t : TrackList) : List (BitVec 8) :=
  t.outputIndices.map fun i => if t.isConstant i then 0#8 else BitVec.ofNat 8 (t.bitRate i)

/-- write_track_data_impl.h:68-93 `write_track_constant_values`. -/
def writeConstants (t : TrackList) : List Nat → List (BitVec 8)
  | [] => []
  | i :: rest => if t.isConstant i then floatsBytes (t.reference i 0) ++ writeConstants t rest else writeConstants t rest

/-- write_track_data_impl.h:95-134 `write_track_range_values`. -/
def writeRanges (t : TrackList) : List Nat → List (BitVec 8)
  | [] => []
  | i :: rest =>
    if t.isConstant i then writeRanges t rest
    else if isRawBitRate (t.bitRate i) then writeRanges t rest
    else floatsBytes (t.rangeMin i) ++ (floatsBytes (t.rangeExtent i) ++ writeRanges t rest)

/-- write_track_data_impl.h:136-197 `write_track_animated_values` without a buffer: the number of bits of one
frame. -/
def countFrame (t : TrackList) : List Nat → Option Nat
  | [] => some 0
  | i :: rest =>
    if t.isConstant i then countFrame t rest
    else
      (getNumBitsAtBitRate (t.bitRate i)).bind fun n =>
      (countFrame t rest).bind fun more => some (n * numSampleElements t.trackType + more)

/-- write_track_data_impl.h:136-197 without a buffer, `left` samples left; the result is cast to uint32_t with a
check. -/
def countAnimated (t : TrackList) : Nat → Option Nat
  | 0 => some 0
  | left + 1 =>
    (countFrame t t.outputIndices).bind fun frame => (countAnimated t left).bind fun more => some (frame + more)

/-- write_track_data_impl.h:164-186: the components of one sample. -/
def writeComponents (isRaw : Bool) (n : Nat) : List (BitVec 32) → List (BitVec 8) → Nat → Option (List (BitVec 8) × Nat)
  | [], buf, bit => some (buf, bit)
  | v :: vs, buf, bit =>
    let value : BitVec 32 := if isRaw then byteSwap32 v else byteSwap32 (v <<< (32 - n))
    (memcpyBits buf bit (bytesLE value) 0 n).bind fun buf => writeComponents isRaw n vs buf (bit + n)

/-- write_track_data_impl.h:148-188: one frame. -/
def writeFrame (t : TrackList) (sample : Nat) : List Nat → List (BitVec 8) → Nat → Option (List (BitVec 8) × Nat)
  | [], buf, bit => some (buf, bit)
  | i :: rest, buf, bit =>
    if t.isConstant i then writeFrame t sample rest buf bit
    else
      (getNumBitsAtBitRate (t.bitRate i)).bind fun n =>
      let src := if isRawBitRate (t.bitRate i) then t.reference i sample else t.quantized i sample
      (writeComponents (isRawBitRate (t.bitRate i)) n src buf bit).bind fun (buf, bit) => writeFrame t sample rest buf bit

/-- write_track_data_impl.h:136-197: the frames from `sample`, `left` left. -/
def writeFrames (t : TrackList) : Nat → Nat → List (BitVec 8) → Nat → Option (List (BitVec 8) × Nat)
  | 0, _, buf, bit => some (buf, bit)
  | left + 1, sample, buf, bit =>
    (writeFrame t sample t.outputIndices buf bit).bind fun (buf, bit) => writeFrames t left (sample + 1) buf bit

/-- Alignment padding (compress.scalar.impl.h:106, 161): `align_to(.., 4)` over zeroed memory. -/
def padTo4 (size : Nat) : List (BitVec 8) := List.replicate ((4 - size % 4) % 4) 0#8

/-- compress.scalar.impl.h:92-232: the sizes, the header and the sections, in order. `header` is the 20 byte
`scalar_tracks_header`, which starts at a multiple of 4. `tail` is the metadata or the 15 bytes of padding. -/
def compress (t : TrackList) (header tail : List (BitVec 8)) : Option Clip :=
  (countAnimated t t.numSamples).bind fun numBits =>
  if numBits ≥ 4294967296 then none else
  let metadata := writeMetadata t
  let constants := writeConstants t t.outputIndices
  let ranges := writeRanges t t.outputIndices
  let pad := padTo4 (header.length + metadata.length)
  (writeFrames t t.numSamples 0 (List.replicate ((numBits + 7) / 8) 0#8) 0).bind fun (animated, _) =>
  let metadataOffset := header.length
  let constantOffset := metadataOffset + metadata.length + pad.length
  let rangeOffset := constantOffset + constants.length
  let animatedOffset := rangeOffset + ranges.length
  some {
    isV2_0 := false
    trackType := t.trackType
    numTracks := t.outputIndices.length
    numSamples := if t.outputIndices.length ≠ 0 then t.numSamples else 0
    numBitsPerFrame := if t.numSamples ≠ 0 then numBits / t.numSamples else 0
    metadataOffset := metadataOffset
    constantOffset := constantOffset
    rangeOffset := rangeOffset
    animatedOffset := animatedOffset
    bytes := header ++ (metadata ++ (pad ++ (constants ++ (ranges ++ (animated ++ tail))))) }

end Acl.Scalar
