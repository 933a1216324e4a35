import Verif.Layout.Metadata
/-
The data of a compressed transform clip as bytes: transform_tracks_header, segment start indices, segment headers,
sub-track types, constant data, clip ranges and segments.
/repo/includes/acl/core/impl/compressed_headers.h:171-325
/repo/includes/acl/compression/impl/compress.transform.impl.h:287-365, 405-465
/repo/includes/acl/compression/impl/write_segment_data.h

Offsets in this file are absolute: the transform_tracks_header is at 32, after raw_buffer_header (8) and tracks_header
(24). Sizes are natural numbers (uint32_t in the code). The contents of the sections are bytes here.
-/
namespace Acl.Clip
open Acl.Headers

abbrev Bytes := List (BitVec 8)

/-- sizeof(raw_buffer_header) + sizeof(tracks_header): where the transform_tracks_header is. -/
def base : Nat := 32

/-- sizeof(transform_tracks_header), compressed_headers.h:227-262: 13 words -/
def headerSize : Nat := 52

/-- What is written for one segment: segment_context.h; `formats`, `ranges` and `animated` are what
write_format_per_track_data, write_segment_range_data and write_animated_track_data write. -/
structure Segment where
  /-- clip_sample_offset -/
  start : BitVec 32
  poseBits : BitVec 32
  rotationBits : BitVec 32
  translationBits : BitVec 32
  hardKeyframes : BitVec 32
  formats : Bytes
  ranges : Bytes
  animated : Bytes

/-- The counts of the transform_tracks_header, compressed_headers.h:235-243 -/
structure Counts where
  animatedRotations : BitVec 32
  animatedTranslations : BitVec 32
  animatedScales : BitVec 32
  constantRotations : BitVec 32
  constantTranslations : BitVec 32
  constantScales : BitVec 32

/-- What is written in a clip. `clipRangeSize` is get_clip_range_data_size, which reserves room for the bones that are
stripped as well; `numVariable` is the number of animated variable sub-tracks with the padding of the rotations. -/
structure Input where
  counts : Counts
  numVariable : Nat
  stripped : Bool
  types : List (BitVec 32)
  constants : Bytes
  clipRanges : Bytes
  clipRangeSize : Nat
  segments : List Segment

/-- compress.transform.impl.h:305: `segment_start_indices_size` -/
def startIndicesSize (x : Input) : Nat := if x.segments.length > 1 then 4 * (x.segments.length + 1) else 0
/-- compress.transform.impl.h:306: sizeof(stripped_segment_header_t) or sizeof(segment_header) -/
def segmentHeaderSize (stripped : Bool) : Nat := if stripped then 20 else 16

/-- compress.transform.impl.h:348-357 and write_segment_data.h:92-94: where a segment that starts at `n` ends.
`format_per_track_data_size` is the number of variable sub-tracks, write_stream_data.h:193-196. -/
def segmentEnd (x : Input) (n : Nat) (s : Segment) : Nat :=
  alignUp (alignUp (n + x.numVariable) 2 + s.ranges.length) 4 + s.animated.length

/-- compress.transform.impl.h:309-361: the size of the buffer before the metadata -/
def dataEnd (x : Input) : Nat :=
  let n := base + headerSize
  let n := alignUp n 4 + startIndicesSize x
  let n := alignUp n 4 + segmentHeaderSize x.stripped * x.segments.length
  let n := alignUp n 4 + 4 * x.types.length
  let n := alignUp n 4 + x.constants.length
  let n := alignUp n 4 + x.clipRangeSize
  x.segments.foldl (segmentEnd x) n

/-- compress.transform.impl.h:439-444: the offsets of the header, relative to it -/
structure Offsets where
  segmentHeaders : Nat
  types : Nat
  constants : Nat
  clipRanges : Nat

def offsetsOf (x : Input) : Offsets :=
  let startIndices := alignUp headerSize 4
  let segmentHeaders := alignUp (startIndices + startIndicesSize x) 4
  let types := alignUp (segmentHeaders + segmentHeaderSize x.stripped * x.segments.length) 4
  let constants := alignUp (types + 4 * x.types.length) 4
  let clipRanges := alignUp (constants + x.constants.length) 4
  ⟨segmentHeaders, types, constants, clipRanges⟩

/-- compress.transform.impl.h:429-444: the transform_tracks_header -/
def headerWords (x : Input) : List (BitVec 32) :=
  let o := offsetsOf x
  [BitVec.ofNat 32 x.segments.length, BitVec.ofNat 32 x.numVariable, x.counts.animatedRotations, x.counts.animatedTranslations,
    x.counts.animatedScales, x.counts.constantRotations, x.counts.constantTranslations, x.counts.constantScales,
    ptrOffsetInvalid 32, ptrOffsetOf 32 o.segmentHeaders, ptrOffsetOf 32 o.types, ptrOffsetOf 32 o.constants,
    ptrOffsetOf 32 o.clipRanges]

/-- write_segment_data.h:48-64 write_segment_start_indices -/
def startIndexWords (segments : List Segment) : List (BitVec 32) := segments.map (·.start) ++ [0xFFFFFFFF#32]

/-- One segment_header or stripped_segment_header_t, compressed_headers.h:171-197 -/
def segmentHeaderBytes (stripped : Bool) (s : Segment) (offset : Nat) : Bytes :=
  bytesLE s.poseBits ++ bytesLE s.rotationBits ++ bytesLE s.translationBits ++ bytesLE (ptrOffsetOf 32 offset) ++
    (if stripped then bytesLE s.hardKeyframes else [])

/-- write_segment_data.h:66-120 write_segment_headers: `p` is where the next header goes, `offset` where the data of the
segment is, relative to the transform header. -/
def writeSegmentHeaders (x : Input) : List Segment → Bytes → Nat → Nat → Option Bytes
  | [], m, _, _ => some m
  | s :: rest, m, p, offset => do
    let m ← store m p (segmentHeaderBytes x.stripped s offset)
    writeSegmentHeaders x rest m (p + segmentHeaderSize x.stripped) (segmentEnd x offset s)

/-- compressed_headers.h:292-307 get_segment_data: the format, range and animated data of the segment whose data is at
`p`. `align_to` on pointers: the buffer is aligned to 16 bytes. -/
def segmentData (numSegments numVariable p : Nat) : Nat × Nat × Nat :=
  let ranges := alignUp (p + numVariable) 2
  let rangeSize := if numSegments > 1 then 1 * 6 * numVariable else 0
  (p, ranges, alignUp (ranges + rangeSize) 4)

/-- `if (size != 0) write` -/
def storeNonEmpty (m : Bytes) (p : Nat) (bs : Bytes) : Option Bytes := if bs.length ≠ 0 then store m p bs else some m

/-- write_segment_data.h:122-182 write_segment_data. The code reads back the offset write_segment_headers has stored. -/
def writeSegments (x : Input) : List Segment → Bytes → Nat → Option Bytes
  | [], m, _ => some m
  | s :: rest, m, offset => do
    let (fmt, ranges, animated) := segmentData x.segments.length x.numVariable (base + offset)
    let m ← storeNonEmpty m fmt s.formats
    let m ← storeNonEmpty m ranges s.ranges
    let m ← storeNonEmpty m animated s.animated
    writeSegments x rest m (segmentEnd x offset s)

/-- compress.transform.impl.h:446-448 -/
def writeStartIndices (x : Input) (m : Bytes) : Option Bytes :=
  if x.segments.length > 1 then store m (base + alignUp headerSize 4) ((startIndexWords x.segments).map bytesLE).flatten else some m

/-- compress.transform.impl.h:405-465: the bytes of the buffer up to the metadata; the 32 bytes of the first two headers
are zero here. -/
def writeClip (x : Input) : Option Bytes := do
  let o := offsetsOf x
  let m := List.replicate (dataEnd x) 0#8
  let m ← store m base ((headerWords x).map bytesLE).flatten
  let m ← writeStartIndices x m
  let segmentStart := o.clipRanges + x.clipRangeSize
  let m ← writeSegmentHeaders x x.segments m (base + o.segmentHeaders) segmentStart
  let m ← store m (base + o.types) (x.types.map bytesLE).flatten
  let m ← storeNonEmpty m (base + o.constants) x.constants
  let m ← storeNonEmpty m (base + o.clipRanges) x.clipRanges
  writeSegments x x.segments m segmentStart

/-- The compressor: the headers, the clip and the metadata, compress.transform.impl.h:399-535. -/
def compress (e : Meta.Extra) (s : Meta.Settings) (src : Meta.Source) (h : Meta.Header) (x : Input) : Option Bytes := do
  let m ← writeClip x
  Meta.compress e s src h (m.drop base)

/-! ## Reading the offsets back -/

/-- A word of the transform_tracks_header. -/
def field (m : Bytes) (k : Nat) : Option Nat := (load32 m (base + 4 * k)).map BitVec.toNat

/-- compressed_headers.h:271 get_segment_start_indices -/
def startIndicesAt : Nat := base + alignUp headerSize 4
/-- compressed_headers.h:277-281 get_segment_headers, get_stripped_segment_headers -/
def segmentHeadersAt (m : Bytes) : Option Nat := (field m 9).map (base + ·)
/-- compressed_headers.h:283-284 get_sub_track_types -/
def typesAt (m : Bytes) : Option Nat := (field m 10).map (base + ·)
/-- compressed_headers.h:286-287 get_constant_track_data -/
def constantsAt (m : Bytes) : Option Nat := (field m 11).map (base + ·)
/-- compressed_headers.h:289-290 get_clip_range_data -/
def clipRangesAt (m : Bytes) : Option Nat := (field m 12).map (base + ·)

/-- decompression.transform.h:262-265 (with a database supported): do the segment headers have sample indices? -/
def hasSampleIndices (misc : BitVec 32) : Bool := getHasDatabase misc || getHasStrippedKeyframes misc

/-- The address of the header of a segment: `segment_headers + i` or `stripped_segment_headers + i`. -/
def segmentHeaderAt (m : Bytes) (i : Nat) : Option Nat := do
  let h ← Meta.loadTracksHeader m
  let p ← segmentHeadersAt m
  some (p + segmentHeaderSize (hasSampleIndices h.misc) * i)

/-- compressed_headers.h:309-324 get_segment_data of segment `i` -/
def segmentDataAt (m : Bytes) (i : Nat) : Option (Nat × Nat × Nat) := do
  let p ← segmentHeaderAt m i
  let offset ← load32 m (p + 12)
  let numSegments ← field m 0
  let numVariable ← field m 1
  some (segmentData numSegments numVariable (base + offset.toNat))

end Acl.Clip
