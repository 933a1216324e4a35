import Verif.Memory.Heap
import Verif.Settings.Model
import Verif.Core.Bitset
import Verif.Transform.Segmenting
/-!
Model of what compressing transform tracks does with memory.
/repo/includes/acl/compression/impl/compress.transform.impl.h:138-607 (compress_transform_track_list)
/repo/includes/acl/compression/impl/clip_context.impl.h:82-304 (initialize_clip_context, destroy_clip_context)
/repo/includes/acl/compression/impl/segment_context.h:119-124 (destroy_segment_context)
/repo/includes/acl/compression/impl/track_stream.h:116-198 (track_stream)
/repo/includes/acl/compression/impl/optimize_looping.transform.h:180-245, convert_rotation.transform.h:70-108,
normalize.transform.h:97-110, 172-176, compact.transform.h:383-485, segment.transform.h:65-255, quantize.transform.h:140-222, 1143-1172,
1227-1230, 1519-1522, 1559-1564, 1620-1628, 1759-1806, 1808-1880, rigid_shell_utils.h:54-71, track_list_context.h:210-231

Sizes of types are parameters. What depends on the values of the samples (is the clip looping, which sub-tracks are constant, what a quantized
sub-track is made of) is a choice the program is given. Not modelled: the bit rate database and its
queries (their own destructors free them), compact.transform.h:487-671 and the statistics (compiled out by default), failing allocations.
-/
namespace Acl.Mem
open Acl (bitsetSize)

/-- Sizes of types in bytes; `metric` is get_transform_size of the error metric. -/
structure Sizes where
  segment : Nat
  metadata : Nat
  bone : Nat
  range : Nat
  keyframe : Nat
  shell : Nat
  bitRates : Nat
  qvv : Nat
  metric : Nat

inductive Kind where | rotation | translation | scale
  deriving DecidableEq

/-- track_stream.h:199-207: a null `ptr` is a stream without an allocator -/
structure Stream where
  ptr : Option Nat
  allocated : Nat
  samples : Nat
  sampleSize : Nat

/-- track_stream.h:116-127: the default constructor -/
def Stream.empty : Stream := ⟨none, 0, 0, 0⟩

/-- track_stream.h:129-141, 197: k_padding is 15 -/
def newStream (samples sampleSize : Nat) : M Stream := do
  let p ← alloc (sampleSize * samples + 15)
  return ⟨some p, samples, samples, sampleSize⟩

/-- track_stream.h:157-161: the destructor -/
def Stream.destroy (s : Stream) : M Unit := freeArray s.ptr (s.sampleSize * s.allocated + 15)

/-- track_stream.h:164-176: move assignment from a temporary exchanges them, then the temporary is destroyed -/
def assign (old new : Stream) : M Stream := do
  old.destroy
  return new

/-- track_stream.h:178-194 duplicate -/
def Stream.duplicate (s : Stream) : M Stream :=
  match s.ptr with
  | none => pure .empty
  | some _ => do
    let p ← alloc (s.sampleSize * s.samples + 15)
    return ⟨some p, s.samples, s.samples, s.sampleSize⟩

/-- track_stream.h:105-112 strip_last_sample -/
def Stream.stripLast (s : Stream) : Stream := if s.allocated ≤ 1 then s else { s with samples := s.allocated - 1 }

/-- track_stream.h transform_streams: the streams of a transform -/
structure Bone where
  rotations : Stream
  translations : Stream
  scales : Stream

def Bone.get (b : Bone) : Kind → Stream
  | .rotation => b.rotations | .translation => b.translations | .scale => b.scales

/-- The implicit destructor of transform_streams. -/
def Bone.destroy (b : Bone) : M Unit := do
  b.scales.destroy
  b.translations.destroy
  b.rotations.destroy

/-- A stream is replaced, or left. -/
def replace (s : Stream) : Option (Nat × Nat) → M Stream
  | none => pure s
  | some (samples, size) => do
    let new ← newStream samples size
    assign s new

/-- The three streams are replaced, or left. -/
def Bone.replace (b : Bone) (choice : Kind → Option (Nat × Nat)) : M Bone := do
  let r ← Mem.replace b.rotations (choice .rotation)
  let t ← Mem.replace b.translations (choice .translation)
  let s ← Mem.replace b.scales (choice .scale)
  return ⟨r, t, s⟩

/-- segment_context.h:83-112 segment_context: the arrays it points to and the counts it frees them with -/
structure Segment where
  streams : Nat
  bones : List Bone
  ranges : Option Nat
  contributing : Option Nat
  numBones : Nat
  allocated : Nat
  samples : Nat

/-- clip_context.h:160-230 clip_context: likewise -/
structure Clip where
  segmentsPtr : Nat
  segments : List Segment
  numSegments : Nat
  ranges : Option Nat
  metadata : Nat
  chains : Option Nat
  sorted : Nat
  contributing : Option Nat
  numBones : Nat
  numLeaves : Nat
  samples : Nat

/-- What is read from a track list. -/
structure Source where
  numBones : Nat
  numSamples : Nat
  numLeaves : Nat
  finite : Bool

/-- clip_context.impl.h:116-162: the streams of a transform, assigned to default constructed ones -/
def initBone (samples : Nat) : M Bone := do
  let r ← newStream samples 16
  let r ← assign .empty r
  let t ← newStream samples 16
  let t ← assign .empty t
  let s ← newStream samples 16
  let s ← assign .empty s
  return ⟨r, t, s⟩

/-- clip_context.impl.h:198-281: the chains; the leaf bit set is freed again -/
def initChains (x : Source) : M (Option Nat) :=
  if x.numBones = 0 then pure none
  else do
    let leaf ← alloc (4 * bitsetSize x.numBones)
    let chains ← alloc (4 * (x.numLeaves * bitsetSize x.numBones))
    free leaf (4 * bitsetSize x.numBones)
    return some chains

/-- clip_context.impl.h:82-284 initialize_clip_context -/
def initClip (sz : Sizes) (x : Source) : M Clip := do
  let segments ← alloc (sz.segment * 1)
  let metadata ← alloc (sz.metadata * x.numBones)
  let sorted ← alloc (4 * x.numBones)
  let streams ← alloc (sz.bone * x.numBones)
  let bones ← (List.range x.numBones).mapM fun _ => initBone x.numSamples
  let chains ← initChains x
  return { segmentsPtr := segments, segments := [⟨streams, bones, none, none, x.numBones, x.numSamples, x.numSamples⟩], numSegments := 1,
           ranges := none, metadata := metadata, chains := chains, sorted := sorted, contributing := none, numBones := x.numBones,
           numLeaves := if x.numBones = 0 then 0 else x.numLeaves, samples := x.numSamples }

/-- iallocator.h:137-141: the elements of the array are destroyed, as many as the count says -/
def destroyBones : List Bone → M Unit
  | [] => pure ()
  | b :: rest => do
    b.destroy
    destroyBones rest

/-- segment_context.h:119-124 destroy_segment_context -/
def destroySegment (sz : Sizes) (s : Segment) : M Unit := do
  destroyBones (s.bones.take s.numBones)
  free s.streams (sz.bone * s.numBones)
  freeArray s.ranges (sz.range * s.numBones)
  freeArray s.contributing (sz.keyframe * s.allocated)

def destroySegments (sz : Sizes) : List Segment → M Unit
  | [] => pure ()
  | s :: rest => do
    destroySegment sz s
    destroySegments sz rest

/-- clip_context.impl.h:286-304 destroy_clip_context of an initialized context -/
def destroyClip (sz : Sizes) (c : Clip) : M Unit := do
  destroySegments sz (c.segments.take c.numSegments)
  free c.segmentsPtr (sz.segment * c.numSegments)
  freeArray c.ranges (sz.range * c.numBones)
  free c.metadata (sz.metadata * c.numBones)
  freeArray c.chains (4 * (c.numLeaves * bitsetSize c.numBones))
  free c.sorted (4 * c.numBones)
  freeArray c.contributing (sz.keyframe * c.samples)

/-- What depends on the values of the samples. -/
structure Choices where
  /-- is_clip_looping -/
  wraps : Bool
  /-- which sub-tracks are constant -/
  constant : Nat → Kind → Bool
  /-- the number of samples and the sample size of quantized streams, `none` for default ones -/
  quantized : Nat → Nat → Kind → Option (Nat × Nat)
  hasScale : Bool
  conversion : Bool
  numOutputs : Nat
  outputSize : Nat

/-- optimize_looping.transform.h:180-245 -/
def loopClip (s : Settings.Settings) (ch : Choices) (wrapPolicy : Bool) (c : Clip) : Clip :=
  if !s.optimizeLoops || wrapPolicy || (s.rotation == .full && s.translation == .full && s.scale == .full) || decide (c.samples ≤ 1) ||
      decide (c.numBones = 0) || !ch.wraps then c
  else { c with samples := c.samples - 1, segments := c.segments.map fun g =>
      { g with samples := g.samples - 1, bones := g.bones.map fun b => ⟨b.rotations.stripLast, b.translations.stripLast, b.scales.stripLast⟩ } }

/-- convert_rotation.transform.h:70-108 convert_rotation_streams of a segment -/
def convertSegment (g : Segment) : M Segment := do
  let bones ← g.bones.mapM fun b => do
    let new ← newStream b.rotations.samples 16
    let r ← assign b.rotations new
    return { b with rotations := r }
  return { g with bones := bones }

/-- convert_rotation.transform.h:110-126 -/
def convertClip (c : Clip) : M Clip := do
  let segments ← c.segments.mapM convertSegment
  return { c with segments := segments }

/-- normalize.transform.h:97-110 extract_clip_bone_ranges -/
def clipRanges (sz : Sizes) (c : Clip) : M Clip := do
  let p ← alloc (sz.range * c.numBones)
  return { c with ranges := some p }

/-- compact.transform.h:383-485: a constant sub-track keeps one sample -/
def compactSegment (ch : Choices) (g : Segment) : M Segment := do
  let bones ← g.bones.zipIdx.mapM fun b => b.1.replace fun k => if ch.constant b.2 k then some (1, (b.1.get k).sampleSize) else none
  return { g with bones := bones }

/-- compact.transform.h:355-680 compact_constant_streams -/
def compactClip (ch : Choices) (c : Clip) : M Clip := do
  let segments ← c.segments.mapM (compactSegment ch)
  return { c with segments := segments }

/-- segment.transform.h:195-235: the stream of a sub-track in a segment, assigned to a default constructed one -/
def cutStream (count : Nat) (constant : Bool) (s : Stream) : M Stream := do
  let new ← if constant then s.duplicate else newStream count s.sampleSize
  assign .empty new

/-- segment.transform.h:184-240 -/
def cutBone (ch : Choices) (count : Nat) (b : Bone × Nat) : M Bone := do
  let r ← cutStream count (ch.constant b.2 .rotation) b.1.rotations
  let t ← cutStream count (ch.constant b.2 .translation) b.1.translations
  let s ← cutStream count (ch.constant b.2 .scale) b.1.scales
  return ⟨r, t, s⟩

/-- segment.transform.h:158-247 -/
def cutSegment (sz : Sizes) (ch : Choices) (numBones : Nat) (bones : List Bone) (count : Nat) : M Segment := do
  let streams ← alloc (sz.bone * numBones)
  let bones ← bones.zipIdx.mapM (cutBone ch count)
  return ⟨streams, bones, none, none, numBones, count, count⟩

/-- segment.transform.h:75: how many segments split_samples_per_segment makes room for -/
def estimated (seg : Segmenting.Settings) (samples : Nat) : Nat := (samples + seg.ideal - 1) / seg.ideal

/-- segment.transform.h:134-260 segment_streams -/
def segmentClip (sz : Sizes) (ch : Choices) (seg : Segmenting.Settings) (c : Clip) : M Clip :=
  match c.segments, Segmenting.splitSamplesPerSegment c.samples seg with
  | [whole], some counts => do
    let perSegment ← alloc (4 * estimated seg c.samples)
    let segments ← alloc (sz.segment * counts.length)
    let list ← counts.mapM (cutSegment sz ch c.numBones whole.bones)
    free perSegment (4 * estimated seg c.samples)
    destroySegment sz whole
    free c.segmentsPtr (sz.segment * 1)
    return { c with segmentsPtr := segments, segments := list, numSegments := counts.length }
  | _, _ => pure c

/-- normalize.transform.h:172-176 extract_segment_bone_ranges, when there are several segments -/
def segmentRanges (sz : Sizes) (reduced : Bool) (c : Clip) : M Clip :=
  if reduced && decide (1 < c.numSegments) then do
    let segments ← c.segments.mapM fun g => do
      let p ← alloc (sz.range * g.numBones)
      return { g with ranges := some p }
    return { c with segments := segments }
  else pure c

/-- quantize.transform.h:180-193 (the constructor), 1626-1627: the arrays of the quantization context; `none` is a null pointer -/
def quantizeSizes (sz : Sizes) (ch : Choices) (additive contributing : Bool) (n samples : Nat) : List (Option Nat) :=
  [some (sz.shell * n), if additive then some (sz.qvv * n) else none, some (sz.qvv * n), some (sz.qvv * n),
   some (sz.metric * n * samples), if additive then some (sz.metric * n * samples) else none,
   some (sz.metric * n * samples), if additive then some (sz.metric * n * samples) else none,
   if ch.conversion then some (sz.metric * n) else none, some (sz.metric * n), some (sz.bitRates * n), some (4 * n), some (4 * n), some (4 * n),
   if contributing then some (sz.qvv * n) else none, if contributing then some (sz.qvv * n) else none]

/-- quantize.transform.h:203-221 the destructor: the sizes the same arrays are freed with -/
def quantizeFrees (sz : Sizes) (n samples : Nat) : List Nat :=
  [sz.shell * n, sz.qvv * n, sz.qvv * n, sz.qvv * n, sz.metric * n * samples, sz.metric * n * samples, sz.metric * n * samples,
   sz.metric * n * samples, sz.metric * n, sz.metric * n, sz.bitRates * n, 4 * n, 4 * n, 4 * n, sz.qvv * n, sz.qvv * n]

def allocAll : List (Option Nat) → M (List (Option Nat))
  | [] => pure []
  | none :: rest => do
    let ps ← allocAll rest
    return none :: ps
  | some size :: rest => do
    let p ← alloc size
    let ps ← allocAll rest
    return some p :: ps

def freeAll : List (Option Nat) → List Nat → M Unit
  | p :: ps, size :: sizes => do
    freeArray p size
    freeAll ps sizes
  | _, _ => pure ()

/-- quantize.transform.h:1227-1230, 1519-1522: the arrays of find_optimal_bit_rates -/
def searchRates (sz : Sizes) (n : Nat) : M Unit := do
  let a ← alloc (1 * n)
  let b ← alloc (sz.bitRates * n)
  let c ← alloc (sz.bitRates * n)
  let d ← alloc (sz.bitRates * n)
  free a (1 * n)
  free b (sz.bitRates * n)
  free c (sz.bitRates * n)
  free d (sz.bitRates * n)

/-- quantize.transform.h:1563-1564: room for 32 keyframes -/
def contributingError (sz : Sizes) (g : Segment) : M Segment :=
  match g.contributing with
  | some _ => pure g
  | none => do
    let p ← alloc (sz.keyframe * 32)
    return { g with contributing := some p }

/-- quantize.transform.h:1848-1866, 1143-1172: a segment is searched, measured and quantized -/
def quantizeSegment (sz : Sizes) (ch : Choices) (searched contributing : Bool) (n : Nat) (g : Segment × Nat) : M Segment := do
  (if searched then searchRates sz n else pure () : M Unit)
  let s ← if contributing then contributingError sz g.1 else pure g.1
  let bones ← s.bones.zipIdx.mapM fun b => b.1.replace fun k => if k = .scale ∧ ch.hasScale = false then none else ch.quantized g.2 b.2 k
  return { s with bones := bones }

/-- quantize.transform.h:1759-1806 sort_contributing_error -/
def sortErrors (sz : Sizes) (c : Clip) : M Clip := do
  let p ← (match c.contributing with
    | some p => pure p
    | none => alloc (sz.keyframe * c.samples) : M Nat)
  let temp ← alloc (4 * c.numSegments)
  free temp (4 * c.numSegments)
  return { c with contributing := some p }

/-- quantize.transform.h:1808-1900 quantize_streams -/
def quantizeClip (sz : Sizes) (ch : Choices) (additive searched contributing : Bool) (c : Clip) : M Clip :=
  if c.numBones = 0 ∨ c.samples = 0 then pure c
  else do
    let arrays ← allocAll (quantizeSizes sz ch additive contributing c.numBones ((c.segments.map (·.samples)).headD 0))
    let segments ← c.segments.zipIdx.mapM (quantizeSegment sz ch searched contributing c.numBones)
    let c := { c with segments := segments }
    let c ← if contributing then sortErrors sz c else pure c
    freeAll arrays (quantizeFrees sz c.numBones ((c.segments.map (·.samples)).headD 0))
    return c

/-- rigid_shell_utils.h:58-71 compute_clip_shell_distances -/
def shellDistances (sz : Sizes) (x : Source) : M (Option Nat) :=
  if x.numBones = 0 then pure none
  else if x.numSamples = 0 then pure none
  else do
    let p ← alloc (sz.shell * x.numBones)
    return some p

/-- compress.transform.impl.h:156-168: whether the contributing error is needed while compressing -/
def needsError (s : Settings.Settings) : Bool :=
  if s.enableDatabase then true
  else if s.stripping.isEnabled then true
  else s.metadata.contributingError

/-- compress.transform.impl.h:171: a format is variable -/
def anyVariable (s : Settings.Settings) : Bool :=
  s.rotation == .dropWVariable || s.translation == .variable || s.scale == .variable

/-- compress.transform.impl.h:155, 171-176: the segmenting settings -/
def segmenting (s : Settings.Settings) : Segmenting.Settings := if anyVariable s then {} else ⟨2 ^ 32 - 1, 2 ^ 32 - 1⟩

/-- What compress_transform_track_list returns. -/
inductive Result where
  | settings (e : Settings.Error)
  | rawError
  | tooManySamples
  | notFinite
  | baseNotFinite
  | done (buffer : Nat)
  deriving DecidableEq

/-- clip_context.impl.h:288-289: a context that was not initialized is left alone -/
def destroyBase (sz : Sizes) : Option Clip → M Unit
  | none => pure ()
  | some c => destroyClip sz c

/-- compress.transform.impl.h:228-284: the steps that change the lossy clip, in order -/
def process (sz : Sizes) (ch : Choices) (s : Settings.Settings) (wrapPolicy additive : Bool) (lossy : Clip) : M Clip := do
  let lossy ← convertClip (loopClip s ch wrapPolicy lossy)
  let lossy ← clipRanges sz lossy
  let lossy ← compactClip ch lossy
  let lossy ← segmentClip sz ch (segmenting s) lossy
  let lossy ← segmentRanges sz (anyVariable s) lossy
  quantizeClip sz ch additive (anyVariable s) (needsError s) lossy

/-- compress.transform.impl.h:212-607: the rest, once the contexts are made and the samples are known to be finite -/
def work (sz : Sizes) (ch : Choices) (s : Settings.Settings) (wrapPolicy : Bool) (x : Source) (additive : Bool) (raw lossy : Clip)
    (baseClip : Option Clip) : M Result := do
  let shell ← shellDistances sz x
  let lossy ← process sz ch s wrapPolicy additive lossy
  let mapping ← alloc (4 * ch.numOutputs)
  let buffer ← alloc ch.outputSize
  free mapping (4 * ch.numOutputs)
  freeArray shell (sz.shell * x.numBones)
  destroyClip sz lossy
  destroyClip sz raw
  destroyBase sz baseClip
  return .done buffer

/-- clip_context.impl.h:82, for the additive base if there is one -/
def initBase (sz : Sizes) : Option Source → M (Option Clip)
  | none => pure none
  | some b => do
    let c ← initClip sz b
    return some c

/-- compress.transform.impl.h:138-607 compress_transform_track_list; `base` is the additive base, if there is one that is not empty and
the format is additive -/
def compress (sz : Sizes) (ch : Choices) (s : Settings.Settings) (wrapPolicy : Bool) (x : Source) (base : Option Source) : M Result :=
  match s.isValid with
  | some e => pure (.settings e)
  | none =>
    if !anyVariable s && needsError s then pure .rawError
    else if needsError s && decide (32 < (segmenting s).max) then pure .tooManySamples
    else do
      let raw ← initClip sz x
      if !x.finite then return .notFinite
      let lossy ← initClip sz x
      let baseClip ← initBase sz base
      if (base.map (·.finite)) == some false then return .baseNotFinite
      work sz ch s wrapPolicy x base.isSome raw lossy baseClip

end Acl.Mem
