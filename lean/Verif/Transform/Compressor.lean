import Verif.Transform.SampleStreams
import Verif.Transform.BitRateSearch
import Verif.Transform.ClipWriter
/-
From samples to bytes, with the search for the bit rates.
/repo/includes/acl/compression/impl/quantize.transform.h:1798-1880 (quantize_streams), 1142-1172 (quantize_all_streams), 671-868 (the errors)
/repo/includes/acl/compression/impl/compress.transform.impl.h:262-330 (quantize, output bones, write)

The bones of the input are numbered; `order` lists those that are output, in order (create_output_track_mapping). The error metric
is a parameter, over the X, Y and Z of the sampled sub-tracks of the bones (the W of a rotation follows from them, or is the one of
the input in quatf_full): it also knows the raw clip, the rigid shells and the additive base. Constant sub-tracks are sampled
from the constant value.
-/
namespace Acl.Compressor
open Acl.F32 Acl.Transform Acl.Search

/-- The sampled values of a bone -/
abbrev Pose := Kind → Axis → ℚ

/-- The error metric and the precisions; `local` and `object` take a bone, the sample of the clip and what is sampled -/
structure Measure (E : Type) where
  localError : Nat → Nat → Pose → E
  objectError : Nat → Nat → List Pose → E
  precision : Nat → E
  zero : E
  huge : E
  level : Nat

/-- What is compressed: `clip.bones` is not used -/
structure Input where
  clip : RawClip
  bones : Nat → RawBone
  parents : List Nat
  order : List Nat
  sampleRate : ℚ
  duration : ℚ

def rateOf (r : Rates) : Kind → Nat
  | .rotation => r.rotation
  | .translation => r.translation
  | .scale => r.scale

/-- quantize.transform.h:1111-1140 with normalize.transform.h:388-409: variable, and normalized over the segment -/
def kindOf (r : RawClip) (b : RawBone) (kind : Kind) : Bool × Bool :=
  (r.isVariable kind && !(b.flags kind).isConstant && (decide (kind ≠ .scale) || r.hasScale), decide (r.sizes.length > 1))

def kindsOf (r : RawClip) (b : RawBone) : Kinds :=
  { rotation := kindOf r b .rotation, translation := kindOf r b .translation, scale := kindOf r b .scale }

/-- The constant value of a sub-track: rotations and vectors -/
def constantValue (b : RawBone) (kind : Kind) (lane : Axis) : ℚ :=
  if kind = .rotation then ofBits (b.rotation.xyz.lane lane) else ofBits ((b.vector kind).lane lane)

/-- track_bit_rate_database.h: sample_rotation, sample_translation, sample_scale (without the caches) -/
def sampled (fused : Bool) (r : RawClip) (b : RawBone) (g key : Nat) (rates : Rates) : Pose := fun kind lane =>
  if (b.flags kind).isConstant then constantValue b kind lane else b.measured fused r g kind key (rateOf rates kind) lane

/-- quantize.transform.h:724-735, 819-831: the key frame that is sampled -/
def keyOf (x : Input) (g s : Nat) : Nat :=
  (uniformSampleKey x.clip.numSamples x.sampleRate (x.clip.start g) (x.clip.sizes.getD g 0)
    (sampleTime x.sampleRate x.duration (x.clip.start g) s)).getD 0

/-- quantize.transform.h:671-868, for segment `g` -/
def setupOf {E : Type} (M : Measure E) (fused : Bool) (x : Input) (g : Nat) : Setup E where
  numSamples := x.clip.sizes.getD g 0
  localError := fun j rates s => M.localError j (x.clip.start g + s) (sampled fused x.clip (x.bones j) g (keyOf x g s) rates)
  objectError := fun st j s => M.objectError j (x.clip.start g + s)
    ((List.range x.parents.length).map fun k => sampled fused x.clip (x.bones k) g (keyOf x g s) (st k))
  precision := M.precision
  zero := M.zero
  huge := M.huge
  hasScale := x.clip.hasScale
  level := M.level
  fullRotations := decide (x.clip.rotationFormat = .quatfFull)

/-- quantize.transform.h:1174-1498, called at 1866: the bit rates of segment `g`; without a variable format the search is not run, and its
bit rates would not be used -/
def searchSegment {E : Type} [LinearOrder E] (M : Measure E) (fused : Bool) (x : Input) (fuel : Nat) (garbage : Nat → BitRates) (g : Nat) :
    Option BitRates :=
  findOptimalBitRates (setupOf M fused x g) fuel (garbage g) x.parents (fun j => kindsOf x.clip (x.bones j))

/-- A bone once its bit rates are known -/
def rated (b : RawBone) (rates : Nat → Rates) : RawBone := { b with bitRate := fun g kind => rateOf (rates g) kind }

/-- quantize.transform.h:1142-1172 and create_output_track_mapping: the clip with its output bones and their bit rates -/
def ratedClip (x : Input) (rates : Nat → BitRates) : RawClip :=
  { x.clip with bones := x.order.map fun j => rated (x.bones j) (fun g => rates g j) }

/-- quantize.transform.h:1838-1874: segment by segment -/
def searchAll {E : Type} [LinearOrder E] (M : Measure E) (fused : Bool) (x : Input) (fuel : Nat) (garbage : Nat → BitRates) :
    Option (List BitRates) :=
  (List.range x.clip.sizes.length).mapM (searchSegment M fused x fuel garbage)

def ratesAt (l : List BitRates) (g : Nat) : BitRates := l.getD g fun _ => ⟨0, 0, 0⟩

/-- compress.transform.impl.h:262-330 -/
def compress {E : Type} [LinearOrder E] (M : Measure E) (fused : Bool) (x : Input) (fuel : Nat) (garbage : Nat → BitRates)
    (e : Meta.Extra) (s : Meta.Settings) (src : Meta.Source) (f : ClipFlags) : Option (List (BitVec 8)) := do
  let rates ← searchAll M fused x fuel garbage
  (ratedClip x (ratesAt rates)).quantize.compress e s src f

end Acl.Compressor
