import Verif.Transform.RateCache
import Verif.Transform.Compressor
/-
The cache with the streams of a clip that is compressed.
/repo/includes/acl/compression/impl/quantize.transform.h:144-180 (quantization_context), 771-868 (calculate_max_error_at_bit_rate_object)
-/
namespace Acl.RateCache
open Acl.F32 Acl.Transform Acl.Search Acl.Compressor

/-- quantize.transform.h:154: memory for the samples of the first segment -/
def configOf (x : Input) : Config where
  numTransforms := x.parents.length
  numSamples := x.clip.sizes.getD 0 0
  hasScale := x.clip.hasScale
  isVariable := x.clip.isVariable

/-- The streams of segment `g`: X, Y and Z of the samples (`sampled` in Compressor.lean says what they are) -/
def streamsOf (fused : Bool) (x : Input) (g : Nat) : Streams (Axis → ℚ) ℚ where
  isDefault := fun t kind => ((x.bones t).flags kind).isDefault
  isConstant := fun t kind => ((x.bones t).flags kind).isConstant
  default := fun t kind => constantValue (x.bones t) kind
  constant := fun t kind => constantValue (x.bones t) kind
  sampleAt := fun t kind key rate => (x.bones t).measured fused x.clip g kind key rate
  sampleFull := fun t kind key lane => (x.bones t).value kind lane (x.clip.start g + key)
  key := fun time => (uniformSampleKey x.clip.numSamples x.sampleRate (x.clip.start g) (x.clip.sizes.getD g 0) time).getD 0
  parents := x.parents

def poseOf (t : Transform (Axis → ℚ)) : Pose
  | .rotation => t.rotation
  | .translation => t.translation
  | .scale => t.scale

/-- track_bit_rate_database.h:895, lossy_local_pose: the transforms of the bones that are sampled replace what was there -/
def writePose (pose : List Pose) (out : List (Nat × Transform (Axis → ℚ))) : List Pose :=
  out.foldl (fun p e => p.set e.1 (poseOf e.2)) pose

/-- quantize.transform.h:673-769 calculate_max_error_at_bit_rate_local -/
def measureLocal {E A : Type} [LinearOrder E] (M : Measure E) (x : Input) (g : Nat) (rates : BitRates) (bone : Nat) (pose : List Pose)
    (next : E → Client (Axis → ℚ) ℚ A) : Client (Axis → ℚ) ℚ A :=
  measure (.single bone) rates (x.clip.sizes.getD g 0) (sampleTime x.sampleRate x.duration (x.clip.start g))
    (fun i out => M.localError bone (x.clip.start g + i) ((writePose pose out).getD bone fun _ _ => 0)) (M.precision bone) true M.zero next

/-- quantize.transform.h:771-868 calculate_max_error_at_bit_rate_object; `pose` is what lossy_local_pose held -/
def measureObject {E A : Type} [LinearOrder E] (M : Measure E) (x : Input) (g : Nat) (rates : BitRates) (bone : Nat) (untilTooHigh : Bool)
    (pose : List Pose) (next : E → Client (Axis → ℚ) ℚ A) : Client (Axis → ℚ) ℚ A :=
  measure (.chain bone) rates (x.clip.sizes.getD g 0) (sampleTime x.sampleRate x.duration (x.clip.start g))
    (fun i out => M.objectError bone (x.clip.start g + i) (writePose pose out)) (M.precision bone) untilTooHigh M.zero next

end Acl.RateCache
