import Verif.Core.Interpolation
import Verif.Scalar.Quantize
/-
Dropping the last sample of a looping clip.
/repo/includes/acl/compression/impl/optimize_looping.scalar.h:45-103
/repo/includes/acl/compression/impl/optimize_looping.transform.h:54-170 (is_clip_looping), 172-245
/repo/includes/acl/compression/impl/compress.scalar.impl.h:157, compress.transform.impl.h:427 (the header flag)
-/
namespace Acl.LoopOptimize
open Acl.F32 Acl.Interp

/-- The compression context of either kind of track list, as far as looping goes. A sample is the samples of one
track at one time. -/
structure Context (S : Type) where
  numTracks : Nat
  numSamples : Nat
  sampleRate : ℚ
  looping : Looping
  /-- by track and time -/
  sample : Nat → Nat → S

/-- The test of the last samples: optimize_looping.scalar.h:63-80, optimize_looping.transform.h:111-167. `near track a b`
compares the first sample `a` with the last sample `b`. -/
def isLooping {S : Type} (near : Nat → S → S → Bool) (c : Context S) : Bool :=
  (List.range c.numTracks).all fun i => near i (c.sample i 0) (c.sample i (c.numSamples - 1))

/-- optimize_looping.scalar.h:45-103, optimize_looping.transform.h:172-240. `isRaw` is the raw format test of the
transform variant (178-181), false for scalar tracks. -/
def optimizeLooping {S : Type} (enabled isRaw : Bool) (near : Nat → S → S → Bool) (c : Context S) : Context S :=
  if !enabled then c
  else if c.looping = .wrap then c
  else if isRaw then c
  else if c.numSamples ≤ 1 then c
  else if c.numTracks = 0 then c
  else if isLooping near c then
    -- make_copy with one sample less, strip_last_sample
    { c with numSamples := c.numSamples - 1, looping := .wrap }
  else c

/-- The comparison of scalar tracks: rtm::vector_all_near_equal with the precision of the track. -/
def nearScalar (components : Nat) (precision : Nat → ℚ) (track : Nat) (a b : List (BitVec 32)) : Bool :=
  (List.range components).all fun k => decide (|fsub (ofBits (a.getD k 0)) (ofBits (b.getD k 0))| ≤ precision track)

/-- The comparison of transform tracks: optimize_looping.transform.h:158-166, the error of the error metric must not
exceed the precision of the shell. The metric is an arbitrary function. -/
def nearTransform {S : Type} (error : Nat → S → S → ℚ) (precision : Nat → ℚ) (track : Nat) (first last : S) : Bool :=
  !decide (error track first last > precision track)

/-- The header of the compressed clip: compress.scalar.impl.h:143-157, compress.transform.impl.h:413-427 (the version
is the latest one). Simplified: both compressors store `num_samples = 0` when no track is output (compress.scalar.impl.h:155);
here at least one track is. -/
def headerOf {S : Type} (c : Context S) : Clip := Clip.mk c.numSamples c.sampleRate false (c.looping == .wrap)

end Acl.LoopOptimize
