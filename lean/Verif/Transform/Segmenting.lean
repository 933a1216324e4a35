/-
Model of the splitting of a clip into segments.
/repo/includes/acl/compression/impl/segment.transform.h
/repo/includes/acl/compression/impl/write_segment_data.h

uint32_t values are modelled as `Nat`: faithful while num_samples + ideal_num_samples < 2^32 (the code has
no check; the only intermediate values are at most num_samples + ideal_num_samples).
-/
namespace Acl.Segmenting

/-- segment_context.h:55-66 `compression_segmenting_settings`. -/
structure Settings where
  ideal : Nat := 16
  max : Nat := 31
  deriving DecidableEq, Repr

/-- segment_context.h:71-80 `is_valid`. -/
def Settings.isValid (s : Settings) : Bool := !(s.ideal < 8) && !(s.ideal > s.max)

/-- segment.transform.h:109-116, the inner `for` loop: give one sample to each segment but the last, until
the last one is empty. Arguments: the preceding segments and the last segment's samples. -/
def distributePass : List Nat → Nat → List Nat × Nat
  | [], last => ([], last)
  | x :: xs, last =>
    if last = 0 then (x :: xs, 0)            -- No more samples to distribute, we are done
    else
      let (ys, last') := distributePass xs (last - 1)
      ((x + 1) :: ys, last')

/-- segment.transform.h:107-117, the `while` loop; `fuel` bounds the number of passes (each pass moves at
least one sample when there is a preceding segment). -/
def distribute : Nat → List Nat → Nat → List Nat × Nat
  | 0, xs, last => (xs, last)
  | fuel + 1, xs, last =>
    if last = 0 then (xs, last)
    else
      let (ys, last') := distributePass xs last
      distribute fuel ys last'

/-- segment.transform.h:65-127 `split_samples_per_segment`; `none` when the clip is not split
(num_samples ≤ max_num_samples). Otherwise the number of samples of the segments used. -/
def splitSamplesPerSegment (numSamples : Nat) (s : Settings) : Option (List Nat) :=
  if numSamples ≤ s.max then none
  else
    let numEstimated := (numSamples + s.ideal - 1) / s.ideal
    let maxNumSamples := numEstimated * s.ideal
    let lastIndex := numEstimated - 1
    let numLast := s.ideal - (maxNumSamples - numSamples)
    let preceding := List.replicate lastIndex s.ideal
    let totalSlack := lastIndex * (s.max - s.ideal)
    if totalSlack ≥ numLast then some (distribute numLast preceding numLast).1
    else some (preceding ++ [numLast])

/-- segment.transform.h:129-145 `segment_streams`: number of samples of every segment of the clip; a clip
that is not split has one segment with all its samples (clip_context.h `initialize_clip_context`). -/
def segmentSizes (numSamples : Nat) (s : Settings) : List Nat :=
  match splitSamplesPerSegment numSamples s with
  | none => [numSamples]
  | some xs => xs

/-- segment.transform.h:155-169, 236: `clip_sample_offset` of each segment, a running sum. -/
def clipSampleOffsets : Nat → List Nat → List Nat
  | _, [] => []
  | off, n :: ns => off :: clipSampleOffsets (off + n) ns

/-- write_segment_data.h:48-66 `write_segment_start_indices`: the offsets and the sentinel. -/
def segmentStartIndices (sizes : List Nat) : List Nat := clipSampleOffsets 0 sizes ++ [0xFFFFFFFF]

/-- segment.transform.h:184-232: each segment receives, for an animated sub-track, the memcpy of its
`num_samples_in_segment` samples starting at `clip_sample_index`. -/
def segmentSamples {α : Type} (samples : List α) : Nat → List Nat → List (List α)
  | _, [] => []
  | off, n :: ns => (samples.drop off).take n :: segmentSamples samples (off + n) ns

end Acl.Segmenting
