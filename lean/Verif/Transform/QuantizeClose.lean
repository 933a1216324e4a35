import Verif.Transform.QuantizeClip
/-
The samples the decoder computes for a quantized clip are close to those it was quantized from.
-/
namespace Acl.Transform
open Acl.F32 Acl.Lerp Acl.ScalarPacking Acl.RangeReduction Acl.Segmenting Acl.Quantize

attribute [local irreducible] maxValue

variable {r : RawClip}

/-- Specification: bounds on a component of an animated sub-track: its spread over a segment and over the clip, and its
magnitude (a vector beyond 1e10 is not normalized properly: normalize.transform.h:56). -/
structure Spread (r : RawClip) (b : RawBone) (kind : Kind) (lane : Axis) (g : Nat) (Ws Wc M : ℚ) : Prop where
  segment : ∀ i j, i < r.sizes.getD g 0 → j < r.sizes.getD g 0 →
    b.value kind lane (r.start g + i) - b.value kind lane (r.start g + j) ≤ Ws
  clip : ∀ n n', n < r.numSamples → n' < r.numSamples → b.value kind lane n - b.value kind lane n' ≤ Wc
  magnitude : ∀ n, n < r.numSamples → |b.value kind lane n| ≤ M
  limit : M ≤ 10 ^ 10

/-- Specification: the error of an animated sub-track in a segment, from its bit rate. At full precision there is none;
with the constant bit rate all the samples of the segment become the first one, on 16 bits. -/
def tolerance (r : RawClip) (b : RawBone) (kind : Kind) (g : Nat) (Ws Wc M : ℚ) : ℚ :=
  if r.isVariable kind = false ∨ b.bitRate g kind = 24 then 0
  else if b.bitRate g kind = 0 then Ws + clipError 16 Wc M
  else if r.sizes.length = 1 then clipError (b.bitRate g kind) Wc M
  else segmentError (b.bitRate g kind) Ws Wc M

section
variable (h : RawOk r) {b : RawBone} (hb : b ∈ r.bones) {kind : Kind} (ha : (b.flags kind).isConstant = false) {g : Nat}
  (hg : g < r.sizes.length) (lane : Axis)

theorem bounds_samples {Ws Wc M : ℚ} (hs : Spread r b kind lane g Ws Wc M) : Bounds (samplesOf h b hb kind ha g hg lane) Ws Wc M where
  segment := by
    intro x hx y hy
    obtain ⟨i, hi, rfl⟩ := List.mem_map.mp hx
    obtain ⟨j, hj, rfl⟩ := List.mem_map.mp hy
    exact hs.segment i j (List.mem_range.mp hi) (List.mem_range.mp hj)
  clip := by
    intro x hx y hy
    obtain ⟨i, hi, rfl⟩ := List.mem_map.mp hx
    obtain ⟨j, hj, rfl⟩ := List.mem_map.mp hy
    exact hs.clip i j (List.mem_range.mp hi) (List.mem_range.mp hj)
  magnitude := by
    intro x hx
    obtain ⟨i, hi, rfl⟩ := List.mem_map.mp hx
    exact hs.magnitude i (List.mem_range.mp hi)
  limit := hs.limit

include h hb ha hg

/-- The clip range as it is stored is exact. -/
theorem clip_stored (fused : Bool) (u : ℚ) : evalClip fused lane u (some ((b.quantize r).clipRange kind)) =
    mulAdd fused u (b.clipRangeOf r kind lane).extent (b.clipRangeOf r kind lane).min := by
  obtain ⟨f1, f2⟩ := clip_facts (samplesOf h b hb kind ha g hg lane)
  rw [clipRange_samples] at f1 f2
  unfold evalClip RawBone.quantize
  cases lane <;> (dsimp only [Vec3.lane]; rw [ofBits_toBits f1, ofBits_toBits f2])

/-- The segment range as it is stored. -/
theorem segment_stored (fused : Bool) (u : ℚ) {range : Nat × Nat} (hr : storeSegmentRange (b.segmentRangeOf r g kind lane) = some range)
    (h1 : range.1 < 256) (h2 : range.2 < 256) : evalSegment fused lane u (some ((b.quantize r).segmentRange g kind)) =
    mulAdd fused u (loadSegmentRange range).2 (loadSegmentRange range).1 := by
  unfold storeSegmentRange at hr
  simp only [Option.bind_eq_bind, Option.bind_eq_some_iff, Option.pure_def, Option.some.injEq] at hr
  obtain ⟨mn, e1, ex, e2, rfl⟩ := hr
  have p1 : (RawBone.byte (b.segmentRangeOf r g kind lane).min).toNat = mn := by
    unfold RawBone.byte RawBone.pack
    rw [e1, Option.getD_some, BitVec.toNat_ofNat, Nat.mod_eq_of_lt h1]
  have p2 : (RawBone.byte (b.segmentRangeOf r g kind lane).extent).toNat = ex := by
    unfold RawBone.byte RawBone.pack
    rw [e2, Option.getD_some, BitVec.toNat_ofNat, Nat.mod_eq_of_lt h2]
  unfold evalSegment RawBone.quantize loadSegmentRange
  cases lane <;> (dsimp only [Range8.min, Range8.extent]; rw [p1, p2])

/-- **A key frame.** -/
theorem sample_close (fused : Bool) {i : Nat} (hi : i < r.sizes.getD g 0) {Ws Wc M : ℚ} (hs : Spread r b kind lane g Ws Wc M) :
    |evalSample fused lane (C49.sampleOf r.quantize (b.quantize r) kind g i) - b.value kind lane (r.start g + i)| ≤ tolerance r b kind g Ws Wc M := by
  have B := bounds_samples h hb ha hg lane hs
  have hseg : b.value kind lane (r.start g + i) ∈ (samplesOf h b hb kind ha g hg lane).segment :=
    List.mem_map.mpr ⟨i, List.mem_range.mpr hi, rfl⟩
  have hseg0 : b.value kind lane (r.start g) ∈ (samplesOf h b hb kind ha g hg lane).segment :=
    List.mem_map.mpr ⟨0, List.mem_range.mpr (h.size_pos hg), rfl⟩
  have hclip := (samplesOf h b hb kind ha g hg lane).sub _ hseg
  have hclip0 := (samplesOf h b hb kind ha g hg lane).sub _ hseg0
  have hst : (b.quantize r).stream g kind = b.streamOf r g kind := rfl
  unfold C49.sampleOf tolerance
  rw [hst, segments_length]
  unfold RawBone.streamOf
  cases hv : r.isVariable kind with
  | false =>
    rw [if_neg (by simp), if_pos (Or.inl rfl)]
    unfold Stream.sample
    dsimp only
    have e : evalRaw lane (b.fixedSample r g kind i) = b.value kind lane (r.start g + i) := by
      unfold RawBone.fixedSample
      split <;> rfl
    unfold evalSample evalSegment evalClip
    dsimp only
    rw [e, sub_self, abs_zero]
  | true =>
    obtain ⟨hrate, hone⟩ := h.rate b hb kind ha hv g hg
    obtain ⟨-, v1, v2⟩ := variableSample_rate (r := r) i hrate
    rw [if_pos rfl]
    unfold Stream.sample
    dsimp only
    by_cases h0 : b.bitRate g kind = 0
    · rw [if_pos h0, if_neg (by rw [h0]; simp), if_pos h0]
      unfold evalSample
      dsimp only
      rw [clip_stored h hb ha hg lane]
      obtain ⟨q, hq, hlt, herr⟩ := clip_error B fused 16 (by decide) (by decide) _ hclip0
      rw [clipRange_samples] at hq herr
      have hraw : evalRaw lane (b.variableSample r g kind 0) = unpackUnsigned q 16 := by
        have e1 : RawBone.pack (b.clipNormalized r kind lane (r.start g)) 16 = q := by
          have : packUnsigned (b.clipNormalized r kind lane (r.start g)) 16 = some q := hq
          unfold RawBone.pack
          rw [this]; rfl
        unfold RawBone.variableSample isConstantBitRate
        rw [h0]
        simp only [BEq.rfl, if_true]
        unfold evalRaw
        cases lane <;> (dsimp only; rw [e1, BitVec.toNat_ofNat, Nat.mod_eq_of_lt hlt])
      unfold evalSegment
      dsimp only
      rw [hraw]
      have e2 : mulAdd fused (unpackUnsigned q 16) (b.clipRangeOf r kind lane).extent (b.clipRangeOf r kind lane).min =
        decodeClipOnly fused (b.clipRangeOf r kind lane) 16 q := rfl
      rw [e2]
      have h3 := hs.segment 0 i (h.size_pos hg) hi
      have h4 := hs.segment i 0 hi (h.size_pos hg)
      rw [Nat.add_zero] at h3 h4
      obtain ⟨k1, k2⟩ := abs_le.mp herr
      rw [abs_le]
      constructor <;> linarith
    · rw [if_neg h0]
      by_cases h24 : b.bitRate g kind = 24
      · rw [if_pos h24, if_pos (Or.inr h24)]
        unfold evalSample evalSegment evalClip
        dsimp only
        rw [v1 h24]
        show |ofBits ((b.sample kind (r.start g + i)).xyz.lane lane) - b.value kind lane (r.start g + i)| ≤ 0
        unfold RawBone.value
        rw [sub_self, abs_zero]
      · rw [if_neg h24, if_neg (show ¬ (true = false ∨ b.bitRate g kind = 24) from by simp [h24]), if_neg h0]
        have hn1 : 1 ≤ b.bitRate g kind := by omega
        have hn23 : b.bitRate g kind ≤ 23 := by omega
        unfold evalSample
        dsimp only
        rw [clip_stored h hb ha hg lane, v2 h0 h24]
        have hraw : ∀ q, q < 2 ^ b.bitRate g kind → packUnsigned (b.normalized r g kind lane i) (b.bitRate g kind) = some q →
            evalRaw lane (.quantized (b.bitRate g kind)
              (BitVec.ofNat 32 (RawBone.pack (b.normalized r g kind .x i) (b.bitRate g kind)))
              (BitVec.ofNat 32 (RawBone.pack (b.normalized r g kind .y i) (b.bitRate g kind)))
              (BitVec.ofNat 32 (RawBone.pack (b.normalized r g kind .z i) (b.bitRate g kind)))) = unpackUnsigned q (b.bitRate g kind) := by
          intro q hlt hq
          have hq32 : q < 2 ^ 32 := lt_of_lt_of_le hlt (Nat.pow_le_pow_right (by norm_num) (by omega))
          have e1 : RawBone.pack (b.normalized r g kind lane i) (b.bitRate g kind) = q := by
            unfold RawBone.pack; rw [hq]; rfl
          unfold evalRaw
          cases lane <;> (dsimp only; rw [e1, BitVec.toNat_ofNat, Nat.mod_eq_of_lt hq32])
        by_cases hm : r.sizes.length = 1
        · rw [if_pos hm]
          obtain ⟨q, hq, hlt, herr⟩ := clip_error B fused (b.bitRate g kind) hn1 hn23 _ hclip
          rw [clipRange_samples] at hq herr
          have hq' : packUnsigned (b.normalized r g kind lane i) (b.bitRate g kind) = some q := by
            unfold RawBone.normalized
            rw [if_neg (by omega)]
            exact hq
          rw [hraw q hlt hq', if_neg (show ¬ (decide (r.sizes.length > 1) = true) from by simp [hm])]
          exact herr
        · rw [if_neg hm]
          have hmulti : 1 < r.sizes.length := by omega
          obtain ⟨range, q, hr, hq, hlt, herr⟩ := segment_error B fused (b.bitRate g kind) hn1 hn23 _ hseg
          rw [clipRange_samples, segRange_samples] at hq
          rw [clipRange_samples] at herr
          rw [segRange_samples] at hr
          have hq' : packUnsigned (b.normalized r g kind lane i) (b.bitRate g kind) = some q := by
            unfold RawBone.normalized
            rw [if_pos hmulti]
            exact hq
          obtain ⟨range', hr', g1, g2, -⟩ := C39.C39_stored _ (C38.normalizedSegment_ok (samplesOf h b hb kind ha g hg lane))
          have hrr : storeSegmentRange (b.segmentRangeOf r g kind lane) = some range' := by
            rw [← segRange_samples h hb ha hg lane]; exact hr'
          rw [hr] at hrr
          cases hrr
          rw [hraw q hlt hq', if_pos (show decide (r.sizes.length > 1) = true from by simp [hmulti]), segment_stored h hb ha hg lane fused _ hr g1 g2]
          exact herr

end

end Acl.Transform
