import Verif.Transform.SampleStreams
import Verif.Transform.QuantizeClose
/-
The samples the compressor measures are the ones the decoder computes.
-/
namespace Acl.Transform
open Acl.F32 Acl.Lerp Acl.ScalarPacking Acl.RangeReduction Acl.Segmenting

attribute [local irreducible] maxValue

variable {r : RawClip}

/-- Rounding in place is packing and unpacking. -/
theorem decay_eq {x : ℚ} {n : Nat} (h0 : 0 ≤ x) (h1 : x ≤ 1) (hn : n ≤ 23) : decay x n = unpackUnsigned (RawBone.pack x n) n := by
  obtain ⟨e, hlt⟩ := pack_spec h0 h1 hn
  have h24 : RawBone.pack x n < 2 ^ 24 := lt_of_lt_of_le hlt (Nat.pow_le_pow_right (by norm_num) (by omega))
  unfold packUnsigned castU32 at e
  split at e
  · rename_i hz
    have e' := Option.some.inj e
    unfold decay unpackUnsigned
    rw [ofNat_eq h24, ← e']
    congr 1
    have : ((roundSymmetric (fmul x (ofNat (maxValue n)))).toNat : ℤ) = roundSymmetric (fmul x (ofNat (maxValue n))) := Int.toNat_of_nonneg hz.1
    exact_mod_cast this.symm
  · cases e

section
variable (h : RawOk r) {b : RawBone} (hb : b ∈ r.bones) {kind : Kind} (ha : (b.flags kind).isConstant = false) {g : Nat}
  (hg : g < r.sizes.length) (lane : Axis)

include h hb ha hg

theorem sample_measured (fused : Bool) {i : Nat} (hi : i < r.sizes.getD g 0) :
    evalSample fused lane (C49.sampleOf r.quantize (b.quantize r) kind g i) = b.measured fused r g kind i (b.bitRate g kind) lane := by
  have hk : kHighestBitRate = 24 := by decide
  have hst : (b.quantize r).stream g kind = b.streamOf r g kind := rfl
  unfold C49.sampleOf RawBone.measured
  rw [hst, segments_length]
  unfold RawBone.streamOf
  cases hv : r.isVariable kind with
  | false =>
    rw [if_neg (by simp), if_pos rfl]
    unfold Stream.sample
    dsimp only
    unfold evalSample evalSegment evalClip
    dsimp only
    unfold RawBone.fixedSample
    split <;> rfl
  | true =>
    obtain ⟨hrate, hone⟩ := h.rate b hb kind ha hv g hg
    obtain ⟨-, v1, v2⟩ := variableSample_rate (r := r) i hrate
    rw [if_pos rfl, if_neg (by simp)]
    unfold Stream.sample
    dsimp only
    by_cases h0 : b.bitRate g kind = 0
    · rw [if_pos h0]
      have hraw : isRawBitRate (b.bitRate g kind) = false := by rw [h0]; decide
      have hcon : isConstantBitRate (b.bitRate g kind) = true := by rw [h0]; decide
      rw [hraw, if_neg (by simp)]
      unfold evalSample
      dsimp only
      rw [clip_stored h hb ha hg lane]
      unfold RawBone.undoClip RawBone.undoSegment RawBone.decayed
      rw [if_neg (by rw [hcon]; simp), if_pos hcon]
      obtain ⟨c0, c1⟩ := clipNormalized_unit h hb ha hg lane (h.size_pos hg)
      rw [Nat.add_zero] at c0 c1
      rw [decay_eq c0 c1 (by decide)]
      have hlt := (pack_spec c0 c1 (show 16 ≤ 23 by decide)).2
      unfold evalSegment
      dsimp only
      unfold RawBone.variableSample
      rw [if_pos hcon]
      unfold evalRaw
      cases lane <;> (dsimp only; rw [BitVec.toNat_ofNat, Nat.mod_eq_of_lt hlt])
    · rw [if_neg h0]
      have hcon : isConstantBitRate (b.bitRate g kind) = false := by unfold isConstantBitRate; simpa using h0
      by_cases h24 : b.bitRate g kind = 24
      · have hraw : isRawBitRate (b.bitRate g kind) = true := by rw [h24]; decide
        rw [if_pos h24, if_pos hraw, v1 h24]
        rfl
      · have hraw : isRawBitRate (b.bitRate g kind) = false := by unfold isRawBitRate; rw [hk]; simpa using h24
        rw [if_neg h24, hraw, if_neg (show ¬ (false = true) from by simp), v2 h0 h24]
        have hn23 : b.bitRate g kind ≤ 23 := by omega
        unfold evalSample
        dsimp only
        rw [clip_stored h hb ha hg lane]
        obtain ⟨n0, n1⟩ := normalized_unit h hb ha hg lane hi
        have hlt := (pack_spec n0 n1 hn23).2
        have hq32 : RawBone.pack (b.normalized r g kind lane i) (b.bitRate g kind) < 2 ^ 32 :=
          lt_of_lt_of_le hlt (Nat.pow_le_pow_right (by norm_num) (by omega))
        have hraw : evalRaw lane (.quantized (b.bitRate g kind)
              (BitVec.ofNat 32 (RawBone.pack (b.normalized r g kind .x i) (b.bitRate g kind)))
              (BitVec.ofNat 32 (RawBone.pack (b.normalized r g kind .y i) (b.bitRate g kind)))
              (BitVec.ofNat 32 (RawBone.pack (b.normalized r g kind .z i) (b.bitRate g kind)))) =
            b.decayed r g kind i (b.bitRate g kind) lane := by
          unfold RawBone.decayed
          rw [hcon, if_neg (by simp), numBits_small hn23, Option.getD_some, decay_eq n0 n1 hn23]
          unfold evalRaw
          cases lane <;> (dsimp only; rw [BitVec.toNat_ofNat, Nat.mod_eq_of_lt hq32])
        rw [hraw]
        unfold RawBone.undoClip RawBone.undoSegment
        by_cases hm : r.sizes.length > 1
        · rw [if_pos (show decide (r.sizes.length > 1) = true from by simpa using hm), if_pos ⟨hm, hcon⟩]
          obtain ⟨range, hr, g1, g2, hload⟩ := C39.C39_stored _ (C38.normalizedSegment_ok (samplesOf h b hb kind ha g hg lane))
          have e : C39.segmentRange (C38.normalizedSegment (samplesOf h b hb kind ha g hg lane)) = b.segmentRangeOf r g kind lane :=
            segRange_samples h hb ha hg lane
          rw [e] at hr hload
          rw [segment_stored h hb ha hg lane fused _ hr g1 g2, hload]
        · rw [if_neg (show ¬ (decide (r.sizes.length > 1) = true) from by simpa using hm), if_neg (by simp [hm])]
          rfl

end

end Acl.Transform
