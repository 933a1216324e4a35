import Verif.Transform.Quantize
import Verif.Props.C38
/-
Error of the quantization of one component, in terms of the samples only.
-/
namespace Acl.Quantize
open Acl.F32 Acl.Lerp Acl.ScalarPacking Acl.RangeReduction Acl.C38 Acl.C39

attribute [local irreducible] maxValue

/-- Specification: bounds on the samples of one component: the spread over the segment, over the clip, and the magnitude. -/
structure Bounds (S : Samples) (Ws Wc M : ℚ) : Prop where
  segment : ∀ a ∈ S.segment, ∀ b ∈ S.segment, a - b ≤ Ws
  clip : ∀ a ∈ S.clip, ∀ b ∈ S.clip, a - b ≤ Wc
  magnitude : ∀ a ∈ S.clip, |a| ≤ M
  limit : M ≤ 10 ^ 10

variable {S : Samples} {Ws Wc M : ℚ}

theorem clip_nonempty (S : Samples) : S.clip ≠ [] := by
  obtain ⟨s0, hs0⟩ := List.exists_mem_of_ne_nil _ S.nonempty
  exact List.ne_nil_of_mem (S.sub s0 hs0)

theorem clip_facts (S : Samples) : IsFloat (clipRange S).min ∧ IsFloat (clipRange S).extent := by
  obtain ⟨mn, mx, e, hb, hf, hov⟩ := clipRange_spec S
  rw [e]
  exact ⟨hf, isFloat_rnd hov⟩

/-- The bounds of the clip range are samples. -/
theorem clip_mem (B : Bounds S Ws Wc M) : ∃ mn mx, mn ∈ S.clip ∧ mx ∈ S.clip ∧ (∀ s ∈ S.clip, mn ≤ s ∧ s ≤ mx) ∧
    clipRange S = Range.mk mn mx (rnd (mx - mn)) := by
  obtain ⟨mn, mx, e, hb, h1, h2⟩ := trackRange_spec (clip_nonempty S)
  obtain ⟨s, hs⟩ := List.exists_mem_of_ne_nil _ (clip_nonempty S)
  have hm := abs_le.mp (B.magnitude s hs)
  have hl := B.limit
  norm_num at hl
  refine ⟨mn, mx, ?_, ?_, hb, e⟩
  · rcases h1 with h1 | h1
    · have : mn = s := le_antisymm (hb s hs).1 (by linarith [hm.2])
      rw [this]; exact hs
    · exact h1
  · rcases h2 with h2 | h2
    · have : mx = s := le_antisymm (by linarith [hm.1]) (hb s hs).2
      rw [this]; exact hs
    · exact h2

theorem nonneg_Wc (B : Bounds S Ws Wc M) : 0 ≤ Wc := by
  obtain ⟨s, hs⟩ := List.exists_mem_of_ne_nil _ (clip_nonempty S)
  have := B.clip s hs s hs
  linarith

theorem nonneg_Ws (B : Bounds S Ws Wc M) : 0 ≤ Ws := by
  obtain ⟨s, hs⟩ := List.exists_mem_of_ne_nil _ S.nonempty
  have := B.segment s hs s hs
  linarith

theorem nonneg_M (B : Bounds S Ws Wc M) : 0 ≤ M := by
  obtain ⟨s, hs⟩ := List.exists_mem_of_ne_nil _ (clip_nonempty S)
  exact (abs_nonneg _).trans (B.magnitude s hs)

/-- The extent and the minimum of the clip range. -/
theorem clip_bound (B : Bounds S Ws Wc M) : (clipRange S).extent ≤ Wc * (1 + 1 / 2 ^ 24) + 1 / 10 ^ 20 ∧ |(clipRange S).min| ≤ M := by
  obtain ⟨mn, mx, h1, h2, hb, e⟩ := clip_mem B
  rw [e]
  refine ⟨?_, B.magnitude mn h1⟩
  have h3 := B.clip mx h2 mn h1
  have h4 := (hb mn h1).2
  have h5 := (abs_le.mp (rnd_err' (q := mx - mn) (B := Wc) (by rw [abs_of_nonneg (by linarith)]; exact h3))).2
  have h6 : pow2 (-150) ≤ 1 / 10 ^ 20 := by decide +kernel
  show rnd (mx - mn) ≤ _
  linarith

/-- The extent of the segment range, scaled back to the clip. -/
theorem segment_bound (B : Bounds S Ws Wc M) (hE : zeroExtent ≤ (clipRange S).extent) :
    (clipRange S).extent * (segRange S).extent ≤ Ws + (clipRange S).extent * (4 / 255 + 1 / 2 ^ 18) := by
  have hN := normalizedSegment_ok S
  obtain ⟨⟨lo, hlo, h1⟩, ⟨hi, hhi, h2⟩⟩ := C39_tight _ hN
  obtain ⟨vlo, hvlo, rfl⟩ := List.mem_map.mp hlo
  obtain ⟨vhi, hvhi, rfl⟩ := List.mem_map.mp hhi
  obtain ⟨mn, mx, e, hb, hf, hov⟩ := clipRange_spec S
  have key : ∀ v ∈ S.segment, |normalizeSample v (clipRange S) * (clipRange S).extent - (v - mn)| ≤ (clipRange S).extent / 2 ^ 22 := by
    intro v hv
    have hE' := hE
    rw [e] at hE' ⊢
    exact (normalize_err (v := v) (mn := mn) (mx := mx) hE' (hb v (S.sub v hv)).1
      (rnd_mono (by linarith [(hb v (S.sub v hv)).2]))).2.2.1
  have k1 := abs_le.mp (key vlo hvlo)
  have k2 := abs_le.mp (key vhi hvhi)
  have hs := B.segment vhi hvhi vlo hvlo
  have hpos : 0 ≤ (clipRange S).extent := (zeroExtent_pos.trans_le hE).le
  have e2 : (segmentRange (normalizedSegment S)).extent = (segRange S).extent := rfl
  rw [e2] at h2
  have e3 : (segmentRange (normalizedSegment S)).min = (segRange S).min := rfl
  rw [e3] at h1 h2
  have h3 : (segRange S).extent ≤ normalizeSample vhi (clipRange S) - normalizeSample vlo (clipRange S) + (4 / 255 + 1 / 2 ^ 19) := by
    linarith
  have h4 := mul_le_mul_of_nonneg_left h3 hpos
  rw [mul_add, mul_sub] at h4
  generalize (clipRange S).extent = E at *
  generalize normalizeSample vhi (clipRange S) = a at *
  generalize normalizeSample vlo (clipRange S) = b at *
  rw [mul_comm a E] at k2
  rw [mul_comm b E] at k1
  nlinarith [k1.1, k1.2, k2.1, k2.2]

/-- Specification: the error of a component quantized on `n` bits with both ranges. -/
def segmentError (n : Nat) (Ws Wc M : ℚ) : ℚ := (Ws + Wc / 60) * halfStep n + Wc / 2 ^ 18 + M / 2 ^ 24 + 2 / 10 ^ 9

/-- Specification: the error of a component quantized on `n` bits with the range of the clip only. -/
def clipError (n : Nat) (Wc M : ℚ) : ℚ := Wc * halfStep n + Wc / 2 ^ 18 + M / 2 ^ 24 + 2 / 10 ^ 9

theorem zeroExtent_le : zeroExtent ≤ 3 / 2 / 10 ^ 9 := by decide +kernel

/-- Several segments. -/
theorem segment_error (B : Bounds S Ws Wc M) (fused : Bool) (n : Nat) (h1 : 1 ≤ n) (hn : n ≤ 23) (v : ℚ) (hv : v ∈ S.segment) :
    ∃ range q, storeSegmentRange (segRange S) = some range ∧ encode (clipRange S) (segRange S) n v = some q ∧ q < 2 ^ n ∧
      |decode fused (clipRange S) (loadSegmentRange range) n q - v| ≤ segmentError n Ws Wc M := by
  have w1 := nonneg_Ws B
  have w2 := nonneg_Wc B
  have w3 := nonneg_M B
  have hh := halfStep_bounds h1
  by_cases hE : zeroExtent ≤ (clipRange S).extent
  · obtain ⟨range, q, r1, r2, r3, r4, -⟩ := C38_error fused S n h1 hn hE v hv
    refine ⟨range, q, r1, r2, r3, r4.trans ?_⟩
    obtain ⟨b1, b2⟩ := clip_bound B
    have b3 := segment_bound B hE
    unfold segmentError
    have b4 := mul_le_mul_of_nonneg_right b3 hh.1
    have b5 : Ws + (clipRange S).extent * (4 / 255 + 1 / 2 ^ 18) ≤ Ws + Wc / 60 + 1 / 10 ^ 20 := by
      have := mul_le_mul_of_nonneg_right b1 (by norm_num : (0 : ℚ) ≤ 4 / 255 + 1 / 2 ^ 18)
      norm_num at this ⊢
      linarith
    have b6 := mul_le_mul_of_nonneg_right b5 hh.1
    have b7 : (Ws + Wc / 60 + 1 / 10 ^ 20) * halfStep n ≤ (Ws + Wc / 60) * halfStep n + 1 / 10 ^ 20 := by
      rw [add_mul _ (1 / 10 ^ 20 : ℚ)]
      have : (1 / 10 ^ 20 : ℚ) * halfStep n ≤ 1 / 10 ^ 20 * 1 := mul_le_mul_of_nonneg_left (by linarith [hh.2]) (by norm_num)
      linarith
    have b8 : (clipRange S).extent / 2 ^ 19 ≤ Wc / 2 ^ 18 + 1 / 10 ^ 20 := by
      rw [div_le_iff₀ (by norm_num)]
      norm_num at b1 ⊢
      linarith
    have b9 : |(clipRange S).min| / 2 ^ 24 ≤ M / 2 ^ 24 := div_le_div_of_nonneg_right b2 (by norm_num)
    norm_num at b4 b6 b7 b8 b9 ⊢
    linarith
  · push Not at hE
    obtain ⟨range, q, r1, r2, -, r4⟩ := C38_degenerate fused S n h1 hn hE v hv
    have hN := normalizedSegment_ok S
    have hmem : normalizeSample v (clipRange S) ∈ normalizedSegment S := List.mem_map_of_mem hv
    obtain ⟨hn2, -⟩ := C39_normalized _ hN _ hmem
    obtain ⟨q', hq', hlt⟩ := Acl.C07.C07_pack_fits (normalizeSample (normalizeSample v (clipRange S)) (segRange S)) n hn2.1 hn2.2 hn
    have r2' : packUnsigned (normalizeSample (normalizeSample v (clipRange S)) (segRange S)) n = some q := r2
    rw [r2'] at hq'
    cases hq'
    refine ⟨range, q, r1, r2, hlt, r4.trans (zeroExtent_le.trans ?_)⟩
    unfold segmentError
    have : 0 ≤ (Ws + Wc / 60) * halfStep n := mul_nonneg (by positivity) hh.1
    have : 0 ≤ Wc / 2 ^ 18 := by positivity
    have : 0 ≤ M / 2 ^ 24 := by positivity
    norm_num at *
    linarith

/-- One segment, and the constant of a segment. -/
theorem clip_error (B : Bounds S Ws Wc M) (fused : Bool) (n : Nat) (h1 : 1 ≤ n) (hn : n ≤ 23) (v : ℚ) (hv : v ∈ S.clip) :
    ∃ q, encodeClipOnly (clipRange S) n v = some q ∧ q < 2 ^ n ∧
      |decodeClipOnly fused (clipRange S) n q - v| ≤ clipError n Wc M := by
  have w2 := nonneg_Wc B
  have w3 := nonneg_M B
  have hh := halfStep_bounds h1
  by_cases hE : zeroExtent ≤ (clipRange S).extent
  · obtain ⟨q, r2, r3, r4⟩ := C38_single_segment fused S n h1 hn hE v hv
    refine ⟨q, r2, r3, r4.trans ?_⟩
    obtain ⟨b1, b2⟩ := clip_bound B
    unfold clipError
    have b4 := mul_le_mul_of_nonneg_right b1 hh.1
    have b7 : (Wc * (1 + 1 / 2 ^ 24) + 1 / 10 ^ 20) * halfStep n ≤ Wc * halfStep n + Wc / 2 ^ 24 + 1 / 10 ^ 20 := by
      have e : (Wc * (1 + 1 / 2 ^ 24) + 1 / 10 ^ 20) * halfStep n = Wc * halfStep n + (Wc / 2 ^ 24 + 1 / 10 ^ 20) * halfStep n := by ring
      rw [e]
      have : (Wc / 2 ^ 24 + 1 / 10 ^ 20) * halfStep n ≤ (Wc / 2 ^ 24 + 1 / 10 ^ 20) * 1 :=
        mul_le_mul_of_nonneg_left (by linarith [hh.2]) (by positivity)
      linarith
    have b8 : (clipRange S).extent / 2 ^ 20 ≤ Wc / 2 ^ 19 + 1 / 10 ^ 20 := by
      rw [div_le_iff₀ (by norm_num)]
      norm_num at b1 ⊢
      linarith
    have b9 : |(clipRange S).min| / 2 ^ 24 ≤ M / 2 ^ 24 := div_le_div_of_nonneg_right b2 (by norm_num)
    norm_num at b4 b7 b8 b9 ⊢
    linarith
  · push Not at hE
    have h0 : normalizeSample v (clipRange S) = 0 := by unfold normalizeSample; rw [if_pos hE]
    have hq : encodeClipOnly (clipRange S) n v = some 0 := by
      unfold encodeClipOnly
      rw [h0]
      have := Acl.C07.C07_round_trip 0 n h1 hn (Nat.pow_pos (by norm_num))
      rwa [(Acl.C07.C07_unpack_unit 0 n h1 hn (Nat.pow_pos (by norm_num))).2.2.1] at this
    refine ⟨0, hq, Nat.pow_pos (by norm_num), ?_⟩
    obtain ⟨mn, mx, m1, m2, hb, e⟩ := clip_mem B
    have hf : rnd mn = mn := rnd_of_isFloat (S.floats mn m1)
    have hd : decodeClipOnly fused (clipRange S) n 0 = mn := by
      unfold decodeClipOnly
      rw [(Acl.C07.C07_unpack_unit 0 n h1 hn (Nat.pow_pos (by norm_num))).2.2.1, e]
      cases fused <;> simp [mulAdd, fadd, fmul, rnd_zero, hf]
    rw [hd]
    rw [e] at hE
    have hE' : rnd (mx - mn) < zeroExtent := hE
    have hle : mx - mn ≤ zeroExtent := by
      by_contra hc
      push Not at hc
      have := rnd_mono hc.le
      rw [zeroExtent_float] at this
      linarith
    obtain ⟨v1, v2⟩ := hb v hv
    have z := zeroExtent_le
    unfold clipError
    have p1 : 0 ≤ Wc * halfStep n := mul_nonneg w2 hh.1
    have p2 : 0 ≤ Wc / 2 ^ 18 := by positivity
    have p3 : 0 ≤ M / 2 ^ 24 := by positivity
    norm_num at z p2 p3 ⊢
    rw [abs_le]
    constructor <;> linarith

end Acl.Quantize
