import Verif.Scalar.QuantizeLemmas
/-!
C48: a scalar track list is compressed within the precision asked for, track by track and component by component.
-/
namespace Acl.C48
open Acl.F32 Acl.Lerp Acl.ScalarPacking Acl.Scalar

attribute [local irreducible] maxValue

theorem quantized_ok (fused : Bool) (upper : ℚ) {r : RawList} (V : ValidSamples r) :
    C35.Quantized (quantizeList fused upper r) where
  reference := V.length
  quantized := fun i hi s => by simp [quantizeList, quantizedOf]
  rangeMin := fun i hi => by simp [quantizeList]
  rangeExtent := fun i hi => by simp [quantizeList]
  bitRate := fun i hi _ => by
    show 1 ≤ bitRateOf fused upper r i ∧ bitRateOf fused upper r i ≤ 24
    rcases bitRateOf_spec fused upper r i with h | ⟨h1, h2, -⟩
    · rw [h]; decide
    · omega
  fits := fun i hi _ h24 s v hv => by
    have h24' : bitRateOf fused upper r i ≠ 24 := h24
    have hv' : v ∈ quantizedOf fused upper r i s := hv
    show v.toNat < 2 ^ bitRateOf fused upper r i
    rcases bitRateOf_spec fused upper r i with h | ⟨h1, h2, -⟩
    · exact absurd h h24'
    · unfold quantizedOf at hv'
      rw [numBits_small _ (by omega)] at hv'
      obtain ⟨k, -, rfl⟩ := List.mem_map.mp hv'
      split
      · next hs =>
        obtain ⟨a, b⟩ := normalizedOf_unit V hi hs k
        obtain ⟨q, hq, hlt⟩ := packedOf_spec (n := bitRateOf fused upper r i) h2 a b
        rw [hq, BitVec.toNat_ofNat]
        exact lt_of_le_of_lt (Nat.mod_le _ _) hlt
      · exact Nat.two_pow_pos _

/-- Specification: the largest size of a frame, in bits. -/
def maxFrameBits (r : RawList) : Nat := r.outputIndices.length * (32 * numSampleElements r.trackType)

theorem frameBits_le (fused : Bool) (upper : ℚ) {r : RawList} (V : ValidSamples r) :
    C35.frameBits (quantizeList fused upper r) ≤ maxFrameBits r := by
  unfold C35.frameBits maxFrameBits
  have h : ∀ l : List Nat, (l.map fun i => if (quantizeList fused upper r).isConstant i then 0 else
      C35.bitsPerComponent ((quantizeList fused upper r).bitRate i) * numSampleElements (quantizeList fused upper r).trackType).sum ≤
      l.length * (32 * numSampleElements r.trackType) := by
    intro l
    induction l with
    | nil => simp
    | cons i l ih =>
      rw [List.map_cons, List.sum_cons, List.length_cons, Nat.succ_mul, Nat.add_comm]
      refine Nat.add_le_add ih ?_
      split
      · exact Nat.zero_le _
      · refine Nat.mul_le_mul_right _ ?_
        show C35.bitsPerComponent (bitRateOf fused upper r i) ≤ 32
        unfold C35.bitsPerComponent
        rcases bitRateOf_spec fused upper r i with h | ⟨h1, h2, -⟩
        · rw [if_pos h]
        · split <;> omega
  exact h _

section
variable {r : RawList} (V : ValidSamples r) {i : Nat} (hi : i ∈ r.outputIndices)
include V hi

/-- The key frame of an animated track, as the decoder computes it. -/
theorem sample_close (fused : Bool) (upper : ℚ) (hup : upper ≤ r.precision i) (h0 : 0 ≤ r.precision i) {f : Nat} (hf : f < r.numSamples)
    {k : Nat} (hk : k < numSampleElements r.trackType) :
    IsFloat (evalSample fused k (C35.sampleOf (quantizeList fused upper r) i f)) ∧
      |fsub (r.value i f k) (evalSample fused k (C35.sampleOf (quantizeList fused upper r) i f))| ≤ r.precision i := by
  have e0 : (quantizeList fused upper r).bitRate i = bitRateOf fused upper r i := rfl
  unfold C35.sampleOf
  rw [e0]
  rcases bitRateOf_spec fused upper r i with h | ⟨h1, h2, h3⟩
  · rw [if_pos h]
    have e : evalSample fused k (.raw ((quantizeList fused upper r).reference i f)) = r.value i f k := rfl
    rw [e]
    refine ⟨(value_ok V hi f k).1, ?_⟩
    unfold fsub
    rw [sub_self, rnd_zero, abs_zero]; exact h0
  · rw [if_neg (by omega)]
    obtain ⟨a, b⟩ := normalizedOf_unit V hi hf k
    obtain ⟨q, hq, hlt⟩ := packedOf_spec (n := bitRateOf fused upper r i) h2 a b
    obtain ⟨mx, -, -, mf, mb, -⟩ := range_ok V hi k
    obtain ⟨xf, x0, xb⟩ := extent_ok V hi k
    have hq32 : q < 2 ^ 32 := lt_of_lt_of_le hlt (Nat.pow_le_pow_right (by norm_num) (by omega))
    have e : evalSample fused k (.quantized (bitRateOf fused upper r i) ((quantizeList fused upper r).quantized i f)
        ((quantizeList fused upper r).rangeMin i) ((quantizeList fused upper r).rangeExtent i)) =
        mulAdd fused (decayOf (bitRateOf fused upper r i) (normalizedOf r i f k)) (rangeExtentOf r i k) (rangeMinOf r i k) := by
      show mulAdd fused (unpackUnsigned ((quantizedOf fused upper r i f).getD k 0).toNat (bitRateOf fused upper r i))
        (ofBits (((List.range (numSampleElements r.trackType)).map fun k => toBits (rangeExtentOf r i k)).getD k 0))
        (ofBits (((List.range (numSampleElements r.trackType)).map fun k => toBits (rangeMinOf r i k)).getD k 0)) = _
      rw [getD_map_range _ _ _ _ hk, getD_map_range _ _ _ _ hk, ofBits_toBits xf, ofBits_toBits mf]
      unfold quantizedOf
      rw [getD_map_range _ _ _ _ hk, numBits_small _ (by omega), if_pos hf, decayOf_eq h2 hq hlt, hq, BitVec.toNat_ofNat,
        Int.toNat_natCast, Nat.mod_eq_of_lt hq32]
    rw [e]
    constructor
    · rw [decayOf_eq h2 hq hlt]
      obtain ⟨u0, u1, -⟩ := C07.C07_unpack_unit q (bitRateOf fused upper r i) h1 h2 hlt
      exact mulAdd_float fused u0 u1 x0 xb mb
    · have h4 := h3 f hf
      unfold sampleOk at h4
      rw [List.all_eq_true] at h4
      have h5 := of_decide_eq_true (h4 k (List.mem_range.mpr hk))
      refine h5.trans ?_
      unfold laneThreshold
      split
      · exact le_rfl
      · exact hup

/-- The value of a constant track. -/
theorem constant_close (hc : isConstantTrack r i = true) {f : Nat} (hf : f < r.numSamples)
    {k : Nat} (hk : k < numSampleElements r.trackType) :
    IsFloat (r.value i 0 k) ∧ |fsub (r.value i f k) (r.value i 0 k)| ≤ r.precision i := by
  refine ⟨(value_ok V hi 0 k).1, ?_⟩
  unfold isConstantTrack at hc
  rw [List.all_eq_true] at hc
  have h := of_decide_eq_true (hc k (List.mem_range.mpr hk))
  obtain ⟨mx, e, hb, -⟩ := range_ok V hi k
  have b1 := hb f hf
  have b0 := hb 0 V.nonempty
  rw [e] at h
  refine le_trans ?_ h.le
  unfold fsub
  rw [abs_of_nonneg (rnd_nonneg (by linarith [b0.1, b0.2] : 0 ≤ mx - rangeMinOf r i k)), abs_le]
  constructor
  · rw [← rnd_neg]; exact rnd_mono (by linarith [b0.2, b1.1])
  · exact rnd_mono (by linarith [b0.1, b1.2])

end

/-- Specification: the output `v` of a track, component `k`, comes from two values within the precision of the two key
frames, interpolated with `alpha`; a constant track gives one value, within the precision of both. -/
def Within (fused : Bool) (precision x0 x1 out alpha : ℚ) : Prop :=
  ∃ d0 d1, IsFloat d0 ∧ IsFloat d1 ∧ |fsub x0 d0| ≤ precision ∧ |fsub x1 d1| ≤ precision ∧
    (out = lerp fused d0 d1 alpha ∨ (out = d0 ∧ out = d1))

/-- **C48.** Compressing a scalar track list (ranges, constant tracks, normalization, bit rate selection, quantization,
writing) succeeds, and seeking to any two key frames and decompressing output track `j` gives the writer one value; each
of its components is interpolated between two values that differ from the input samples at those key frames by at most
the precision of the track (the difference being computed in floats, as the compressor does). -/
theorem C48_precision (fused : Bool) (upper : ℚ) (r : RawList) (V : ValidSamples r)
    (hp : ∀ i ∈ r.outputIndices, 0 ≤ r.precision i ∧ upper ≤ r.precision i)
    (hsize : r.numSamples * maxFrameBits r < 2 ^ 32)
    (header tail : List (BitVec 8)) (htail : 15 ≤ tail.length) :
    ∃ clip, compress (quantizeList fused upper r) header tail = some clip ∧ clip.numTracks = r.outputIndices.length ∧
      ∀ (frame0 frame1 : Nat), frame0 < r.numSamples → frame1 < r.numSamples →
      ∀ (w : Writer) (rounding : Policy), w.supported r.trackType = true →
      ∀ (j : Nat) (hj : j < r.outputIndices.length), (w.perTrackRounding = true → w.policyOf rounding j ≠ .perTrack) →
        ∃ v, decompressTrack (seekTo clip rounding frame0 frame1) w j = some [⟨r.trackType, j, v⟩] ∧
          ∀ k < numSampleElements r.trackType, ∀ t : ℚ,
            Within fused (r.precision r.outputIndices[j]) (r.value r.outputIndices[j] frame0 k)
              (r.value r.outputIndices[j] frame1 k) (evalValue fused t k v) (evalAlpha t (C35.alphaOf w rounding j)) := by
  obtain ⟨clip, h1, h2, h3⟩ := C35.C35_round_trip (quantizeList fused upper r) header tail (quantized_ok fused upper V)
    (lt_of_le_of_lt (Nat.mul_le_mul_left _ (frameBits_le fused upper V)) hsize) htail
  refine ⟨clip, h1, h2, fun f0 f1 hf0 hf1 w rounding hs j hj hpol => ⟨_, h3 f0 f1 hf0 hf1 w rounding hs j hj hpol, ?_⟩⟩
  intro k hk t
  have hi : r.outputIndices[j] ∈ r.outputIndices := List.getElem_mem hj
  have e1 : (quantizeList fused upper r).outputIndices[j]'hj = r.outputIndices[j] := rfl
  rw [e1]
  have hpi := hp _ hi
  generalize r.outputIndices[j] = i at *
  have e2 : (quantizeList fused upper r).isConstant i = isConstantTrack r i := rfl
  unfold C35.valueOf
  rw [e2]
  by_cases hc : isConstantTrack r i = true
  · rw [if_pos hc]
    have c0 := constant_close V hi hc hf0 hk
    have c1 := constant_close V hi hc hf1 hk
    exact ⟨_, _, c0.1, c0.1, c0.2, c1.2, Or.inr ⟨rfl, rfl⟩⟩
  · rw [if_neg hc]
    have c0 := sample_close V hi fused upper hpi.2 hpi.1 hf0 hk
    have c1 := sample_close V hi fused upper hpi.2 hpi.1 hf1 hk
    exact ⟨_, _, c0.1, c1.1, c0.2, c1.2, Or.inl rfl⟩

/-- **C48.** At a key frame (interpolation factor 0 or 1) the output is within the precision of the sample. -/
theorem C48_key_frame {fused : Bool} {precision x0 x1 out : ℚ} :
    (Within fused precision x0 x1 out 0 → |fsub x0 out| ≤ precision) ∧
    (Within fused precision x0 x1 out 1 → |fsub x1 out| ≤ precision) := by
  constructor
  · rintro ⟨d0, d1, f0, f1, h0, h1, h | h⟩
    · rw [h, lerp_zero fused f0]; exact h0
    · rw [h.1]; exact h0
  · rintro ⟨d0, d1, f0, f1, h0, h1, h | h⟩
    · rw [h, lerp_one fused f0 f1]; exact h1
    · rw [h.2]; exact h1

/-- A difference computed in floats bounds the exact difference. -/
theorem exact_of_fsub {x d p : ℚ} (h : |fsub x d| ≤ p) : |x - d| ≤ p * (1 + 1 / 2 ^ 23) + pow2 (-149) := by
  have e1 : pow2 (-24) = 1 / 2 ^ 24 := by decide +kernel
  have e2 : pow2 (-149) = 2 * pow2 (-150) := by decide +kernel
  have t := pow2_pos (-150)
  have h1 := rnd_err (x - d)
  rw [e1] at h1
  unfold fsub at h
  have h2 : |x - d| ≤ |rnd (x - d)| + |rnd (x - d) - (x - d)| := by
    have := abs_sub (rnd (x - d)) (rnd (x - d) - (x - d))
    rwa [sub_sub_cancel] at this
  have h0 : 0 ≤ |x - d| := abs_nonneg _
  generalize |x - d| = y at *
  generalize |rnd (x - d)| = z at *
  rw [e2]
  have h3 : y ≤ p + (1 / 2 ^ 24 * y + pow2 (-150)) := by linarith
  norm_num at h3 ⊢
  linarith

/-- **C48.** Between key frames the output differs from the linear interpolation of the two input samples by at most
the precision, plus rounding: `2^-23` of the precision, `2^-21` of the magnitude of the samples. -/
theorem C48_between {fused : Bool} {precision x0 x1 out alpha B : ℚ} (h0 : 0 ≤ alpha) (h1 : alpha ≤ 1)
    (hB0 : |x0| ≤ B) (hB1 : |x1| ≤ B) (hw : Within fused precision x0 x1 out alpha) :
    |out - ((1 - alpha) * x0 + alpha * x1)| ≤ precision * (1 + 1 / 2 ^ 20) + B / 2 ^ 21 + pow2 (-145) := by
  obtain ⟨d0, d1, f0, f1, a0, a1, h⟩ := hw
  have b0 := exact_of_fsub a0
  have b1 := exact_of_fsub a1
  have hp : 0 ≤ precision := (abs_nonneg _).trans a0
  have hB : 0 ≤ B := (abs_nonneg _).trans hB0
  have e0 : pow2 (-145) = 16 * pow2 (-149) := by decide +kernel
  have e1 : pow2 (-146) = 8 * pow2 (-149) := by decide +kernel
  have t := pow2_pos (-149)
  set q := precision * (1 + 1 / 2 ^ 23) + pow2 (-149) with hq
  have m0 : (1 - alpha) * |x0 - d0| ≤ (1 - alpha) * q := mul_le_mul_of_nonneg_left b0 (by linarith)
  have m1 : alpha * |x1 - d1| ≤ alpha * q := mul_le_mul_of_nonneg_left b1 h0
  have key : |((1 - alpha) * d0 + alpha * d1) - ((1 - alpha) * x0 + alpha * x1)| ≤ q := by
    have e : ((1 - alpha) * d0 + alpha * d1) - ((1 - alpha) * x0 + alpha * x1) =
        -((1 - alpha) * (x0 - d0) + alpha * (x1 - d1)) := by ring
    rw [e, abs_neg]
    refine (abs_add_le _ _).trans ?_
    rw [abs_mul, abs_mul, abs_of_nonneg h0, abs_of_nonneg (by linarith : 0 ≤ 1 - alpha)]
    linarith
  rcases h with h | ⟨h, h'⟩
  · have c0 : |d0| ≤ B + q := by
      have := abs_sub x0 (x0 - d0)
      rw [sub_sub_cancel] at this; linarith
    have c1 : |d1| ≤ B + q := by
      have := abs_sub x1 (x1 - d1)
      rw [sub_sub_cancel] at this; linarith
    have hl := lerp_err fused c0 c1 h0 h1
    rw [← h] at hl
    have := abs_add_le (out - ((1 - alpha) * d0 + alpha * d1)) (((1 - alpha) * d0 + alpha * d1) - ((1 - alpha) * x0 + alpha * x1))
    rw [sub_add_sub_cancel] at this
    rw [e0]; rw [e1] at hl
    norm_num at hl hq ⊢
    linarith
  · have e : out = (1 - alpha) * d0 + alpha * d1 := by rw [← h, ← h']; ring
    rw [e, e0]
    norm_num at hq ⊢
    linarith

/-- Two float2 tracks of three samples: track 0 moves from (0, 1) to (1, 1.5), track 1 stays within its precision. -/
def example_raw : RawList where
  trackType := .float2f
  numSamples := 3
  outputIndices := [1, 0]
  precision := fun _ => 1 / 100
  sample := fun i s =>
    if i = 0 then (if s = 0 then [0#32, 0x3f800000#32] else if s = 1 then [0x3eaaaaab#32, 0x3f800000#32] else [0x3f800000#32, 0x3fc00000#32])
    else if s = 1 then [0x3f800000#32, 0x40000001#32] else [0x3f800000#32, 0x40000000#32]

theorem example_valid : ValidSamples example_raw := by
  have h : ∀ i s, example_raw.sample i s ∈ [[0#32, 0x3f800000#32], [0x3eaaaaab#32, 0x3f800000#32], [0x3f800000#32, 0x3fc00000#32],
      [0x3f800000#32, 0x40000001#32], [0x3f800000#32, 0x40000000#32]] := by
    intro i s
    show (if i = 0 then _ else _) ∈ _
    split
    · split
      · simp
      · split <;> simp
    · split <;> simp
  have h2 : ([[0#32, 0x3f800000#32], [0x3eaaaaab#32, 0x3f800000#32], [0x3f800000#32, 0x3fc00000#32],
      [0x3f800000#32, 0x40000001#32], [0x3f800000#32, 0x40000000#32]].all fun l => decide (l.length = 2) &&
        l.all fun b => decide (b.toNat % 2 ^ 31 < 255 * 2 ^ 23) && decide (|ofBits b| ≤ 8)) = true := by decide +kernel
  rw [List.all_eq_true] at h2
  have h3 : ∀ i s, (example_raw.sample i s).length = 2 ∧ ∀ b ∈ example_raw.sample i s, Finite32 b ∧ |ofBits b| ≤ 8 := by
    intro i s
    have := h2 _ (h i s)
    simp only [Bool.and_eq_true, decide_eq_true_eq, List.all_eq_true] at this
    exact this
  exact ⟨fun i _ s => (h3 i s).1, fun i _ s b hb => ((h3 i s).2 b hb).1,
    fun i _ s b hb => ((h3 i s).2 b hb).2.trans (by norm_num), by decide⟩

/-- Track 1 is constant, track 0 is animated and is quantized. -/
example : isConstantTrack example_raw 1 = true ∧ isConstantTrack example_raw 0 = false ∧
    bitRateOf true (1 / 100) example_raw 0 = 6 := by decide +kernel

/-- The hypotheses of the theorem hold of this list. -/
example : ∃ clip, compress (quantizeList true (1 / 100) example_raw) [] (List.replicate 15 0#8) = some clip := by
  obtain ⟨clip, h, -⟩ := C48_precision true (1 / 100) example_raw example_valid (fun _ _ => ⟨show (0 : ℚ) ≤ 1 / 100 by norm_num, le_rfl⟩) (by decide) []
    (List.replicate 15 0#8) (by decide)
  exact ⟨clip, h⟩

end Acl.C48
