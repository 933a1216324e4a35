import Verif.Scalar.Quantize
import Verif.Transform.ReconstructLemmas
import Verif.Props.C35
/- The passes of the scalar compressor, towards the precision of a compressed list. -/
namespace Acl.Scalar
open Acl.F32 Acl.Lerp Acl.ScalarPacking Acl.RangeReduction

attribute [local irreducible] maxValue

/-- The samples the compressor accepts: of the right size, finite, and not so large that ranges overflow. -/
structure ValidSamples (r : RawList) : Prop where
  length : ∀ i ∈ r.outputIndices, ∀ s, (r.sample i s).length = numSampleElements r.trackType
  finite : ∀ i ∈ r.outputIndices, ∀ s, ∀ b ∈ r.sample i s, Finite32 b
  bounded : ∀ i ∈ r.outputIndices, ∀ s, ∀ b ∈ r.sample i s, |ofBits b| ≤ 2 ^ 120
  nonempty : 1 ≤ r.numSamples

theorem searchBitRate_spec (ok : Nat → Bool) (b best : Nat) :
    searchBitRate ok b best = best ∨
      (1 ≤ searchBitRate ok b best ∧ searchBitRate ok b best ≤ b ∧ ok (searchBitRate ok b best) = true) := by
  induction b generalizing best with
  | zero => exact Or.inl rfl
  | succ b ih =>
    unfold searchBitRate
    split
    · next h =>
      rcases ih (b + 1) with h1 | ⟨h1, h2, h3⟩
      · right; rw [h1]; exact ⟨by omega, le_rfl, h⟩
      · exact Or.inr ⟨h1, by omega, h3⟩
    · exact Or.inl rfl

theorem numBits_small : ∀ b, b < 24 → (getNumBitsAtBitRate b).getD 0 = b := by decide

theorem bitRateOf_spec (fused : Bool) (upper : ℚ) (r : RawList) (i : Nat) :
    bitRateOf fused upper r i = 24 ∨
      (1 ≤ bitRateOf fused upper r i ∧ bitRateOf fused upper r i ≤ 23 ∧
        ∀ s < r.numSamples, sampleOk fused upper r i (bitRateOf fused upper r i) s = true) := by
  unfold bitRateOf
  rcases searchBitRate_spec (bitRateOk fused upper r i) 23 24 with h | ⟨h1, h2, h3⟩
  · exact Or.inl h
  · generalize searchBitRate (bitRateOk fused upper r i) 23 24 = b at h1 h2 h3 ⊢
    refine Or.inr ⟨h1, h2, fun s hs => ?_⟩
    unfold bitRateOk at h3
    rw [List.all_eq_true] at h3
    have := h3 s (List.mem_range.mpr hs)
    rwa [numBits_small _ (by omega)] at this

/-- Packing gives a natural that fits. -/
theorem packedOf_spec {n : Nat} {x : ℚ} (hn : n ≤ 23) (h0 : 0 ≤ x) (h1 : x ≤ 1) :
    ∃ k : Nat, packedOf n x = (k : Int) ∧ k < 2 ^ n := by
  obtain ⟨k, hk, hlt⟩ := Acl.C07.C07_pack_fits x n h0 h1 hn
  refine ⟨k, ?_, hlt⟩
  unfold packUnsigned castU32 at hk
  unfold packedOf
  split at hk
  · next h =>
    have := Option.some.inj hk
    omega
  · exact absurd hk (by simp)

theorem decayOf_eq {n k : Nat} {x : ℚ} (hn : n ≤ 23) (hk : packedOf n x = (k : Int)) (hlt : k < 2 ^ n) :
    decayOf n x = unpackUnsigned k n := by
  have h2 : (2 : Nat) ^ n ≤ 2 ^ 23 := Nat.pow_le_pow_right (by norm_num) hn
  unfold decayOf unpackUnsigned
  rw [hk, ofNat_eq (show k < 2 ^ 24 by omega)]
  rfl

theorem getD_map_range {α : Type} (c k : Nat) (f : Nat → α) (d : α) (h : k < c) :
    ((List.range c).map f).getD k d = f k := by
  simp [List.getD_eq_getElem?_getD, List.getElem?_map, List.getElem?_range h]

section
variable {r : RawList} (V : ValidSamples r) {i : Nat} (hi : i ∈ r.outputIndices)
include V hi

theorem value_ok (s k : Nat) : IsFloat (r.value i s k) ∧ |r.value i s k| ≤ 2 ^ 120 := by
  unfold RawList.value
  by_cases hk : k < (r.sample i s).length
  · have hm : (r.sample i s).getD k 0 ∈ r.sample i s := by
      rw [List.getD_eq_getElem?_getD, List.getElem?_eq_getElem hk]
      exact List.getElem_mem hk
    exact ⟨isFloat_ofBits (V.finite i hi s _ hm), V.bounded i hi s _ hm⟩
  · have : (r.sample i s).getD k 0 = 0 := by
      rw [List.getD_eq_getElem?_getD, List.getElem?_eq_none (by omega)]; rfl
    rw [this]
    have e : ofBits 0 = 0 := by decide +kernel
    rw [e]
    exact ⟨⟨0, 0, by simp, by decide, by decide, by decide⟩, by norm_num⟩

theorem lane_ne (k : Nat) : r.lane i k ≠ [] := by
  have := V.nonempty
  unfold RawList.lane
  simp; omega

theorem mem_lane {s : Nat} (k : Nat) (hs : s < r.numSamples) : r.value i s k ∈ r.lane i k :=
  List.mem_map_of_mem (List.mem_range.mpr hs)

theorem range_ok (k : Nat) :
    ∃ mx, rangeExtentOf r i k = rnd (mx - rangeMinOf r i k) ∧
      (∀ s < r.numSamples, rangeMinOf r i k ≤ r.value i s k ∧ r.value i s k ≤ mx) ∧
      IsFloat (rangeMinOf r i k) ∧ |rangeMinOf r i k| ≤ 2 ^ 120 ∧ |mx| ≤ 2 ^ 120 := by
  have f10 : IsFloat 10000000000 := ⟨9765625, 10, by decide +kernel, by decide, by decide, by decide⟩
  have b10 : (10000000000 : ℚ) ≤ 2 ^ 120 := by norm_num
  refine ⟨(r.lane i k).foldl max (-10000000000), rfl, fun s hs => ⟨?_, ?_⟩, ?_⟩
  · exact (foldl_min_le _ _).2 _ (mem_lane V hi k hs)
  · exact (le_foldl_max _ _).2 _ (mem_lane V hi k hs)
  · have h1 : IsFloat (rangeMinOf r i k) ∧ |rangeMinOf r i k| ≤ 2 ^ 120 := by
      rcases foldl_min_mem (r.lane i k) 10000000000 with h | h
      · unfold rangeMinOf; rw [h]; exact ⟨f10, by rw [abs_of_pos (by norm_num)]; exact b10⟩
      · obtain ⟨s, hs, e⟩ := List.mem_map.mp h
        unfold rangeMinOf; rw [← e]; exact value_ok V hi s k
    refine ⟨h1.1, h1.2, ?_⟩
    rcases foldl_max_mem (r.lane i k) (-10000000000) with h | h
    · rw [h, abs_neg, abs_of_pos (by norm_num)]; exact b10
    · obtain ⟨s, hs, e⟩ := List.mem_map.mp h
      rw [← e]; exact (value_ok V hi s k).2

theorem extent_ok (k : Nat) : IsFloat (rangeExtentOf r i k) ∧ 0 ≤ rangeExtentOf r i k ∧ rangeExtentOf r i k ≤ 2 ^ 122 := by
  obtain ⟨mx, e, hb, hf, h1, h2⟩ := range_ok V hi k
  have hle := (hb 0 V.nonempty)
  have hd : |mx - rangeMinOf r i k| ≤ 2 ^ 121 := by
    have := abs_sub mx (rangeMinOf r i k)
    have e2 : (2 : ℚ) ^ 121 = 2 * 2 ^ 120 := by norm_num
    rw [e2]; linarith
  rw [e]
  refine ⟨isFloat_rnd (lt_of_le_of_lt hd (by decide +kernel)), rnd_nonneg (by linarith), ?_⟩
  have h3 := abs_le.mp (rnd_err' hd)
  have h4 := abs_le.mp hd
  have t : pow2 (-150) ≤ 1 := by decide +kernel
  have e3 : (2 : ℚ) ^ 122 = 2 * 2 ^ 121 := by norm_num
  have e4 : (4 : ℚ) ≤ 2 ^ 121 := by norm_num
  rw [e3]
  generalize (2 : ℚ) ^ 121 = B at *
  linarith [h3.2]

theorem normalizedOf_unit {s : Nat} (hs : s < r.numSamples) (k : Nat) :
    0 ≤ normalizedOf r i s k ∧ normalizedOf r i s k ≤ 1 := by
  obtain ⟨mx, e, hb, -⟩ := range_ok V hi k
  have e' : normalizedOf r i s k =
      normalizeSample (r.value i s k) (Range.mk (rangeMinOf r i k) mx (rangeExtentOf r i k)) := rfl
  rw [e']
  by_cases hz : rangeExtentOf r i k < zeroExtent
  · unfold normalizeSample; simp only []; rw [if_pos hz]; norm_num
  · push Not at hz
    have := normalize_err (v := r.value i s k) (mn := rangeMinOf r i k) (mx := mx) hz (hb s hs).1
      (by rw [e]; exact rnd_mono (by linarith [(hb s hs).2]))
    exact ⟨this.1, this.2.1⟩

end

/-- The result of a multiply-add of moderate operands is a float. -/
theorem mulAdd_float (fused : Bool) {u E m : ℚ} (h0 : 0 ≤ u) (h1 : u ≤ 1) (hE0 : 0 ≤ E) (hE : E ≤ 2 ^ 122) (hm : |m| ≤ 2 ^ 120) :
    IsFloat (mulAdd fused u E m) := by
  have hP0 : 0 ≤ u * E := mul_nonneg h0 hE0
  have hP : |u * E| ≤ 2 ^ 122 := by rw [abs_of_nonneg hP0]; nlinarith
  have e127 : pow2 127 = 2 ^ 127 := by decide +kernel
  have e1 : (2 : ℚ) ^ 127 = 128 * 2 ^ 120 := by norm_num
  have e2 : (2 : ℚ) ^ 122 = 4 * 2 ^ 120 := by norm_num
  have e3 : (4 : ℚ) ≤ 2 ^ 120 := by norm_num
  cases fused
  · simp only [mulAdd, Bool.false_eq_true, if_false, fadd, fmul]
    refine isFloat_rnd ?_
    have h3 := rnd_err' hP
    have t : pow2 (-150) ≤ 1 := by decide +kernel
    have h4 := abs_add_le (rnd (u * E) - u * E) (u * E + m)
    rw [show rnd (u * E) - u * E + (u * E + m) = rnd (u * E) + m from by ring] at h4
    have h5 := abs_add_le (u * E) m
    rw [e2] at *
    rw [e127, e1]
    generalize (2 : ℚ) ^ 120 = B at *
    linarith
  · simp only [mulAdd, if_true]
    refine isFloat_rnd ?_
    have h5 := abs_add_le (u * E) m
    rw [e2] at *
    rw [e127, e1]
    generalize (2 : ℚ) ^ 120 = B at *
    linarith

end Acl.Scalar
