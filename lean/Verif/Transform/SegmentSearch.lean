import Verif.Transform.SegmentingLemmas
import Verif.Transform.Seek
import Mathlib.Tactic.Linarith
/-! The segment search finds the segment that holds the key frame. -/
namespace Acl.Seek
open Acl.Segmenting

theorem prefixSum_lin (sizes : List Nat) (b r : Nat)
    (h : ∀ i (h : i < sizes.length), sizes[i] = b + if i < r then 1 else 0) (g : Nat) (hg : g ≤ sizes.length) :
    prefixSum sizes g = g * b + min g r := by
  induction g with
  | zero => simp [prefixSum_zero]
  | succ g ih =>
    rw [prefixSum_succ _ _ (by omega), ih (by omega), h g (by omega), Nat.add_mul]
    split <;> omega

theorem prefixSum_append_last (E m last g : Nat) (hg : g ≤ E) :
    prefixSum (List.replicate E m ++ [last]) g = g * m := by
  unfold prefixSum
  rw [List.take_append_of_le_length (by simpa using hg), List.take_replicate, List.sum_replicate_nat,
    Nat.min_eq_left hg]

/-- The approximate segment of a sample is its segment or the next one. -/
theorem approx_bounds (N : Nat) (s : Settings) (hi : 0 < s.ideal) (hm : s.ideal < s.max) (hN : s.max < N)
    (sizes : List Nat) (hs : splitSamplesPerSegment N s = some sizes) (g k : Nat) (hg : g < sizes.length)
    (h1 : prefixSum sizes g ≤ k) (h2 : k < prefixSum sizes (g + 1)) :
    0 < N / sizes.length ∧ g ≤ k / (N / sizes.length) ∧ k / (N / sizes.length) ≤ g + 1 := by
  obtain ⟨E, last, hE, hl1, hl2, hNe, hc⟩ := split_cases N s hi (by omega) hN
  rcases hc with ⟨hsl, sz, hsz, hlen, hsum, hget⟩ | ⟨hsl, hsz⟩
  · rw [hs] at hsz
    cases hsz
    have hr := Nat.mod_lt last (show 0 < E by omega)
    have hdm := Nat.div_add_mod last E
    have hrl : last % E ≤ last := Nat.mod_le _ _
    generalize hrr : last % E = r at *
    generalize hqq : last / E = qE at *
    generalize hb : s.ideal + qE = b at *
    have hq : N / sizes.length = b := by
      have : N = r + E * b := by rw [hNe, ← hb, Nat.mul_add]; omega
      rw [hlen, this, Nat.add_mul_div_left _ _ (by omega), Nat.div_eq_of_lt hr]; omega
    have hbpos : 0 < b := by omega
    rw [hq]
    have hp1 := prefixSum_lin sizes b r hget g (by omega)
    have hp2 := prefixSum_lin sizes b r hget (g + 1) (by omega)
    refine ⟨hbpos, ?_, ?_⟩
    · rw [Nat.le_div_iff_mul_le hbpos]; omega
    · have : k < (g + 2) * b := by
        have e : (g + 2) * b = (g + 1) * b + b := by rw [← Nat.succ_mul]
        have : min (g + 1) r ≤ r := Nat.min_le_right _ _
        have : s.ideal ≤ b := by omega
        omega
      have := (Nat.div_lt_iff_lt_mul hbpos).2 this
      omega
  · rw [hs] at hsz
    cases hsz
    generalize s.ideal = m at *
    simp only [List.length_append, List.length_replicate, List.length_singleton] at hg ⊢
    have hsl' : E < last := by
      have : E * 1 ≤ E * (s.max - m) := Nat.mul_le_mul_left _ (by omega)
      omega
    have hdm := Nat.div_add_mod N (E + 1)
    have hmod := Nat.mod_lt N (show 0 < E + 1 by omega)
    generalize hq : N / (E + 1) = q at *
    have hqE : E + 1 ≤ q := by
      rw [← hq, Nat.le_div_iff_mul_le (by omega)]
      nlinarith
    have hqm : q ≤ m := by
      have : q * (E + 1) ≤ N := by rw [Nat.mul_comm]; omega
      by_contra hc
      have : (m + 1) * (E + 1) ≤ q * (E + 1) := Nat.mul_le_mul_right _ (by omega)
      nlinarith
    have hp1 : prefixSum (List.replicate E m ++ [last]) g = g * m := prefixSum_append_last _ _ _ _ (by omega)
    refine ⟨by omega, ?_, ?_⟩
    · rw [Nat.le_div_iff_mul_le (by omega)]
      have : g * q ≤ g * m := Nat.mul_le_mul_left _ hqm
      omega
    · have : k < (g + 2) * q := by
        rcases Nat.lt_or_ge g E with hgE | hgE
        · have hp2 : prefixSum (List.replicate E m ++ [last]) (g + 1) = (g + 1) * m :=
            prefixSum_append_last _ _ _ _ (by omega)
          have hA : E * m + 1 ≤ (E + 1) * q := by omega
          have hB : (g + 1) * m * (E + 1) ≤ (g + 2) * q * (E + 1) := by
            have h3 : (g + 2) * (E * m) ≤ (g + 2) * ((E + 1) * q) := Nat.mul_le_mul_left _ (by omega)
            have h4 : (g + 1) * (E + 1) * m ≤ (g + 2) * E * m := by
              apply Nat.mul_le_mul_right
              nlinarith
            nlinarith
          have := Nat.le_of_mul_le_mul_right hB (by omega)
          omega
        · have : g = E := by omega
          subst this
          have hp2 : prefixSum (List.replicate g m ++ [last]) (g + 1) = N := by
            have := prefixSum_all (List.replicate g m ++ [last])
            simp at this
            rw [this]; omega
          have : (g + 2) * q = (g + 1) * q + q := by rw [← Nat.succ_mul]
          omega
      have := (Nat.div_lt_iff_lt_mul (by omega)).2 this
      omega

theorem starts_get (sizes : List Nat) (i : Nat) (h : i < sizes.length) :
    (segmentStartIndices sizes)[i]? = some (prefixSum sizes i) := by
  unfold segmentStartIndices
  have hl := clipSampleOffsets_length 0 sizes
  rw [List.getElem?_append_left (by omega), List.getElem?_eq_getElem (by omega), clipSampleOffsets_get]
  simp

theorem starts_sentinel (sizes : List Nat) :
    (segmentStartIndices sizes)[sizes.length]? = some 0xFFFFFFFF := by
  unfold segmentStartIndices
  have hl := clipSampleOffsets_length 0 sizes
  rw [List.getElem?_append_right (by omega), hl]
  simp

/-- The search stops at the first segment start after the key frame. -/
theorem searchLoop_spec (wrapping : Bool) (sizes : List Nat) (hN : sizes.sum < 0xFFFFFFFF) (k0 k1 g : Nat)
    (hg : g < sizes.length) (h1 : prefixSum sizes g ≤ k0) (h2 : k0 < prefixSum sizes (g + 1)) :
    ∀ fuel seg, seg ≤ g + 1 → g + 1 < seg + fuel →
    searchLoop wrapping (segmentStartIndices sizes) k0 k1 fuel seg =
      some (g, if wrapping && k1 = 0 then 0 else if k1 < prefixSum sizes (g + 1) ∨ g + 1 = sizes.length ∧ k1 < 0xFFFFFFFF
        then g else g + 1) := by
  intro fuel
  induction fuel with
  | zero => intro seg h3 h4; omega
  | succ fuel ih =>
    intro seg h3 h4
    unfold searchLoop
    rcases Nat.lt_or_ge seg (g + 1) with h5 | h5
    · have := prefixSum_mono sizes (show seg ≤ g by omega)
      rw [starts_get _ _ (by omega)]
      simp only [Option.bind_eq_bind, Option.bind_some]
      rw [if_neg (by omega)]
      exact ih (seg + 1) (by omega) (by omega)
    · have : seg = g + 1 := by omega
      subst this
      have hsum : prefixSum sizes (g + 1) ≤ sizes.sum := by
        rw [← prefixSum_all]; exact prefixSum_mono _ (by omega)
      rcases Nat.lt_or_ge (g + 1) sizes.length with h6 | h6
      · rw [starts_get _ _ h6]
        have : g + 1 ≠ sizes.length := by omega
        simp [h2, this]
      · have : g + 1 = sizes.length := by omega
        have h7 : k0 < 4294967295 := by omega
        have h8 : prefixSum sizes (g + 1) < 4294967295 := by omega
        rw [this, starts_sentinel]
        simp only [Option.bind_eq_bind, Option.bind_some, h7, if_true]
        rw [if_neg (by omega)]
        have hge : sizes.length - 1 = g := by omega
        rw [← this]
        have : (k1 < prefixSum sizes (g + 1) ∨ k1 < 4294967295) = (k1 < 4294967295) := by
          apply propext; omega
        simp only [Nat.add_sub_cancel, true_and, this]
        rfl

end Acl.Seek
