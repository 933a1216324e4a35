import Verif.Transform.Segmenting
/-! Helper lemmas about splitting a clip into segments. -/
namespace Acl.Segmenting

theorem distributePass_length (xs : List Nat) (l : Nat) : (distributePass xs l).1.length = xs.length := by
  induction xs generalizing l with
  | nil => simp [distributePass]
  | cons x xs ih =>
    unfold distributePass
    split
    · simp
    · simp [ih]

theorem distributePass_get (xs : List Nat) (l i : Nat) (h : i < (distributePass xs l).1.length)
    (h' : i < xs.length) :
    (distributePass xs l).1[i] = xs[i] + if i < l then 1 else 0 := by
  induction xs generalizing l i with
  | nil => simp at h'
  | cons x xs ih =>
    unfold distributePass
    by_cases hl : l = 0
    · subst hl; simp
    · simp only [hl, if_false]
      cases i with
      | zero => simp; omega
      | succ i =>
        simp at h'
        have := ih (l - 1) i (by rw [distributePass_length]; exact h') h'
        simp only [List.getElem_cons_succ]
        rw [this]
        have : (i < l - 1) = (i + 1 < l) := by apply propext; omega
        simp only [this]

theorem distributePass_last (xs : List Nat) (l : Nat) : (distributePass xs l).2 = l - xs.length := by
  induction xs generalizing l with
  | nil => simp [distributePass]
  | cons x xs ih =>
    unfold distributePass
    split
    · rename_i h; simp [h]
    · simp only [ih, List.length_cons]; omega

theorem distribute_length (fuel : Nat) (xs : List Nat) (l : Nat) :
    (distribute fuel xs l).1.length = xs.length := by
  induction fuel generalizing xs l with
  | zero => simp [distribute]
  | succ f ih =>
    unfold distribute
    split
    · rfl
    · simp only [ih, distributePass_length]

theorem distribute_get (fuel : Nat) (xs : List Nat) (l i : Nat) (hf : l ≤ fuel)
    (h : i < (distribute fuel xs l).1.length) (h' : i < xs.length) :
    (distribute fuel xs l).1[i] = xs[i] + l / xs.length + if i < l % xs.length then 1 else 0 := by
  induction fuel generalizing xs l with
  | zero =>
    have : l = 0 := by omega
    subst this; simp [distribute]
  | succ f ih =>
    unfold distribute
    by_cases hl : l = 0
    · subst hl; simp
    · simp only [hl, if_false]
      have hlen := distributePass_length xs l
      have hlast := distributePass_last xs l
      have hpos : 0 < xs.length := by omega
      have h1 : i < (distributePass xs l).1.length := by omega
      have := ih (distributePass xs l).1 (distributePass xs l).2 (by omega)
        (by rw [distribute_length]; exact h1) h1
      rw [this, distributePass_get xs l i h1 h', hlen, hlast]
      rcases Nat.lt_or_ge l xs.length with hc | hc
      · have e1 : l - xs.length = 0 := by omega
        rw [e1, Nat.zero_div, Nat.zero_mod, Nat.div_eq_of_lt hc, Nat.mod_eq_of_lt hc]
        simp
      · have e1 : l / xs.length = (l - xs.length) / xs.length + 1 := by
          rw [Nat.div_eq_sub_div hpos hc]
        have e2 : l % xs.length = (l - xs.length) % xs.length := by rw [Nat.mod_eq_sub_mod hc]
        rw [e1, e2]
        have : i < l := by omega
        simp [this]; omega

theorem distribute_last (fuel : Nat) (xs : List Nat) (l : Nat) (hf : l ≤ fuel) (h : 0 < xs.length) :
    (distribute fuel xs l).2 = 0 := by
  induction fuel generalizing xs l with
  | zero => simp [distribute]; omega
  | succ f ih =>
    unfold distribute
    split
    · assumption
    · have hlast := distributePass_last xs l
      exact ih _ _ (by omega) (by rw [distributePass_length]; exact h)

theorem distributePass_sum (xs : List Nat) (l : Nat) :
    (distributePass xs l).1.sum + (distributePass xs l).2 = xs.sum + l := by
  induction xs generalizing l with
  | nil => simp [distributePass]
  | cons x xs ih =>
    unfold distributePass
    split
    · simp; omega
    · have := ih (l - 1)
      simp only [List.sum_cons]; omega

theorem distribute_sum (fuel : Nat) (xs : List Nat) (l : Nat) :
    (distribute fuel xs l).1.sum + (distribute fuel xs l).2 = xs.sum + l := by
  induction fuel generalizing xs l with
  | zero => simp [distribute]
  | succ f ih =>
    unfold distribute
    split
    · rfl
    · have := ih (distributePass xs l).1 (distributePass xs l).2
      have := distributePass_sum xs l
      simp only; omega

/-- Start of segment `i`: the number of samples in the segments before it. -/
def prefixSum (sizes : List Nat) (i : Nat) : Nat := (sizes.take i).sum

theorem prefixSum_zero (sizes : List Nat) : prefixSum sizes 0 = 0 := by simp [prefixSum]

theorem prefixSum_succ (sizes : List Nat) (i : Nat) (h : i < sizes.length) :
    prefixSum sizes (i + 1) = prefixSum sizes i + sizes[i] := by
  unfold prefixSum
  rw [List.take_add_one, List.sum_append]
  simp [h]

theorem prefixSum_all (sizes : List Nat) : prefixSum sizes sizes.length = sizes.sum := by
  simp [prefixSum]

theorem prefixSum_mono (sizes : List Nat) {i j : Nat} (h : i ≤ j) : prefixSum sizes i ≤ prefixSum sizes j := by
  induction j with
  | zero => have : i = 0 := by omega
            subst this; exact Nat.le_refl _
  | succ j ih =>
    rcases Nat.lt_or_ge i (j + 1) with h1 | h1
    · refine Nat.le_trans (ih (by omega)) ?_
      rcases Nat.lt_or_ge j sizes.length with h2 | h2
      · rw [prefixSum_succ _ _ h2]; omega
      · unfold prefixSum
        rw [List.take_of_length_le (by omega), List.take_of_length_le (by omega)]
        exact Nat.le_refl _
    · have : i = j + 1 := by omega
      subst this; exact Nat.le_refl _

theorem clipSampleOffsets_length (off : Nat) (sizes : List Nat) :
    (clipSampleOffsets off sizes).length = sizes.length := by
  induction sizes generalizing off with
  | nil => rfl
  | cons n ns ih => simp [clipSampleOffsets, ih]

theorem clipSampleOffsets_get (off : Nat) (sizes : List Nat) (i : Nat)
    (h : i < (clipSampleOffsets off sizes).length) :
    (clipSampleOffsets off sizes)[i] = off + prefixSum sizes i := by
  induction sizes generalizing off i with
  | nil => simp [clipSampleOffsets] at h
  | cons n ns ih =>
    cases i with
    | zero => simp [clipSampleOffsets, prefixSum]
    | succ i =>
      simp only [clipSampleOffsets, List.getElem_cons_succ]
      rw [ih]
      simp [prefixSum]; omega

/-- Every sample index below the total is in exactly one segment. -/
theorem exists_segment (sizes : List Nat) (k : Nat) (h : k < sizes.sum) :
    ∃ i, i < sizes.length ∧ prefixSum sizes i ≤ k ∧ k < prefixSum sizes (i + 1) := by
  have : ∀ n, n ≤ sizes.length → k < prefixSum sizes n →
      ∃ i, i < sizes.length ∧ prefixSum sizes i ≤ k ∧ k < prefixSum sizes (i + 1) := by
    intro n
    induction n with
    | zero => intro _ h; rw [prefixSum_zero] at h; omega
    | succ n ih =>
      intro h1 h2
      rcases Nat.lt_or_ge k (prefixSum sizes n) with h3 | h3
      · exact ih (by omega) h3
      · exact ⟨n, by omega, h3, h2⟩
  exact this sizes.length (Nat.le_refl _) (by rw [prefixSum_all]; exact h)

theorem segment_unique (sizes : List Nat) (k i j : Nat)
    (hi : prefixSum sizes i ≤ k ∧ k < prefixSum sizes (i + 1))
    (hj : prefixSum sizes j ≤ k ∧ k < prefixSum sizes (j + 1)) : i = j := by
  apply Classical.byContradiction
  intro hne
  rcases Nat.lt_or_gt_of_ne hne with h | h
  · have := prefixSum_mono sizes (show i + 1 ≤ j by omega); omega
  · have := prefixSum_mono sizes (show j + 1 ≤ i by omega); omega

/-- The two possible outcomes of splitting, in closed form. -/
theorem split_cases (N : Nat) (s : Settings) (hi : 0 < s.ideal) (hm : s.ideal ≤ s.max) (hN : s.max < N) :
    ∃ E last, 1 ≤ E ∧ 1 ≤ last ∧ last ≤ s.ideal ∧ N = E * s.ideal + last ∧
      ((E * (s.max - s.ideal) ≥ last ∧ ∃ sizes, splitSamplesPerSegment N s = some sizes ∧ sizes.length = E ∧
          sizes.sum = N ∧ ∀ i (h : i < sizes.length), sizes[i] = s.ideal + last / E + if i < last % E then 1 else 0) ∨
       (E * (s.max - s.ideal) < last ∧ splitSamplesPerSegment N s = some (List.replicate E s.ideal ++ [last]))) := by
  let E := (N + s.ideal - 1) / s.ideal - 1
  have hdm := Nat.div_add_mod (N + s.ideal - 1) s.ideal
  have hlt := Nat.mod_lt (N + s.ideal - 1) hi
  have hq2 : 2 ≤ (N + s.ideal - 1) / s.ideal := by
    rw [Nat.le_div_iff_mul_le hi]; omega
  generalize hq : (N + s.ideal - 1) / s.ideal = q at *
  generalize hr : (N + s.ideal - 1) % s.ideal = r at *
  obtain ⟨E, rfl⟩ : ∃ E, q = E + 1 := ⟨q - 1, by omega⟩
  have hmul : s.ideal * (E + 1) = E * s.ideal + s.ideal := by rw [Nat.mul_comm, Nat.add_mul]; omega
  refine ⟨E, r + 1, by omega, by omega, by omega, by omega, ?_⟩
  have hlast : s.ideal - ((E + 1) * s.ideal - N) = r + 1 := by rw [Nat.mul_comm]; omega
  have hsplit : splitSamplesPerSegment N s =
      if E * (s.max - s.ideal) ≥ r + 1 then some (distribute (r + 1) (List.replicate E s.ideal) (r + 1)).1
      else some (List.replicate E s.ideal ++ [r + 1]) := by
    unfold splitSamplesPerSegment
    rw [if_neg (by omega)]
    simp only [hq, Nat.add_sub_cancel, hlast]
  rcases Nat.lt_or_ge (E * (s.max - s.ideal)) (r + 1) with hs | hs
  · right
    exact ⟨hs, by rw [hsplit, if_neg (by omega)]⟩
  · left
    refine ⟨hs, _, by rw [hsplit, if_pos hs], ?_, ?_, ?_⟩
    · rw [distribute_length]; simp
    · have h1 := distribute_sum (r + 1) (List.replicate E s.ideal) (r + 1)
      have h2 := distribute_last (r + 1) (List.replicate E s.ideal) (r + 1) (Nat.le_refl _) (by simp; omega)
      simp only [List.sum_replicate_nat] at h1
      omega
    · intro i h
      rw [distribute_get _ _ _ _ (Nat.le_refl _) h (by simpa [distribute_length] using h)]
      simp

end Acl.Segmenting
