import Verif.Core.BitsLemmas
/-! Helper lemmas for count_leading_zeros / count_trailing_zeros. -/
namespace Acl

theorem exists_top {p : Nat → Prop} [DecidablePred p] (n : Nat) (h : ∃ i, i < n ∧ p i) :
    ∃ k, k < n ∧ p k ∧ ∀ j, k < j → j < n → ¬ p j := by
  induction n with
  | zero => obtain ⟨i, hi, _⟩ := h; omega
  | succ n ih =>
    by_cases hn : p n
    · exact ⟨n, by omega, hn, fun j h1 h2 => by omega⟩
    · have : ∃ i, i < n ∧ p i := by
        obtain ⟨i, hi, hp⟩ := h
        refine ⟨i, ?_, hp⟩
        rcases Nat.lt_or_ge i n with h | h
        · exact h
        · have : i = n := by omega
          subst this; exact absurd hp hn
      obtain ⟨k, h1, h2, h3⟩ := ih this
      refine ⟨k, by omega, h2, fun j hj1 hj2 => ?_⟩
      rcases Nat.lt_or_ge j n with h | h
      · exact h3 j hj1 h
      · have : j = n := by omega
        subst this; exact hn

theorem exists_bot {p : Nat → Prop} [DecidablePred p] (n : Nat) (h : ∃ i, i < n ∧ p i) :
    ∃ k, k < n ∧ p k ∧ ∀ j, j < k → ¬ p j := by
  induction n with
  | zero => obtain ⟨i, hi, _⟩ := h; omega
  | succ n ih =>
    by_cases hh : ∃ i, i < n ∧ p i
    · obtain ⟨k, h1, h2, h3⟩ := ih hh
      exact ⟨k, by omega, h2, h3⟩
    · obtain ⟨i, hi, hp⟩ := h
      have : i = n := by
        rcases Nat.lt_or_ge i n with h | h
        · exact absurd ⟨i, h, hp⟩ hh
        · omega
      subst this
      exact ⟨i, by omega, hp, fun j hj hp' => hh ⟨j, hj, hp'⟩⟩

theorem exists_bit_of_ne_zero {w : Nat} {v : BitVec w} (h : v ≠ 0) :
    ∃ i, i < w ∧ v.getLsbD i = true := by
  apply Classical.byContradiction
  intro hc
  apply h
  apply BitVec.eq_of_getLsbD_eq
  intro i hi
  simp
  rcases hb : v.getLsbD i with _ | _
  · rfl
  · exact absurd ⟨i, hi, hb⟩ hc

theorem countBelow_gt (n h : Nat) (p : Nat → Bool) (hh : h < n)
    (hp : ∀ i, i < n → (p i = true ↔ h < i)) : countBelow n p = n - 1 - h := by
  induction n with
  | zero => omega
  | succ n ih =>
    rw [countBelow_succ]
    rcases Nat.lt_or_ge h n with h1 | h1
    · rw [ih h1 (fun i hi => hp i (by omega))]
      have := (hp n (by omega)).2 h1
      simp [this]; omega
    · have e : h = n := by omega
      subst e
      have h0 : p h = false := by
        have := hp h (by omega)
        rcases hb : p h with _ | _
        · rfl
        · have := this.1 hb; omega
      have : countBelow h p = countBelow h (fun _ => false) :=
        countBelow_congr (fun i hi => by
          have := hp i (by omega)
          rcases hb : p i with _ | _
          · rfl
          · have := this.1 hb; omega)
      rw [this, h0]
      simp [countBelow]

/-- The smearing steps set every bit at or below a set bit. -/
theorem smear_bit (v : BitVec 32) (i : Nat) (_hi : i < 32) :
    (let v := v ||| (v >>> 1)
     let v := v ||| (v >>> 2)
     let v := v ||| (v >>> 4)
     let v := v ||| (v >>> 8)
     let v := v ||| (v >>> 16)
     v).getLsbD i = true ↔ ∃ j, i ≤ j ∧ v.getLsbD j = true := by
  have step : ∀ (x : BitVec 32) (s : Nat), (∀ i, x.getLsbD i = true ↔ ∃ d, d < s ∧ v.getLsbD (i + d) = true) →
      ∀ i, (x ||| (x >>> s)).getLsbD i = true ↔ ∃ d, d < 2 * s ∧ v.getLsbD (i + d) = true := by
    intro x s hx i
    simp only [BitVec.getLsbD_or, BitVec.getLsbD_ushiftRight, Bool.or_eq_true, hx]
    constructor
    · rintro (⟨d, h1, h2⟩ | ⟨d, h1, h2⟩)
      · exact ⟨d, by omega, h2⟩
      · exact ⟨s + d, by omega, by rw [← h2]; congr 1; omega⟩
    · rintro ⟨d, h1, h2⟩
      rcases Nat.lt_or_ge d s with h | h
      · exact Or.inl ⟨d, h, h2⟩
      · exact Or.inr ⟨d - s, by omega, by rw [← h2]; congr 1; omega⟩
  have h0 : ∀ i, v.getLsbD i = true ↔ ∃ d, d < 1 ∧ v.getLsbD (i + d) = true := by
    intro i
    constructor
    · intro h; exact ⟨0, by omega, h⟩
    · rintro ⟨d, h1, h2⟩; have : d = 0 := by omega
      subst this; exact h2
  have h1 := step _ 1 h0
  have h2 := step _ 2 h1
  have h3 := step _ 4 h2
  have h4 := step _ 8 h3
  have h5 := step _ 16 h4
  have := h5 i
  simp only
  rw [this]
  constructor
  · rintro ⟨d, _, h⟩; exact ⟨i + d, by omega, h⟩
  · rintro ⟨j, hj, h⟩
    have hlt : j < 32 := by
      rcases Nat.lt_or_ge j 32 with h' | h'
      · exact h'
      · rw [BitVec.getLsbD_of_ge _ _ h'] at h; exact absurd h (by decide)
    exact ⟨j - i, by omega, by rw [← h]; congr 1; omega⟩

theorem clz_spec (v : BitVec 32) (h : Nat) (hh : h < 32) (hb : v.getLsbD h = true)
    (htop : ∀ j, h < j → v.getLsbD j = false) : (countLeadingZeros v).toNat = 31 - h := by
  unfold countLeadingZeros
  simp only
  rw [countSetBits32_toNat, popSpec]
  apply countBelow_gt 32 h _ hh
  intro i hi
  have hs := smear_bit v i hi
  simp only at hs
  rw [BitVec.getLsbD_not]
  simp only [hi, decide_true, Bool.true_and, Bool.not_eq_true']
  rw [← Bool.not_eq_true, hs]
  constructor
  · intro hn
    rcases Nat.lt_or_ge h i with h1 | h1
    · exact h1
    · exact absurd ⟨h, h1, hb⟩ hn
  · rintro h1 ⟨j, hj, hjb⟩
    rw [htop j (by omega)] at hjb
    exact absurd hjb (by decide)

theorem clz_zero : (countLeadingZeros 0#32).toNat = 32 := by decide

theorem ctz_spec (v : BitVec 32) (t : Nat) (ht : t < 32) (hb : v.getLsbD t = true)
    (hlow : ∀ j, j < t → v.getLsbD j = false) : (countTrailingZeros v).toNat = t := by
  have hne : v ≠ 0 := by
    rintro rfl; simp at hb
  have hbit : ∀ i, (v &&& -v).getLsbD i = decide (i = t) := by
    intro i
    rw [BitVec.getLsbD_and, BitVec.getLsbD_neg]
    rcases Nat.lt_trichotomy i t with h | h | h
    · rw [hlow i h]; simp; omega
    · subst h
      have : ¬ ∃ j, j < i ∧ v.getLsbD j = true := by
        rintro ⟨j, h1, h2⟩; rw [hlow j h1] at h2; exact absurd h2 (by decide)
      rw [hb, decide_eq_false this]; simp [ht]
    · have : ∃ j, j < i ∧ v.getLsbD j = true := ⟨t, h, hb⟩
      have hd : decide (i = t) = false := by simp; omega
      rw [hd]
      rw [decide_eq_true this]
      cases hv : v.getLsbD i <;> simp
      exact BitVec.lt_of_getLsbD hv
  have h1 := clz_spec (v &&& -v) t ht (by rw [hbit]; simp) (fun j hj => by rw [hbit]; simp; omega)
  unfold countTrailingZeros
  rw [if_pos hne, BitVec.toNat_sub_of_le]
  · rw [h1]; simp; omega
  · rw [BitVec.le_def, h1]; simp

end Acl
