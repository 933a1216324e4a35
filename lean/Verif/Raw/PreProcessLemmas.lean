import Verif.Raw.PreProcess
import Verif.Float.Bits
/-
Lemmas about the pre-processing of raw track lists: Raw/PreProcess.lean
-/
namespace Acl.PreProcess
open Acl.F32 Acl.Transform Acl.Compact

theorem fsub_abs_le {a b p : ℚ} (h1 : fsub a b ≤ p) (h2 : fsub b a ≤ p) : |fsub a b| ≤ p := by
  have : fsub b a = - fsub a b := by unfold fsub; rw [← rnd_neg]; congr 1; ring
  rw [this] at h2
  exact abs_le.2 ⟨by linarith, h1⟩

theorem fsub_self (a : ℚ) : fsub a a = 0 := by unfold fsub; rw [sub_self, rnd_zero]

theorem fsub_le {a b c d : ℚ} (h1 : a ≤ c) (h2 : d ≤ b) : fsub a b ≤ fsub c d := rnd_mono (by linarith)

theorem foldl_min_le (k : Nat) (l : List (List ℚ)) (m : ℚ) :
    l.foldl (fun m s => min m (lane s k)) m ≤ m ∧ ∀ s ∈ l, l.foldl (fun m s => min m (lane s k)) m ≤ lane s k := by
  induction l generalizing m with
  | nil => simp
  | cons x r ih =>
    rw [List.foldl_cons]
    obtain ⟨h1, h2⟩ := ih (min m (lane x k))
    refine ⟨le_trans h1 (min_le_left _ _), ?_⟩
    intro s hs
    rcases List.mem_cons.1 hs with rfl | hs
    · exact le_trans h1 (min_le_right _ _)
    · exact h2 s hs

theorem foldl_min_mem (k : Nat) (l : List (List ℚ)) (m : ℚ) :
    l.foldl (fun m s => min m (lane s k)) m = m ∨ ∃ s ∈ l, l.foldl (fun m s => min m (lane s k)) m = lane s k := by
  induction l generalizing m with
  | nil => simp
  | cons x r ih =>
    rw [List.foldl_cons]
    rcases ih (min m (lane x k)) with h | ⟨s, hs, h⟩
    · rcases min_choice m (lane x k) with hc | hc
      · exact Or.inl (by rw [h, hc])
      · exact Or.inr ⟨x, by simp, by rw [h, hc]⟩
    · exact Or.inr ⟨s, List.mem_cons_of_mem _ hs, h⟩

theorem foldl_max_ge (k : Nat) (l : List (List ℚ)) (m : ℚ) :
    m ≤ l.foldl (fun m s => max m (lane s k)) m ∧ ∀ s ∈ l, lane s k ≤ l.foldl (fun m s => max m (lane s k)) m := by
  induction l generalizing m with
  | nil => simp
  | cons x r ih =>
    rw [List.foldl_cons]
    obtain ⟨h1, h2⟩ := ih (max m (lane x k))
    refine ⟨le_trans (le_max_left _ _) h1, ?_⟩
    intro s hs
    rcases List.mem_cons.1 hs with rfl | hs
    · exact le_trans (le_max_right _ _) h1
    · exact h2 s hs

theorem foldl_max_mem (k : Nat) (l : List (List ℚ)) (m : ℚ) :
    l.foldl (fun m s => max m (lane s k)) m = m ∨ ∃ s ∈ l, l.foldl (fun m s => max m (lane s k)) m = lane s k := by
  induction l generalizing m with
  | nil => simp
  | cons x r ih =>
    rw [List.foldl_cons]
    rcases ih (max m (lane x k)) with h | ⟨s, hs, h⟩
    · rcases max_choice m (lane x k) with hc | hc
      · exact Or.inl (by rw [h, hc])
      · exact Or.inr ⟨x, by simp, by rw [h, hc]⟩
    · exact Or.inr ⟨s, List.mem_cons_of_mem _ hs, h⟩

theorem getD_last_mem (x : List ℚ) (r : List (List ℚ)) : (x :: r).getD ((x :: r).length - 1) [] ∈ x :: r := by
  have h : (x :: r).length - 1 < (x :: r).length := by simp
  rw [List.getD_eq_getElem?_getD, List.getElem?_eq_getElem h]
  exact List.getElem_mem h

theorem minLane_spec (k : Nat) {l : List (List ℚ)} (h : l ≠ []) : (∀ s ∈ l, minLane k l ≤ lane s k) ∧ ∃ s ∈ l, minLane k l = lane s k := by
  cases l with
  | nil => exact absurd rfl h
  | cons x r =>
    have e : minLane k (x :: r) = r.foldl (fun m s => min m (lane s k)) (lane x k) := by simp [minLane]
    rw [e]
    obtain ⟨h1, h2⟩ := foldl_min_le k r (lane x k)
    constructor
    · intro s hs
      rcases List.mem_cons.1 hs with rfl | hs
      · exact h1
      · exact h2 s hs
    · rcases foldl_min_mem k r (lane x k) with h | ⟨s, hs, h⟩
      · exact ⟨x, by simp, h⟩
      · exact ⟨s, List.mem_cons_of_mem _ hs, h⟩

/-- The samples that the maximum is taken of: all of them but the first one, which it misses unless it is alone. -/
theorem maxLane_spec (k : Nat) {l : List (List ℚ)} (h : l ≠ []) :
    (∀ s ∈ l.drop 1, lane s k ≤ maxLane k l) ∧ (l.length = 1 → maxLane k l = lane (l.getD 0 []) k) ∧
      (1 < l.length → ∃ s ∈ l.drop 1, maxLane k l = lane s k) := by
  cases l with
  | nil => exact absurd rfl h
  | cons x r =>
    have e : maxLane k (x :: r) = r.foldl (fun m s => max m (lane s k)) (lane ((x :: r).getD ((x :: r).length - 1) []) k) := by simp [maxLane]
    rw [e]
    obtain ⟨h1, h2⟩ := foldl_max_ge k r (lane ((x :: r).getD ((x :: r).length - 1) []) k)
    refine ⟨fun s hs => h2 s (by simpa using hs), ?_, ?_⟩
    · intro hl
      have : r = [] := by cases r with | nil => rfl | cons _ _ => simp at hl
      subst this
      simp
    · intro hl
      rcases foldl_max_mem k r (lane ((x :: r).getD ((x :: r).length - 1) []) k) with h | ⟨s, hs, h⟩
      · cases r with
        | nil => simp at hl
        | cons y r =>
          refine ⟨_, ?_, h⟩
          have h' := getD_last_mem y r
          have e2 : (x :: y :: r).getD ((x :: y :: r).length - 1) [] = (y :: r).getD ((y :: r).length - 1) [] := by simp
          rw [e2]
          simpa using h'
      · exact ⟨s, by simpa using hs, h⟩

/-- Specification: for every component, the first sample is not above all the others. -/
def FirstNotAbove (l : List (List ℚ)) : Prop := ∀ k, k < 4 → 1 < l.length → ∃ s ∈ l.drop 1, lane (l.getD 0 []) k ≤ lane s k

theorem isConstant_iff {t : ScalarTrack} (h : t.samples ≠ []) (hf : FirstNotAbove t.samples) :
    isConstantScalar t = true ↔ ∀ k, k < 4 → ∀ s ∈ t.samples, ∀ s' ∈ t.samples, fsub (lane s k) (lane s' k) ≤ t.precision := by
  unfold isConstantScalar
  rw [List.all_eq_true]
  have key : ∀ k, k < 4 → (∀ s ∈ t.samples, lane s k ≤ maxLane k t.samples) ∧ ∃ s ∈ t.samples, maxLane k t.samples = lane s k := by
    intro k hk
    obtain ⟨h1, h2, h3⟩ := maxLane_spec k h
    cases hl : t.samples with
    | nil => exact absurd hl h
    | cons x r =>
      rw [hl] at h1 h2 h3
      have hf' := hf k hk
      rw [hl] at hf'
      cases r with
      | nil =>
        have := h2 rfl
        simp only [List.getD_cons_zero] at this
        refine ⟨fun s hs => ?_, x, by simp, this⟩
        rw [List.mem_singleton.1 hs, this]
      | cons y r =>
        obtain ⟨s0, hs0, e0⟩ := h3 (by simp)
        obtain ⟨s1, hs1, e1⟩ := hf' (by simp)
        simp only [List.getD_cons_zero] at e1
        refine ⟨fun s hs => ?_, s0, List.mem_of_mem_drop hs0, e0⟩
        rcases List.mem_cons.1 hs with rfl | hs
        · exact le_trans e1 (h1 s1 hs1)
        · exact h1 s (by simpa using hs)
  constructor
  · intro hall k hk s hs s' hs'
    have := of_decide_eq_true (hall k (List.mem_range.2 hk))
    exact le_trans (fsub_le ((key k hk).1 s hs) ((minLane_spec k h).1 s' hs')) this
  · intro hall k hk
    have hk := List.mem_range.1 hk
    obtain ⟨s, hs, e⟩ := (key k hk).2
    obtain ⟨s', hs', e'⟩ := (minLane_spec k h).2
    rw [decide_eq_true_iff, e, e']
    exact hall k hk s hs s' hs'

theorem isConstant_of {t : ScalarTrack} (h : t.samples ≠ [])
    (hall : ∀ k, k < 4 → ∀ s ∈ t.samples, ∀ s' ∈ t.samples, fsub (lane s k) (lane s' k) ≤ t.precision) : isConstantScalar t = true := by
  unfold isConstantScalar
  rw [List.all_eq_true]
  intro k hk
  have hk := List.mem_range.1 hk
  obtain ⟨s', hs', e'⟩ := (minLane_spec k h).2
  obtain ⟨-, h2, h3⟩ := maxLane_spec k h
  rw [decide_eq_true_iff, e']
  cases hl : t.samples with
  | nil => exact absurd hl h
  | cons x r =>
    cases r with
    | nil =>
      rw [hl] at h2
      rw [h2 rfl]
      exact hall k hk x (by rw [hl]; simp) s' hs'
    | cons y r =>
      obtain ⟨s, hs, e⟩ := h3 (by rw [hl]; simp)
      rw [← hl, e]
      exact hall k hk s (List.mem_of_mem_drop hs) s' hs'

theorem constantScalar_precision (t : ScalarTrack) : (constantScalar t).precision = t.precision := by
  unfold constantScalar; split <;> rfl

theorem constantScalar_length (t : ScalarTrack) : (constantScalar t).samples.length = t.samples.length := by
  unfold constantScalar; split <;> simp

theorem constantScalar_get (t : ScalarTrack) (i : Nat) (h : isConstantScalar t = true) {x : List ℚ} (hx : t.samples[i]? = some x) :
    (constantScalar t).samples[i]? = some (t.samples.getD 0 []) := by
  unfold constantScalar
  rw [if_pos h]
  dsimp only
  rw [List.getElem?_mapIdx, hx, Option.map_some, Option.some.injEq]
  by_cases hi : 1 ≤ i
  · rw [if_pos hi]
  · rw [if_neg hi]
    have : i = 0 := by omega
    subst this
    rw [List.getD_eq_getElem?_getD, hx]
    rfl

theorem constantScalar_keep (t : ScalarTrack) (h : isConstantScalar t = false) : constantScalar t = t := by
  unfold constantScalar; rw [h]; rfl

theorem constantScalar_idem (t : ScalarTrack) : constantScalar (constantScalar t) = constantScalar t := by
  cases h : isConstantScalar t with
  | false => rw [constantScalar_keep t h, constantScalar_keep t h]
  | true =>
    cases h2 : isConstantScalar (constantScalar t) with
    | false => exact constantScalar_keep _ h2
    | true =>
      have e : ∀ u : ScalarTrack, u.samples = (constantScalar t).samples → u.precision = (constantScalar t).precision → u = constantScalar t := by
        rintro ⟨p, l⟩ h1 h2
        dsimp only at h1 h2
        rw [h1, h2]
      refine e _ ?_ (constantScalar_precision _)
      refine List.ext_getElem? fun i => ?_
      cases hi : t.samples[i]? with
      | none =>
        have hle : t.samples.length ≤ i := List.getElem?_eq_none_iff.1 hi
        rw [List.getElem?_eq_none (by rw [constantScalar_length, constantScalar_length]; exact hle),
          List.getElem?_eq_none (by rw [constantScalar_length]; exact hle)]
      | some x =>
        have h1 := constantScalar_get t i h hi
        have h3 := constantScalar_get (constantScalar t) i h2 h1
        obtain ⟨y, hy⟩ : ∃ y, t.samples[0]? = some y := ⟨_, List.getElem?_eq_getElem (by have := (List.getElem?_eq_some_iff.1 hi).1; omega)⟩
        have h0 := constantScalar_get t 0 h hy
        have : (constantScalar t).samples.getD 0 [] = t.samples.getD 0 [] := by rw [List.getD_eq_getElem?_getD, h0]; rfl
        rw [h3, h1, this]

theorem loopScalar_length (n : Nat) (l : List ScalarTrack) : (loopScalar n l).length = l.length := by
  unfold loopScalar; split <;> simp

end Acl.PreProcess
