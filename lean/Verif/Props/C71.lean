import Verif.Raw.PreProcessLemmas
/-!
C71: pre-processing of scalar tracks: a sample is only ever replaced by the first sample of its track, when the two are within the precision
of the track - which holds unless the first sample is above all the others (finding) -; looping and constant tracks come out exact; doing it
again changes nothing.
Specification vocabulary: `lane` (a component of a sample, zero past the last one), `fsub` (a rounded difference), `FirstNotAbove`
(Raw/PreProcessLemmas.lean).
-/
namespace Acl.C71
open Acl.F32 Acl.PreProcess

/-- Specification: a valid list of scalar tracks, with `n` samples each, and settings that suit it. -/
structure Ok {C E σ : Type} (s : Settings C E σ) (n : Nat) (l : List ScalarTrack) : Prop where
  tracks : l ≠ []
  samples : 0 < n
  uniform : ∀ t ∈ l, t.samples.length = n
  additive : s.additive = false

/-- Specification: two samples are within a precision, component by component. -/
def Within (p : ℚ) (a b : List ℚ) : Prop := ∀ k, k < 4 → |fsub (lane a k) (lane b k)| ≤ p

variable {C E σ : Type} [LinearOrder E] {env : Env σ} {s : Settings C E σ} {wraps : Bool} {n : Nat} {l : List ScalarTrack}

theorem allNear_iff {a b : List ℚ} {p : ℚ} : allNear a b p = true ↔ Within p a b := by
  unfold allNear Within
  rw [List.all_eq_true]
  constructor
  · intro h k hk; exact of_decide_eq_true (h k (List.mem_range.2 hk))
  · intro h k hk; exact decide_eq_true (h k (List.mem_range.1 hk))

theorem run_eq (h : Ok s n l) : preProcess env s ⟨.scalar l, wraps⟩ = (none, ⟨.scalar (scalarActions s.actions s.lossy wraps n l), wraps⟩) := by
  have e : TrackList.numSamples ⟨.scalar l, wraps⟩ = n := by
    cases hl : l with
    | nil => exact absurd hl h.tracks
    | cons t r => exact h.uniform t (by rw [hl]; simp)
  have e2 : TrackList.isEmpty ⟨.scalar l, wraps⟩ = false := by
    cases hl : l with
    | nil => exact absurd hl h.tracks
    | cons t r => rfl
  have e3 : additiveError s ⟨.scalar l, wraps⟩ = none := by unfold additiveError; rw [h.additive]; rfl
  unfold preProcess
  rw [e2, e, e3, if_neg (by simp), if_neg (by have := h.samples; omega)]

/-- What the looping action does to a track -/
theorem loop_spec (n : Nat) (l : List ScalarTrack) (hl : ∀ t ∈ l, t.samples.length = n) (hn : 1 < n) :
    ((∀ t ∈ l, Within t.precision (t.samples.getD 0 []) (t.samples.getD (n - 1) [])) ∧
      loopScalar n l = l.map fun t => { t with samples := t.samples.set (n - 1) (t.samples.getD 0 []) }) ∨
    ((∃ t ∈ l, ¬ Within t.precision (t.samples.getD 0 []) (t.samples.getD (n - 1) [])) ∧ loopScalar n l = l) := by
  unfold loopScalar
  by_cases hc : (l.all fun t => allNear (t.samples.getD 0 []) (t.samples.getD (n - 1) []) t.precision) = true
  · rw [if_pos hc]
    exact Or.inl ⟨fun t ht => allNear_iff.1 (List.all_eq_true.1 hc t ht), rfl⟩
  · rw [if_neg hc]
    refine Or.inr ⟨?_, rfl⟩
    by_contra hne
    apply hc
    rw [List.all_eq_true]
    intro t ht
    rw [allNear_iff]
    by_contra hw
    exact hne ⟨t, ht, hw⟩

/-- The list after the looping action -/
def looped (actions : Actions) (lossy wraps : Bool) (n : Nat) (l : List ScalarTrack) : List ScalarTrack :=
  if actions.optimizeLooping && loops lossy wraps n then loopScalar n l else l

theorem actions_eq (actions : Actions) (lossy wraps : Bool) (n : Nat) (l : List ScalarTrack) :
    scalarActions actions lossy wraps n l =
      if actions.sanitizeConstant && lossy then (looped actions lossy wraps n l).map constantScalar else looped actions lossy wraps n l := rfl

/-- A track after the looping action: its last sample is as it was, or it is the first one, within the precision. -/
theorem looped_get (actions : Actions) (lossy wraps : Bool) {n : Nat} {l : List ScalarTrack} (hl : ∀ t ∈ l, t.samples.length = n) {j : Nat} {t : ScalarTrack}
    (ht : l[j]? = some t) : ∃ t1, (looped actions lossy wraps n l)[j]? = some t1 ∧ t1.precision = t.precision ∧ (t1 = t ∨
      (lossy = true ∧ 1 < n ∧ Within t.precision (t.samples.getD 0 []) (t.samples.getD (n - 1) []) ∧ t1.samples = t.samples.set (n - 1) (t.samples.getD 0 []))) := by
  unfold looped
  by_cases hc : (actions.optimizeLooping && loops lossy wraps n) = true
  · rw [if_pos hc]
    have h1 : lossy = true ∧ 1 < n := by
      unfold loops at hc
      simp only [Bool.and_eq_true, decide_eq_true_eq] at hc
      exact ⟨hc.2.1.1, hc.2.2⟩
    rcases loop_spec n l hl h1.2 with ⟨hw, e⟩ | ⟨-, e⟩
    · rw [e, List.getElem?_map, ht, Option.map_some]
      exact ⟨_, rfl, rfl, Or.inr ⟨h1.1, h1.2, hw t (List.mem_of_getElem? ht), rfl⟩⟩
    · rw [e]; exact ⟨t, ht, rfl, Or.inl rfl⟩
  · rw [if_neg hc]; exact ⟨t, ht, rfl, Or.inl rfl⟩

theorem set_zero {n : Nat} (hn : 1 < n) (l : List (List ℚ)) (x : List ℚ) : (l.set (n - 1) x).getD 0 [] = l.getD 0 [] := by
  rw [List.getD_eq_getElem?_getD, List.getD_eq_getElem?_getD, List.getElem?_set, if_neg (by omega)]

theorem looped_first {t t1 : ScalarTrack} {n : Nat} (h : t1 = t ∨ (1 < n ∧ t1.samples = t.samples.set (n - 1) (t.samples.getD 0 []))) :
    t1.samples.getD 0 [] = t.samples.getD 0 [] := by
  rcases h with rfl | ⟨hn, e⟩
  · rfl
  · rw [e, set_zero hn]

theorem within_self {p : ℚ} (hp : 0 ≤ p) (a : List ℚ) : Within p a a := by
  intro k _; rw [fsub_self, abs_zero]; exact hp

theorem within_symm {p : ℚ} {a b : List ℚ} (h : Within p a b) : Within p b a := by
  intro k hk
  have := h k hk
  unfold fsub at *
  rw [show lane b k - lane a k = -(lane a k - lane b k) by ring, rnd_neg, abs_neg]
  exact this

/-- **C71.** Scalar tracks never make pre-processing fail; the number of tracks, of samples, and the looping policy stay; the first sample of a
track is never changed; and every other one is as it was, or it is the first one now. -/
theorem C71_result (h : Ok s n l) : ∃ l', preProcess env s ⟨.scalar l, wraps⟩ = (none, ⟨.scalar l', wraps⟩) ∧ l'.length = l.length ∧
    (s.lossy = false → l' = l) ∧
    ∀ (j : Nat) (t : ScalarTrack), l[j]? = some t → ∃ t', l'[j]? = some t' ∧ t'.precision = t.precision ∧ t'.samples.length = t.samples.length ∧
      t'.samples[0]? = t.samples[0]? ∧ ∀ (i : Nat) (x y : List ℚ), t.samples[i]? = some x → t'.samples[i]? = some y → y = x ∨ t.samples[0]? = some y := by
  refine ⟨_, run_eq h, ?_, ?_, ?_⟩
  · rw [actions_eq]
    have : (looped s.actions s.lossy wraps n l).length = l.length := by
      unfold looped; split
      · exact loopScalar_length n l
      · rfl
    split <;> simp [this]
  · intro hs
    rw [actions_eq, hs]
    unfold looped loops
    simp
  · intro j t ht
    obtain ⟨t1, h1, hp, hcase⟩ := looped_get s.actions s.lossy wraps h.uniform ht
    have hlen : t1.samples.length = t.samples.length := by
      rcases hcase with rfl | ⟨-, -, -, e⟩
      · rfl
      · rw [e, List.length_set]
    have hfirst := looped_first (n := n) (t := t) (t1 := t1) (by
      rcases hcase with h | ⟨-, a, -, b⟩
      · exact Or.inl h
      · exact Or.inr ⟨a, b⟩)
    have hne : t.samples ≠ [] := by
      have := h.uniform t (List.mem_of_getElem? ht)
      intro e
      rw [e] at this
      have := h.samples
      simp_all
    have h0 : t.samples[0]? = some (t.samples.getD 0 []) := by
      cases hs : t.samples with
      | nil => exact absurd hs hne
      | cons x r => rfl
    have h0' : t1.samples[0]? = some (t.samples.getD 0 []) := by
      rw [← hfirst]
      cases hs : t1.samples with
      | nil => rw [hs] at hlen; exact absurd (List.length_eq_zero_iff.1 hlen.symm) hne
      | cons x r => rfl
    have hsame : ∀ (i : Nat) (x y : List ℚ), t.samples[i]? = some x → t1.samples[i]? = some y → y = x ∨ t.samples[0]? = some y := by
      intro i x y hx hy
      rcases hcase with rfl | ⟨-, -, -, e⟩
      · rw [hx] at hy; exact Or.inl (Option.some.inj hy).symm
      · rw [e, List.getElem?_set] at hy
        split at hy
        · split at hy
          · right; rw [h0]; exact hy
          · exact absurd hy (by simp)
        · rw [hx] at hy; exact Or.inl (Option.some.inj hy).symm
    rw [actions_eq]
    by_cases hc : (s.actions.sanitizeConstant && s.lossy) = true
    · rw [if_pos hc]
      refine ⟨constantScalar t1, by rw [List.getElem?_map, h1]; rfl, by rw [constantScalar_precision, hp], by rw [constantScalar_length, hlen], ?_, ?_⟩
      · cases hk : isConstantScalar t1 with
        | true => rw [constantScalar_get t1 0 hk h0', hfirst, h0]
        | false => rw [constantScalar_keep t1 hk, h0', h0]
      · intro i x y hx hy
        cases hk : isConstantScalar t1 with
        | true =>
          obtain ⟨z, hz⟩ : ∃ z, t1.samples[i]? = some z := ⟨_, List.getElem?_eq_getElem (by rw [hlen]; exact (List.getElem?_eq_some_iff.1 hx).1)⟩
          rw [constantScalar_get t1 i hk hz, hfirst] at hy
          right; rw [h0]; exact hy
        | false => rw [constantScalar_keep t1 hk] at hy; exact hsame i x y hx hy
    · rw [if_neg hc]
      exact ⟨t1, h1, hp, hlen, by rw [h0', h0], hsame⟩

theorem samples_ne (h : Ok s n l) {t : ScalarTrack} (ht : t ∈ l) : t.samples ≠ [] := by
  have h1 := h.uniform t ht
  have h2 := h.samples
  intro e
  rw [e] at h1
  simp only [List.length_nil] at h1
  omega

theorem looped_mem {t t1 : ScalarTrack} (hne : t.samples ≠ [])
    (hcase : t1 = t ∨ (1 < n ∧ t1.samples = t.samples.set (n - 1) (t.samples.getD 0 []))) : ∀ x ∈ t1.samples, x ∈ t.samples := by
  intro x hx
  rcases hcase with rfl | ⟨-, e⟩
  · exact hx
  · rw [e] at hx
    rcases List.mem_or_eq_of_mem_set hx with h | rfl
    · exact h
    · cases hs : t.samples with
      | nil => exact absurd hs hne
      | cons a r => simp

/-- The first sample is not above the others once the last one is the first one. -/
theorem looped_firstNotAbove {t t1 : ScalarTrack} (hlen : t.samples.length = n) (hf : FirstNotAbove t.samples)
    (hcase : t1 = t ∨ (1 < n ∧ t1.samples = t.samples.set (n - 1) (t.samples.getD 0 []))) : FirstNotAbove t1.samples := by
  have hfirst := looped_first hcase
  rcases hcase with rfl | ⟨hn, e⟩
  · exact hf
  · intro k hk _
    refine ⟨t.samples.getD 0 [], ?_, by rw [hfirst]⟩
    rw [e]
    refine List.mem_iff_getElem?.2 ⟨n - 2, ?_⟩
    rw [List.getElem?_drop, List.getElem?_set, if_pos (by omega), if_pos (by omega)]

/-- **C71**, in part. When the first sample of no track is above all the others of the track, in some component: a sample is only replaced by a sample
that is within the precision of the track. -/
theorem C71_moved_partial (h : Ok s n l) (hf : ∀ t ∈ l, FirstNotAbove t.samples) : ∃ l', preProcess env s ⟨.scalar l, wraps⟩ = (none, ⟨.scalar l', wraps⟩) ∧
    ∀ (j : Nat) (t t' : ScalarTrack) (i : Nat) (x y : List ℚ), l[j]? = some t → l'[j]? = some t' → t.samples[i]? = some x → t'.samples[i]? = some y →
      y = x ∨ Within t.precision y x := by
  refine ⟨_, run_eq h, ?_⟩
  intro j t t' i x y ht ht' hx hy
  have htm := List.mem_of_getElem? ht
  obtain ⟨t1, h1, hp, hcase⟩ := looped_get s.actions s.lossy wraps h.uniform ht
  have hcase' : t1 = t ∨ (1 < n ∧ t1.samples = t.samples.set (n - 1) (t.samples.getD 0 [])) := by
    rcases hcase with h | ⟨-, a, -, b⟩
    · exact Or.inl h
    · exact Or.inr ⟨a, b⟩
  have hlen : t1.samples.length = t.samples.length := by
    rcases hcase with rfl | ⟨-, -, -, e⟩
    · rfl
    · rw [e, List.length_set]
  have hne1 : t1.samples ≠ [] := by
    intro e
    rw [e] at hlen
    exact samples_ne h htm (List.length_eq_zero_iff.1 hlen.symm)
  have hstep : ∀ z, t1.samples[i]? = some z → z = x ∨ (z = t.samples.getD 0 [] ∧ Within t.precision z x) := by
    intro z hz
    rcases hcase with rfl | ⟨-, -, hw, e⟩
    · rw [hx] at hz; exact Or.inl (Option.some.inj hz).symm
    · rw [e, List.getElem?_set] at hz
      split at hz
      · next hi =>
        split at hz
        · right
          have hz' := (Option.some.inj hz).symm
          refine ⟨hz', ?_⟩
          rw [← hi] at hx
          rw [List.getD_eq_getElem?_getD (i := n - 1), hx] at hw
          rw [hz']; exact hw
        · exact absurd hz (by simp)
      · rw [hx] at hz; exact Or.inl (Option.some.inj hz).symm
  rw [actions_eq] at ht'
  by_cases hc : (s.actions.sanitizeConstant && s.lossy) = true
  · rw [if_pos hc, List.getElem?_map, h1, Option.map_some, Option.some.injEq] at ht'
    subst ht'
    cases hk : isConstantScalar t1 with
    | false =>
      rw [constantScalar_keep t1 hk] at hy
      rcases hstep y hy with e | ⟨-, e⟩
      · exact Or.inl e
      · exact Or.inr e
    | true =>
      right
      obtain ⟨z, hz⟩ : ∃ z, t1.samples[i]? = some z := ⟨_, List.getElem?_eq_getElem (by rw [hlen]; exact (List.getElem?_eq_some_iff.1 hx).1)⟩
      rw [constantScalar_get t1 i hk hz, Option.some.injEq] at hy
      have hall := (isConstant_iff hne1 (looped_firstNotAbove (h.uniform t htm) (hf t htm) hcase')).1 hk
      have hy1 : y ∈ t1.samples := by
        rw [← hy]
        cases hs : t1.samples with
        | nil => exact absurd hs hne1
        | cons a r => simp
      rcases hstep z hz with e | ⟨e1, e2⟩
      · subst e
        intro k hk
        have := hall k hk
        rw [hp] at this
        exact fsub_abs_le (this y hy1 z (List.mem_of_getElem? hz)) (this z (List.mem_of_getElem? hz) y hy1)
      · rw [← hy, looped_first hcase', ← e1]; exact e2
  · rw [if_neg hc, h1, Option.some.injEq] at ht'
    subst ht'
    rcases hstep y hy with e | ⟨-, e⟩
    · exact Or.inl e
    · exact Or.inr e

/-- **C71.** A track with all its samples within the precision of each other is constant afterwards: sanitizing constant tracks misses none. -/
theorem C71_constant (h : Ok s n l) (hs : s.lossy = true) (ha : s.actions.sanitizeConstant = true) :
    ∃ l', preProcess env s ⟨.scalar l, wraps⟩ = (none, ⟨.scalar l', wraps⟩) ∧
      ∀ (j : Nat) (t t' : ScalarTrack), l[j]? = some t → l'[j]? = some t' →
        (∀ x ∈ t.samples, ∀ x' ∈ t.samples, Within t.precision x x') → ∀ (i : Nat) (y : List ℚ), t'.samples[i]? = some y → t.samples[0]? = some y := by
  refine ⟨_, run_eq h, ?_⟩
  intro j t t' ht ht' hall i y hy
  have htm := List.mem_of_getElem? ht
  have hne := samples_ne h htm
  obtain ⟨t1, h1, hp, hcase⟩ := looped_get s.actions s.lossy wraps h.uniform ht
  have hcase' : t1 = t ∨ (1 < n ∧ t1.samples = t.samples.set (n - 1) (t.samples.getD 0 [])) := by
    rcases hcase with h | ⟨-, a, -, b⟩
    · exact Or.inl h
    · exact Or.inr ⟨a, b⟩
  have hlen : t1.samples.length = t.samples.length := by
    rcases hcase with rfl | ⟨-, -, -, e⟩
    · rfl
    · rw [e, List.length_set]
  have hne1 : t1.samples ≠ [] := by
    intro e
    rw [e] at hlen
    exact hne (List.length_eq_zero_iff.1 hlen.symm)
  rw [actions_eq, ha, hs, if_pos (by simp), List.getElem?_map] at ht'
  rw [hs] at h1
  rw [h1, Option.map_some, Option.some.injEq] at ht'
  subst ht'
  have hk : isConstantScalar t1 = true := isConstant_of hne1 (fun k hk a ha b hb => by
    rw [hp]
    exact le_trans (le_abs_self _) (hall a (looped_mem hne hcase' a ha) b (looped_mem hne hcase' b hb) k hk))
  obtain ⟨z, hz⟩ : ∃ z, t1.samples[i]? = some z := ⟨_, List.getElem?_eq_getElem (by rw [← constantScalar_length]; exact (List.getElem?_eq_some_iff.1 hy).1)⟩
  rw [constantScalar_get t1 i hk hz, looped_first hcase'] at hy
  cases hs : t.samples with
  | nil => exact absurd hs hne
  | cons x r => rw [hs] at hy; exact hy

/-- **C71.** When the first and the last sample of every track are within the precision, they are equal afterwards, for every track; when those of some
track are not, this action changes nothing. -/
theorem C71_looping (h : Ok s n l) (hs : s.lossy = true) (ha : s.actions.optimizeLooping = true) (hw : wraps = false) (hn : 1 < n) :
    ∃ l', preProcess env s ⟨.scalar l, wraps⟩ = (none, ⟨.scalar l', wraps⟩) ∧
      ((∀ t ∈ l, Within t.precision (t.samples.getD 0 []) (t.samples.getD (n - 1) [])) →
        ∀ t' ∈ l', t'.samples[n - 1]? = t'.samples[0]?) ∧
      ((∃ t ∈ l, ¬ Within t.precision (t.samples.getD 0 []) (t.samples.getD (n - 1) [])) → s.actions.sanitizeConstant = false → l' = l) := by
  refine ⟨_, run_eq h, ?_⟩
  have hloop : looped s.actions s.lossy wraps n l = loopScalar n l := by
    unfold looped loops
    rw [ha, hs, hw, if_pos (by simp [hn])]
  rw [actions_eq, hloop]
  constructor
  · intro hall
    have e : loopScalar n l = l.map fun t => { t with samples := t.samples.set (n - 1) (t.samples.getD 0 []) } := by
      rcases loop_spec n l h.uniform hn with ⟨-, e⟩ | ⟨⟨t, ht, hne⟩, -⟩
      · exact e
      · exact absurd (hall t ht) hne
    have key : ∀ t1 ∈ loopScalar n l, t1.samples[n - 1]? = t1.samples[0]? ∧ t1.samples.length = n := by
      intro t1 ht1
      rw [e] at ht1
      obtain ⟨t, ht, rfl⟩ := List.mem_map.1 ht1
      dsimp only
      have hl := h.uniform t ht
      rw [List.getElem?_set, if_pos rfl, if_pos (by omega), List.getElem?_set, if_neg (by omega), List.length_set]
      refine ⟨?_, hl⟩
      cases hs : t.samples with
      | nil => exact absurd hs (samples_ne h ht)
      | cons x r => rfl
    intro t' ht'
    split at ht'
    · obtain ⟨t1, ht1, rfl⟩ := List.mem_map.1 ht'
      obtain ⟨k1, k2⟩ := key t1 ht1
      cases hk : isConstantScalar t1 with
      | false => rw [constantScalar_keep t1 hk]; exact k1
      | true =>
        obtain ⟨a, ha⟩ : ∃ a, t1.samples[n - 1]? = some a := ⟨_, List.getElem?_eq_getElem (by omega)⟩
        obtain ⟨b, hb⟩ : ∃ b, t1.samples[0]? = some b := ⟨_, List.getElem?_eq_getElem (by omega)⟩
        rw [constantScalar_get t1 _ hk ha, constantScalar_get t1 _ hk hb]
    · exact (key t' ht').1
  · intro hex hc
    rw [hc, if_neg (by simp)]
    rcases loop_spec n l h.uniform hn with ⟨hall, -⟩ | ⟨-, e⟩
    · obtain ⟨t, ht, hne⟩ := hex; exact absurd (hall t ht) hne
    · exact e

theorem map_self {α : Type} {f : α → α} {l : List α} (h : ∀ x ∈ l, f x = x) : l.map f = l := by
  conv_rhs => rw [← List.map_id l]
  exact List.map_congr_left h

theorem loopScalar_self (n : Nat) (l : List ScalarTrack) (h : ∀ t ∈ l, t.samples.length = n ∧ t.samples[n - 1]? = t.samples[0]?) : loopScalar n l = l := by
  unfold loopScalar
  split
  · refine map_self fun t ht => ?_
    obtain ⟨h1, h2⟩ := h t ht
    have : t.samples.set (n - 1) (t.samples.getD 0 []) = t.samples := by
      refine List.ext_getElem? fun i => ?_
      rw [List.getElem?_set]
      split
      · next hi =>
        split
        · next hlt =>
          rw [← hi, h2, List.getD_eq_getElem?_getD]
          obtain ⟨b, hb⟩ : ∃ b, t.samples[0]? = some b := ⟨_, List.getElem?_eq_getElem (by omega)⟩
          rw [hb]; rfl
        · next hlt => rw [← hi]; exact (List.getElem?_eq_none (by omega)).symm
      · rfl
    rw [this]
  · rfl

/-- **C71**, in part. Pre-processing again with the same settings changes nothing, under the condition of `C71_moved_partial`. -/
theorem C71_idempotent_partial (h : Ok s n l) (hf : ∀ t ∈ l, FirstNotAbove t.samples) {l' : List ScalarTrack}
    (hr : preProcess env s ⟨.scalar l, wraps⟩ = (none, ⟨.scalar l', wraps⟩)) : preProcess env s ⟨.scalar l', wraps⟩ = (none, ⟨.scalar l', wraps⟩) := by
  rw [run_eq h] at hr
  have hl' : scalarActions s.actions s.lossy wraps n l = l' := by
    have := congrArg (fun r => r.2.tracks) hr
    exact Tracks.scalar.inj this
  have hlen : l'.length = l.length := by
    rw [← hl', actions_eq]
    have : (looped s.actions s.lossy wraps n l).length = l.length := by
      unfold looped; split
      · exact loopScalar_length n l
      · rfl
    split <;> simp [this]
  -- the tracks after the first action
  have hL : ∀ t1 ∈ looped s.actions s.lossy wraps n l, t1.samples.length = n := by
    intro t1 ht1
    unfold looped at ht1
    split at ht1
    · unfold loopScalar at ht1
      split at ht1
      · obtain ⟨t, ht, rfl⟩ := List.mem_map.1 ht1
        dsimp only
        rw [List.length_set]; exact h.uniform t ht
      · exact h.uniform t1 ht1
    · exact h.uniform t1 ht1
  have hu : ∀ t ∈ l', t.samples.length = n := by
    intro t ht
    rw [← hl', actions_eq] at ht
    split at ht
    · obtain ⟨t1, ht1, rfl⟩ := List.mem_map.1 ht
      rw [constantScalar_length]; exact hL t1 ht1
    · exact hL t ht
  have h' : Ok s n l' := by
    refine ⟨?_, h.samples, hu, h.additive⟩
    intro e
    rw [e] at hlen
    exact h.tracks (List.length_eq_zero_iff.1 hlen.symm)
  rw [run_eq h']
  have hloop : looped s.actions s.lossy wraps n l' = l' := by
    unfold looped
    by_cases hc : (s.actions.optimizeLooping && loops s.lossy wraps n) = true
    · rw [if_pos hc]
      have hn : 1 < n := by
        unfold loops at hc
        simp only [Bool.and_eq_true, decide_eq_true_eq] at hc
        exact hc.2.2
      have e1 : looped s.actions s.lossy wraps n l = loopScalar n l := by unfold looped; rw [if_pos hc]
      rw [actions_eq, e1] at hl'
      rcases loop_spec n l h.uniform hn with ⟨-, e⟩ | ⟨⟨t, ht, hne⟩, e⟩
      · have key : ∀ t1 ∈ loopScalar n l, t1.samples[n - 1]? = t1.samples[0]? ∧ t1.samples.length = n := by
          intro t1 ht1
          rw [e] at ht1
          obtain ⟨t, ht, rfl⟩ := List.mem_map.1 ht1
          dsimp only
          have hl := h.uniform t ht
          rw [List.getElem?_set, if_pos rfl, if_pos (by omega), List.getElem?_set, if_neg (by omega), List.length_set]
          refine ⟨?_, hl⟩
          cases hs : t.samples with
          | nil => exact absurd hs (samples_ne h ht)
          | cons x r => rfl
        refine loopScalar_self n l' fun t' ht' => ⟨hu t' ht', ?_⟩
        rw [← hl'] at ht'
        split at ht'
        · obtain ⟨t1, ht1, rfl⟩ := List.mem_map.1 ht'
          obtain ⟨k1, k2⟩ := key t1 ht1
          cases hk : isConstantScalar t1 with
          | false => rw [constantScalar_keep t1 hk]; exact k1
          | true =>
            obtain ⟨a, ha⟩ : ∃ a, t1.samples[n - 1]? = some a := ⟨_, List.getElem?_eq_getElem (by omega)⟩
            obtain ⟨b, hb⟩ : ∃ b, t1.samples[0]? = some b := ⟨_, List.getElem?_eq_getElem (by omega)⟩
            rw [constantScalar_get t1 _ hk ha, constantScalar_get t1 _ hk hb]
        · exact (key t' ht').1
      · rw [e] at hl'
        have hmem : t ∈ l' := by
          rw [← hl']
          split
          · refine List.mem_map.2 ⟨t, ht, constantScalar_keep t ?_⟩
            cases hk : isConstantScalar t with
            | false => rfl
            | true =>
              exfalso
              apply hne
              have hall := (isConstant_iff (samples_ne h ht) (hf t ht)).1 hk
              have hlt := h.uniform t ht
              have m0 : t.samples.getD 0 [] ∈ t.samples := by
                rw [List.getD_eq_getElem?_getD, List.getElem?_eq_getElem (by omega)]; exact List.getElem_mem _
              have m1 : t.samples.getD (n - 1) [] ∈ t.samples := by
                rw [List.getD_eq_getElem?_getD, List.getElem?_eq_getElem (by omega)]; exact List.getElem_mem _
              intro k hk
              exact fsub_abs_le (hall k hk _ m0 _ m1) (hall k hk _ m1 _ m0)
          · exact ht
        rcases loop_spec n l' hu hn with ⟨hall, -⟩ | ⟨-, e'⟩
        · exact absurd (hall t hmem) hne
        · exact e'
    · rw [if_neg hc]
  rw [actions_eq, hloop]
  congr 3
  by_cases hc : (s.actions.sanitizeConstant && s.lossy) = true
  · rw [if_pos hc]
    refine map_self fun t ht => ?_
    rw [← hl', actions_eq, if_pos hc] at ht
    obtain ⟨t1, -, rfl⟩ := List.mem_map.1 ht
    exact constantScalar_idem t1
  · rw [if_neg hc]

/-- Finding: the maximum of the samples misses the first one (pre_process.scalar.h:89-97 starts with the last sample, and at index 1): a track that starts
at `d` and stays at 0 afterwards is found constant, and becomes `d` everywhere, whatever `d` and its precision are. -/
theorem C71_first_sample_finding {d p : ℚ} (hd : 0 ≤ d) (hp : 0 ≤ p) (hs : s.lossy = true) (ha : s.actions.sanitizeConstant = true)
    (hl : s.actions.optimizeLooping = false) (hadd : s.additive = false) :
    preProcess env s ⟨.scalar [⟨p, [[d], [0], [0]]⟩], wraps⟩ = (none, ⟨.scalar [⟨p, [[d], [d], [d]]⟩], wraps⟩) := by
  have hk : isConstantScalar ⟨p, [[d], [0], [0]]⟩ = true := by
    unfold isConstantScalar
    rw [List.all_eq_true]
    intro k hk
    have hk := List.mem_range.1 hk
    rw [decide_eq_true_iff]
    have e1 : maxLane k [[d], [0], [0]] = 0 := by
      unfold maxLane lane
      rcases k with _ | k <;> simp
    have e2 : minLane k [[d], [0], [0]] = 0 := by
      unfold minLane lane
      rcases k with _ | k <;> simp [hd]
    dsimp only
    rw [e1, e2, fsub_self]
    exact hp
  have hok : Ok s 3 [⟨p, [[d], [0], [0]]⟩] := ⟨by simp, by simp, by simp, hadd⟩
  rw [run_eq hok, actions_eq, ha, hs]
  unfold looped
  rw [hl]
  simp only [Bool.and_self, Bool.false_and, if_true, List.map_cons, List.map_nil, if_false, Bool.false_eq_true]
  unfold constantScalar
  rw [if_pos hk]
  rfl

/-! ### A case -/

def exSettings : Settings Unit ℚ Unit where
  actions := ⟨false, false, true, true, false⟩
  lossy := true
  metric := none
  additive := false
  base := none

/-- Two tracks of three samples: the first one varies and loops within 1/4, the second one is constant within 1/2. -/
def exTracks : List ScalarTrack := [⟨1 / 4, [[1, 2], [3, 0], [5 / 4, 2]]⟩, ⟨1 / 2, [[7], [15 / 2], [29 / 4]]⟩]

def exEnv : Env Unit where
  isNormalized := fun _ => true
  normalize := id
  shells := fun _ _ => ()
  baseKey := id

example : Ok exSettings 3 exTracks := ⟨by decide +kernel, by decide, by decide +kernel, rfl⟩

example : ∀ t ∈ exTracks, FirstNotAbove t.samples := by
  intro t ht k hk _
  simp only [exTracks, List.mem_cons, List.not_mem_nil, or_false] at ht
  rcases ht with rfl | rfl
  · refine ⟨[5 / 4, 2], by simp, ?_⟩
    unfold lane
    rcases k with _ | _ | k <;> simp
    norm_num
  · refine ⟨[15 / 2], by simp, ?_⟩
    unfold lane
    rcases k with _ | k <;> simp
    norm_num

/-- The samples that are replaced -/
example : preProcess exEnv exSettings ⟨.scalar exTracks, false⟩ =
    (none, ⟨.scalar [⟨1 / 4, [[1, 2], [3, 0], [1, 2]]⟩, ⟨1 / 2, [[7], [7], [7]]⟩], false⟩) := by decide +kernel

end Acl.C71
