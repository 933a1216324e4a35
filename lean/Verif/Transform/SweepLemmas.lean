import Verif.Transform.SubTracksLemmas
/-
Walks over the sub-track table that consume cached samples in order.
-/
namespace Acl.Transform
variable {σ ε : Type}

theorem sweepTracks_append (sel : Nat → Bool) (onTrack : σ → Nat → Option σ) :
    ∀ (a b : List Nat) (s : σ), sweepTracks sel onTrack (a ++ b) s =
      (sweepTracks sel onTrack a s).bind (sweepTracks sel onTrack b) := by
  intro a
  induction a with
  | nil => intro b s; rfl
  | cons t a ih =>
    intro b s
    rw [List.cons_append, sweepTracks, sweepTracks]
    cases sel t
    · exact ih b s
    · simp only [if_true]
      cases onTrack s t with
      | none => rfl
      | some s => exact ih b s

theorem sweepTracks_none (sel : Nat → Bool) (onTrack : σ → Nat → Option σ) (s : σ) :
    ∀ (a : List Nat), (∀ t ∈ a, sel t = false) → sweepTracks sel onTrack a s = some s := by
  intro a
  induction a with
  | nil => intro _; rfl
  | cons t a ih =>
    intro h
    rw [sweepTracks, h t (by simp)]
    exact ih (fun t ht => h t (by simp [ht]))

/-- Groups whose start has no effect: the walk is a walk over the tracks. -/
theorem sweepGroups_tracks (sel : Nat → Bool) (onTrack : σ → Nat → Option σ) :
    ∀ (c t : Nat) (s : σ), sweepGroups sel some onTrack c t s = sweepTracks sel onTrack (List.range' t (4 * c)) s := by
  intro c
  induction c with
  | zero => intro t s; rfl
  | succ c ih =>
    intro t s
    have hr : List.range' t (4 * (c + 1)) = [t, t + 1, t + 2, t + 3] ++ List.range' (t + 4) (4 * c) := by
      rw [show 4 * (c + 1) = 4 + 4 * c by omega, ← List.range'_append_1]; rfl
    rw [sweepGroups, hr, sweepTracks_append]
    by_cases h : (sel t || sel (t + 1) || sel (t + 2) || sel (t + 3)) = true
    · rw [if_pos h]
      simp only [Option.bind_some]
      cases sweepTracks sel onTrack [t, t + 1, t + 2, t + 3] s with
      | none => rfl
      | some s => exact ih _ s
    · rw [if_neg h, sweepTracks_none sel onTrack s [t, t + 1, t + 2, t + 3], Option.bind_some, ih]
      intro u hu
      simp only [Bool.or_eq_true, not_or, Bool.not_eq_true] at h
      simp only [List.mem_cons, List.not_mem_nil, or_false] at hu
      rcases hu with rfl | rfl | rfl | rfl
      · exact h.1.1.1
      · exact h.1.1.2
      · exact h.1.2
      · exact h.2

/-- What a walk emits for the tracks `t, ..., t + n - 1`: item `val k` for the `k`-th selected track. -/
def emitted (sel : Nat → Bool) (emit : Nat → Nat → List ε) (t n : Nat) : List ε :=
  (List.range' t n).flatMap fun u => if sel u then emit u (countBelow u sel) else []

theorem emitted_add (sel : Nat → Bool) (emit : Nat → Nat → List ε) (t a b : Nat) :
    emitted sel emit t (a + b) = emitted sel emit t a ++ emitted sel emit (t + a) b := by
  unfold emitted
  rw [← List.range'_append_1, List.flatMap_append]

/-- Consuming: `Q k s` says `k` samples were consumed and those below `lim` can be. -/
theorem sweepTracks_consume (sel : Nat → Bool) (onTrack : σ × List ε → Nat → Option (σ × List ε))
    (emit : Nat → Nat → List ε) (Q : Nat → σ → Prop) (lim : Nat)
    (hstep : ∀ k s ev t, Q k s → k < lim → sel t = true → k = countBelow t sel →
      ∃ s', onTrack (s, ev) t = some (s', ev ++ emit t k) ∧ Q (k + 1) s') :
    ∀ (n t : Nat) (s : σ) (ev : List ε), Q (countBelow t sel) s → countBelow (t + n) sel ≤ lim →
      ∃ s', sweepTracks sel onTrack (List.range' t n) (s, ev) = some (s', ev ++ emitted sel emit t n) ∧
        Q (countBelow (t + n) sel) s' := by
  intro n
  induction n with
  | zero => intro t s ev hQ _; exact ⟨s, by simp [sweepTracks, emitted], hQ⟩
  | succ n ih =>
    intro t s ev hQ hlim
    have hmono : countBelow (t + 1) sel ≤ countBelow (t + (n + 1)) sel := by
      rw [show t + (n + 1) = (t + 1) + n by omega, countBelow_add (t + 1) n]; omega
    rw [List.range'_succ, sweepTracks, show t + (n + 1) = t + 1 + n by omega]
    rw [show n + 1 = 1 + n by omega, emitted_add]
    have h1 : emitted sel emit t 1 = if sel t then emit t (countBelow t sel) else [] := by
      simp [emitted]
    rw [h1]
    by_cases hs : sel t = true
    · have hc : countBelow (t + 1) sel = countBelow t sel + 1 := by rw [countBelow_succ, hs]; rfl
      obtain ⟨s', he, hQ'⟩ := hstep _ s ev t hQ (by omega) hs rfl
      obtain ⟨s'', he', hQ''⟩ := ih (t + 1) s' (ev ++ emit t (countBelow t sel)) (by rw [hc]; exact hQ')
        (by rw [show t + 1 + n = t + (n + 1) by omega]; exact hlim)
      refine ⟨s'', ?_, hQ''⟩
      rw [if_pos hs, if_pos hs, he, Option.bind_some, he', List.append_assoc]
    · have hc : countBelow (t + 1) sel = countBelow t sel := by
        rw [countBelow_succ, if_neg hs]; rfl
      obtain ⟨s'', he', hQ''⟩ := ih (t + 1) s ev (by rw [hc]; exact hQ)
        (by rw [show t + 1 + n = t + (n + 1) by omega]; exact hlim)
      refine ⟨s'', ?_, hQ''⟩
      rw [if_neg hs, if_neg hs, he', List.nil_append]

theorem countBelow_mono (sel : Nat → Bool) {a b : Nat} (h : a ≤ b) : countBelow a sel ≤ countBelow b sel := by
  obtain ⟨d, rfl⟩ := Nat.exists_eq_add_of_le h
  rw [countBelow_add]; omega

/-- Walks that fill their cache at the start of each entry of 16 tracks (constant rotations; with a trivial
`onEntry`, the passes without cache). -/
theorem sweepEntries_consume (sel : Nat → Bool) (onEntry : σ × List ε → Option (σ × List ε))
    (onTrack : σ × List ε → Nat → Option (σ × List ε)) (emit : Nat → Nat → List ε)
    (P : Nat → σ → Prop) (Q : Nat → Nat → σ → Prop) (N : Nat)
    (hentry : ∀ k s ev, P k s → k ≤ N → ∃ s', onEntry (s, ev) = some (s', ev) ∧ Q (min N (k + 16)) k s')
    (hstep : ∀ lim k s ev t, Q lim k s → k < lim → lim ≤ N → sel t = true → k = countBelow t sel →
      ∃ s', onTrack (s, ev) t = some (s', ev ++ emit t k) ∧ Q lim (k + 1) s')
    (hback : ∀ lim k s, Q lim k s → P k s) :
    ∀ (c e : Nat) (s : σ) (ev : List ε), P (countBelow (e * 16) sel) s → countBelow ((e + c) * 16) sel ≤ N →
      ∃ s', sweepEntries sel onEntry some onTrack c e (s, ev) =
          some (s', ev ++ emitted sel emit (e * 16) (16 * c)) ∧ P (countBelow ((e + c) * 16) sel) s' := by
  intro c
  induction c with
  | zero => intro e s ev hP _; exact ⟨s, by simp [sweepEntries, emitted], hP⟩
  | succ c ih =>
    intro e s ev hP hN
    have hm1 : countBelow (e * 16 + 16) sel ≤ N := Nat.le_trans (countBelow_mono sel (by omega)) hN
    have hm0 := countBelow_mono sel (show e * 16 ≤ e * 16 + 16 by omega)
    have hm2 : countBelow (e * 16 + 16) sel ≤ countBelow (e * 16) sel + 16 := by
      rw [countBelow_add]; have := countBelow_le 16 (fun i => sel (e * 16 + i)); omega
    obtain ⟨s1, h1, hQ1⟩ := hentry _ s ev hP (by omega)
    obtain ⟨s2, h2, hQ2⟩ := sweepTracks_consume sel onTrack emit (Q (min N (countBelow (e * 16) sel + 16)))
      (min N (countBelow (e * 16) sel + 16))
      (fun k s ev t hQ hk hs hc => hstep _ k s ev t hQ hk (Nat.min_le_left _ _) hs hc) 16 (e * 16) s1 ev hQ1 (by omega)
    obtain ⟨s3, h3, hP3⟩ := ih (e + 1) s2 (ev ++ emitted sel emit (e * 16) 16)
      (by rw [show (e + 1) * 16 = e * 16 + 16 by omega]; exact hback _ _ _ hQ2)
      (by rw [show e + 1 + c = e + (c + 1) by omega]; exact hN)
    refine ⟨s3, ?_, ?_⟩
    · rw [sweepEntries, h1, Option.bind_some, sweepGroups_tracks, show 4 * 4 = 16 by rfl, h2, Option.bind_some, h3,
        show 16 * (c + 1) = 16 + 16 * c by omega, emitted_add, List.append_assoc,
        show (e + 1) * 16 = e * 16 + 16 by omega]
    · rw [show e + (c + 1) = e + 1 + c by omega]; exact hP3

/-- Walks that fill their cache at the start of each group of 4 tracks (animated sub-tracks). -/
theorem sweepGroups_consume (sel : Nat → Bool) (onGroup : σ × List ε → Option (σ × List ε))
    (onTrack : σ × List ε → Nat → Option (σ × List ε)) (emit : Nat → Nat → List ε)
    (P : Nat → σ → Prop) (Q : Nat → Nat → σ → Prop) (N : Nat)
    (hgroup : ∀ k s ev, P k s → k < N → ∃ s', onGroup (s, ev) = some (s', ev) ∧ Q (min N (k + 4)) k s')
    (hstep : ∀ lim k s ev t, Q lim k s → k < lim → lim ≤ N → sel t = true → k = countBelow t sel →
      ∃ s', onTrack (s, ev) t = some (s', ev ++ emit t k) ∧ Q lim (k + 1) s')
    (hback : ∀ lim k s, Q lim k s → P k s) :
    ∀ (c t : Nat) (s : σ) (ev : List ε), P (countBelow t sel) s → countBelow (t + 4 * c) sel ≤ N →
      ∃ s', sweepGroups sel onGroup onTrack c t (s, ev) =
          some (s', ev ++ emitted sel emit t (4 * c)) ∧ P (countBelow (t + 4 * c) sel) s' := by
  intro c
  induction c with
  | zero => intro e s ev hP _; exact ⟨s, by simp [sweepGroups, emitted], hP⟩
  | succ c ih =>
    intro t s ev hP hN
    have hm1 : countBelow (t + 4) sel ≤ N := Nat.le_trans (countBelow_mono sel (by omega)) hN
    have hm0 := countBelow_mono sel (show t ≤ t + 4 by omega)
    have hm2 : countBelow (t + 4) sel ≤ countBelow t sel + 4 := by
      rw [countBelow_add]; have := countBelow_le 4 (fun i => sel (t + i)); omega
    have h4 : countBelow (t + 4) sel = countBelow t sel + (if sel t then 1 else 0) + (if sel (t + 1) then 1 else 0)
        + (if sel (t + 2) then 1 else 0) + (if sel (t + 3) then 1 else 0) := by
      rw [show t + 4 = t + 1 + 1 + 1 + 1 by omega, countBelow_succ, countBelow_succ, countBelow_succ, countBelow_succ]
    rw [sweepGroups]
    by_cases h : (sel t || sel (t + 1) || sel (t + 2) || sel (t + 3)) = true
    · have hpos : countBelow t sel < countBelow (t + 4) sel := by
        rw [h4]
        simp only [Bool.or_eq_true] at h
        rcases h with ((h | h) | h) | h <;> rw [h] <;> simp only [if_true] <;> omega
      obtain ⟨s1, h1, hQ1⟩ := hgroup _ s ev hP (by omega)
      obtain ⟨s2, h2, hQ2⟩ := sweepTracks_consume sel onTrack emit (Q (min N (countBelow t sel + 4)))
        (min N (countBelow t sel + 4))
        (fun k s ev t hQ hk hs hc => hstep _ k s ev t hQ hk (Nat.min_le_left _ _) hs hc) 4 t s1 ev hQ1 (by omega)
      obtain ⟨s3, h3, hP3⟩ := ih (t + 4) s2 (ev ++ emitted sel emit t 4) (hback _ _ _ hQ2)
        (by rw [show t + 4 + 4 * c = t + 4 * (c + 1) by omega]; exact hN)
      have hr : List.range' t 4 = [t, t + 1, t + 2, t + 3] := rfl
      refine ⟨s3, ?_, ?_⟩
      · rw [if_pos h, h1, Option.bind_some, ← hr, h2, Option.bind_some, h3,
          show 4 * (c + 1) = 4 + 4 * c by omega, emitted_add, List.append_assoc]
      · rw [show t + 4 * (c + 1) = t + 4 + 4 * c by omega]; exact hP3
    · simp only [Bool.or_eq_true, not_or, Bool.not_eq_true] at h
      obtain ⟨⟨⟨a0, a1⟩, a2⟩, a3⟩ := h
      have heq : countBelow (t + 4) sel = countBelow t sel := by rw [h4, a0, a1, a2, a3]; simp
      have he : emitted sel emit t 4 = [] := by
        have hr : List.range' t 4 = [t, t + 1, t + 2, t + 3] := rfl
        simp [emitted, hr, a0, a1, a2, a3]
      obtain ⟨s3, h3, hP3⟩ := ih (t + 4) s ev (by rw [heq]; exact hP)
        (by rw [show t + 4 + 4 * c = t + 4 * (c + 1) by omega]; exact hN)
      refine ⟨s3, ?_, ?_⟩
      · rw [if_neg (by simp [a0, a1, a2, a3]), h3, show 4 * (c + 1) = 4 + 4 * c by omega, emitted_add, he,
          List.nil_append]
      · rw [show t + 4 * (c + 1) = t + 4 + 4 * c by omega]; exact hP3

theorem sweepGroups_append (sel : Nat → Bool) (onGroup : σ → Option σ) (onTrack : σ → Nat → Option σ) :
    ∀ (a b t : Nat) (s : σ), sweepGroups sel onGroup onTrack (a + b) t s =
      (sweepGroups sel onGroup onTrack a t s).bind (sweepGroups sel onGroup onTrack b (t + 4 * a)) := by
  intro a
  induction a with
  | zero => intro b t s; rw [Nat.zero_add]; rfl
  | succ a ih =>
    intro b t s
    rw [show a + 1 + b = a + b + 1 by omega, sweepGroups, sweepGroups, show t + 4 * (a + 1) = t + 4 + 4 * a by omega]
    split
    · cases onGroup s with
      | none => rfl
      | some s =>
        simp only [Option.bind_some]
        cases sweepTracks sel onTrack [t, t + 1, t + 2, t + 3] s with
        | none => rfl
        | some s => exact ih b (t + 4) s
    · exact ih b (t + 4) s

/-- Without work at the start of entries, the walk is a walk over groups. -/
theorem sweepEntries_groups (sel : Nat → Bool) (onGroup : σ → Option σ) (onTrack : σ → Nat → Option σ) :
    ∀ (c e : Nat) (s : σ), sweepEntries sel some onGroup onTrack c e s = sweepGroups sel onGroup onTrack (4 * c) (e * 16) s := by
  intro c
  induction c with
  | zero => intro e s; rfl
  | succ c ih =>
    intro e s
    rw [sweepEntries, show 4 * (c + 1) = 4 + 4 * c by omega, sweepGroups_append, Option.bind_some]
    cases sweepGroups sel onGroup onTrack 4 (e * 16) s with
    | none => rfl
    | some s => rw [Option.bind_some, Option.bind_some, ih, show (e + 1) * 16 = e * 16 + 4 * 4 by omega]

end Acl.Transform
