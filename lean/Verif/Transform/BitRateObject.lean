import Mathlib.Algebra.BigOperators.Group.List.Basic
import Verif.Transform.BitRateLocal
/- Lemmas: the search in object space. -/
namespace Acl.Search
open Acl

theorem highest_eq : kHighestBitRate = 24 := rfl

/-! ### Raising -/

theorem Raised.refl (a : Nat) : Raised a a := Or.inl rfl

theorem Raised.trans {a b c : Nat} (h : Raised a b) (h' : Raised b c) : Raised a c := by
  unfold Raised at *; omega

theorem RaisedRates.refl (r : Rates) : RaisedRates r r := ⟨.refl _, .refl _, .refl _⟩

theorem RaisedRates.trans {a b c : Rates} (h : RaisedRates a b) (h' : RaisedRates b c) : RaisedRates a c :=
  ⟨h.1.trans h'.1, h.2.1.trans h'.2.1, h.2.2.trans h'.2.2⟩

theorem RaisedAll.refl (st : BitRates) : RaisedAll st st := fun _ => .refl _

theorem RaisedAll.trans {a b c : BitRates} (h : RaisedAll a b) (h' : RaisedAll b c) : RaisedAll a c :=
  fun b => (h b).trans (h' b)

theorem RaisedAll.update {st st' : BitRates} (h : RaisedAll st st') (b : Nat) (r : Rates) (hr : RaisedRates (st b) r) :
    RaisedAll st (Function.update st' b r) := by
  intro c
  by_cases hc : c = b
  · rw [hc, Function.update_self]; exact hr
  · rw [Function.update_of_ne hc]; exact h c

theorem Maxed.raised {r r' : Rates} (h : Maxed r) (hr : RaisedRates r r') : Maxed r' := by
  unfold Maxed RaisedRates Raised at *; omega

/-- How far the rates of a bone are from the highest -/
def room (r : Rates) : Nat := (24 - r.rotation) + (24 - r.translation) + (24 - r.scale)

theorem room_le (r : Rates) : room r ≤ 72 := by unfold room; omega

theorem RaisedRates.room_le {r r' : Rates} (h : RaisedRates r r') : room r' ≤ room r := by
  unfold RaisedRates Raised at h; unfold room; omega

theorem RaisedRates.room_lt {r r' : Rates} (h : RaisedRates r r') (hne : r' ≠ r) : room r' < room r := by
  obtain ⟨a, b, c⟩ := r
  obtain ⟨a', b', c'⟩ := r'
  unfold RaisedRates Raised at h
  unfold room
  simp only [ne_eq, Rates.mk.injEq, not_and] at hne
  simp only at *
  omega

/-- The same over a chain -/
def chainRoom (chain : List Nat) (st : BitRates) : Nat := (chain.map fun b => room (st b)).sum

theorem chainRoom_le (chain : List Nat) (st : BitRates) : chainRoom chain st ≤ 72 * chain.length := by
  unfold chainRoom
  induction chain with
  | nil => simp
  | cons b chain ih => have := Acl.Search.room_le (st b); simp only [List.map_cons, List.sum_cons, List.length_cons]; omega

theorem chainRoom_mono (chain : List Nat) {st st' : BitRates} (h : RaisedAll st st') : chainRoom chain st' ≤ chainRoom chain st := by
  unfold chainRoom
  induction chain with
  | nil => simp
  | cons b chain ih => have := (h b).room_le; simp only [List.map_cons, List.sum_cons]; omega

theorem chainRoom_lt (chain : List Nat) {st st' : BitRates} (h : RaisedAll st st') (hne : ∃ b ∈ chain, st' b ≠ st b) :
    chainRoom chain st' < chainRoom chain st := by
  obtain ⟨b, hb, hne⟩ := hne
  induction chain with
  | nil => simp at hb
  | cons c chain ih =>
    have h1 := chainRoom_mono chain h
    have h2 := (h c).room_le
    unfold chainRoom at *
    simp only [List.map_cons, List.sum_cons]
    rcases List.mem_cons.1 hb with hb | hb
    · rw [hb] at hne
      have := (h c).room_lt hne
      omega
    · have := ih hb
      omega

/-! ### Increasing a bone -/

theorem raised_increment (rate i : Nat) : Raised rate (incrementAndClamp rate i) := by
  unfold incrementAndClamp Raised; rw [highest_eq]; split <;> omega

theorem raised_candidate {hasScale : Bool} {r r' : Rates} {num : Nat} (h : r' ∈ candidates hasScale r num) : RaisedRates r r' := by
  simp only [candidates, List.mem_flatMap, List.mem_map] at h
  obtain ⟨i, -, j, -, k, -, rfl⟩ := h
  exact ⟨raised_increment _ _, raised_increment _ _, raised_increment _ _⟩

theorem raised_increase {E : Type} [LinearOrder E] (S : Setup E) (st : BitRates) (bone num : Nat) (oldError : E) :
    RaisedRates (st bone) (increaseBone S st bone num oldError) := by
  unfold increaseBone
  have key : ∀ (l : List Rates) (best : Rates × E), (∀ r ∈ l, RaisedRates (st bone) r) → RaisedRates (st bone) best.1 →
      RaisedRates (st bone) (l.foldl (keepBest S st bone) best).1 := by
    intro l
    induction l with
    | nil => intro best _ h; exact h
    | cons r l ih =>
      intro best hl hb
      rw [List.foldl_cons]
      apply ih _ (fun x hx => hl x (List.mem_cons_of_mem _ hx))
      unfold keepBest
      split
      · exact hl r List.mem_cons_self
      · exact hb
  exact key _ _ (fun r hr => raised_candidate hr) (.refl _)

/-- What a permutation of increments leads to: some bones of the chain are raised. -/
structure Step (chain : List Nat) (st st' : BitRates) : Prop where
  raised : RaisedAll st st'
  others : ∀ b, b ∉ chain → st' b = st b

theorem Step.refl (chain : List Nat) (st : BitRates) : Step chain st st := ⟨.refl _, fun _ _ => rfl⟩

theorem Step.trans {chain : List Nat} {a b c : BitRates} (h : Step chain a b) (h' : Step chain b c) : Step chain a c :=
  ⟨h.raised.trans h'.raised, fun x hx => by rw [h'.others x hx, h.others x hx]⟩

theorem applyPermutation_spec {E : Type} [LinearOrder E] (S : Setup E) (st : BitRates) (oldError : E) (chain : List Nat)
    (l : List (Nat × Nat)) (hl : ∀ x ∈ l, x.1 ∈ chain) (hnd : (l.map Prod.fst).Nodup) (x : BitRates × Bool)
    (hx : Step chain st x.1) (hsame : ∀ y ∈ l, x.1 y.1 = st y.1) (hv : x.2 = true → ∃ b ∈ chain, x.1 b ≠ st b) :
    Step chain st (applyPermutation S st oldError l x).1 ∧
      ((applyPermutation S st oldError l x).2 = true → ∃ b ∈ chain, (applyPermutation S st oldError l x).1 b ≠ st b) := by
  induction l generalizing x with
  | nil => exact ⟨hx, hv⟩
  | cons y l ih =>
    obtain ⟨bone, num⟩ := y
    obtain ⟨perm, valid⟩ := x
    rw [List.map_cons, List.nodup_cons] at hnd
    simp only [applyPermutation]
    by_cases hn : num ≠ 0
    · rw [if_pos hn]
      have hbc := hl _ List.mem_cons_self
      have hbs : perm bone = st bone := hsame _ List.mem_cons_self
      apply ih (fun z hz => hl z (List.mem_cons_of_mem _ hz)) hnd.2
      · refine ⟨hx.raised.update bone _ (raised_increase S st bone num oldError), ?_⟩
        intro b hb
        have hbne : b ≠ bone := by rintro rfl; exact hb hbc
        dsimp only
        rw [Function.update_of_ne hbne]
        exact hx.others b hb
      · intro z hz
        have : z.1 ≠ bone := by
          intro h
          apply hnd.1
          show bone ∈ _
          rw [← h]
          exact List.mem_map_of_mem hz
        dsimp only
        rw [Function.update_of_ne this]
        exact hsame z (List.mem_cons_of_mem _ hz)
      · intro hh
        by_cases hd : increaseBone S st bone num oldError ≠ perm bone
        · exact ⟨bone, hbc, by dsimp only; rw [Function.update_self, ← hbs]; exact hd⟩
        · simp only [ne_eq, not_not] at hd
          simp only [hd, ne_eq, not_true_eq_false, decide_false, Bool.or_false] at hh
          obtain ⟨b, hb, hne⟩ := hv hh
          refine ⟨b, hb, ?_⟩
          dsimp only
          by_cases hbb : b = bone
          · rw [hbb] at hne; exact absurd hbs hne
          · rw [Function.update_of_ne hbb]; exact hne
    · rw [if_neg hn]
      exact ih (fun z hz => hl z (List.mem_cons_of_mem _ hz)) hnd.2 (perm, valid) hx
        (fun z hz => hsame z (List.mem_cons_of_mem _ hz)) hv

/-- Rates found by a permutation, and their error -/
structure Found {E : Type} [LinearOrder E] (S : Setup E) (st : BitRates) (chain : List Nat) (bone : Nat) (e : E) (st' : BitRates) :
    Prop where
  step : Step chain st st'
  moved : ∃ b ∈ chain, st' b ≠ st b
  error : e = objectMax S st' bone true

theorem zip_fst_sublist (l p : List Nat) : ((l.zip p).map Prod.fst).Sublist l := by
  induction l generalizing p with
  | nil => simp
  | cons a l ih =>
    cases p with
    | nil => simp
    | cons b p => simpa using ih p

theorem tryPermutations_spec {E : Type} [LinearOrder E] (S : Setup E) (st : BitRates) (chain : List Nat) (hnd : chain.Nodup)
    (bone : Nat) (oldError : E) (l : List (List Nat)) (best : E × BitRates) :
    tryPermutations S st chain bone oldError l best = best ∨
      ((tryPermutations S st chain bone oldError l best).1 < best.1 ∧
        Found S st chain bone (tryPermutations S st chain bone oldError l best).1
          (tryPermutations S st chain bone oldError l best).2) := by
  induction l generalizing best with
  | nil => exact Or.inl rfl
  | cons p l ih =>
    obtain ⟨perm, hperm⟩ : ∃ perm, perm = applyPermutation S st oldError (chain.zip p) (st, false) := ⟨_, rfl⟩
    have hsub := zip_fst_sublist chain p
    have hspec := applyPermutation_spec S st oldError chain (chain.zip p)
      (fun x hx => (List.of_mem_zip hx).1) (hsub.nodup hnd) (st, false) (.refl _ _) (fun _ _ => rfl) (by simp)
    rw [← hperm] at hspec
    simp only [tryPermutations, ← hperm]
    by_cases hv : perm.2 = true
    · rw [if_pos hv]
      have hf : Found S st chain bone (objectMax S perm.1 bone true) perm.1 := ⟨hspec.1, hspec.2 hv, rfl⟩
      by_cases hlt : objectMax S perm.1 bone true < best.1
      · rw [if_pos hlt]
        split
        · exact Or.inr ⟨hlt, hf⟩
        · rcases ih (objectMax S perm.1 bone true, perm.1) with h | ⟨h, h'⟩
          · rw [h]; exact Or.inr ⟨hlt, hf⟩
          · exact Or.inr ⟨lt_trans h hlt, h'⟩
      · rw [if_neg hlt]; exact ih best
    · rw [if_neg hv]; exact ih best

theorem tryAttempts_spec {E : Type} [LinearOrder E] (S : Setup E) (st : BitRates) (chain : List Nat) (hnd : chain.Nodup)
    (bone : Nat) (original : E) (l : List (List Nat)) (t : Tried E) (permRates : BitRates) (hf : t.found = false)
    (hb : (t.bestError = original ∧ t.error = original) ∨
      (t.bestError < original ∧ Found S st chain bone t.bestError t.bestRates)) :
    let t' := tryAttempts S st chain bone original l t permRates
    (t'.found = false ∧ t'.bestError = original ∧ t'.error = original ∧ t'.bestRates = t.bestRates ∧ t.bestError = original) ∨
      (t'.bestError < original ∧ Found S st chain bone t'.bestError t'.bestRates ∧
        (t'.found = true → t'.error = t'.bestError ∧ t'.error < S.precision bone)) := by
  induction l generalizing t permRates with
  | nil =>
    rcases hb with ⟨h1, h2⟩ | ⟨h1, h2⟩
    · exact Or.inl ⟨hf, h1, h2, rfl, h1⟩
    · refine Or.inr ⟨h1, h2, fun h => ?_⟩
      change t.found = true at h
      rw [hf] at h; exact absurd h (by decide)
  | cons a l ih =>
    simp only [tryAttempts]
    obtain ⟨r, hr⟩ : ∃ r, r = tryPermutations S st chain bone original (permutationsFrom a) (original, permRates) := ⟨_, rfl⟩
    have hspec := tryPermutations_spec S st chain hnd bone original (permutationsFrom a) (original, permRates)
    rw [← hr] at hspec ⊢
    have hle : t.bestError ≤ original := by
      rcases hb with h | h
      · exact h.1.le
      · exact h.1.le
    by_cases hlt : r.1 < t.bestError
    · rw [if_pos hlt]
      have hfound : r.1 < original ∧ Found S st chain bone r.1 r.2 := by
        rcases hspec with h | h
        · rw [h] at hlt; exact absurd (lt_of_lt_of_le hlt hle) (lt_irrefl _)
        · exact h
      by_cases hp : r.1 < S.precision bone
      · rw [if_pos hp]
        exact Or.inr ⟨hfound.1, hfound.2, fun _ => ⟨rfl, hp⟩⟩
      · rw [if_neg hp]
        rcases ih { found := false, error := r.1, bestError := r.1, bestRates := r.2 } r.2 rfl (Or.inr hfound) with h | h
        · exact absurd h.2.2.2.2 (ne_of_lt hfound.1)
        · exact Or.inr h
    · rw [if_neg hlt]
      have := ih { t with error := r.1 } r.2 hf (by
        rcases hb with ⟨h1, h2⟩ | ⟨h1, h2⟩
        · refine Or.inl ⟨h1, ?_⟩
          rcases hspec with h | h
          · rw [h]
          · exact absurd h.1 (by rw [← h1] ; exact hlt)
        · exact Or.inr ⟨h1, h2⟩)
      exact this

/-- What `best_permutation_bit_rates` holds does not matter. -/
theorem tryPermutations_irrelevant {E : Type} [LinearOrder E] (S : Setup E) (st : BitRates) (chain : List Nat) (bone : Nat)
    (oldError : E) (l : List (List Nat)) (e : E) (p p' : BitRates) :
    (tryPermutations S st chain bone oldError l (e, p)).1 = (tryPermutations S st chain bone oldError l (e, p')).1 ∧
      ((tryPermutations S st chain bone oldError l (e, p)).2 = (tryPermutations S st chain bone oldError l (e, p')).2 ∨
        (tryPermutations S st chain bone oldError l (e, p)).1 = e) := by
  induction l generalizing p p' with
  | nil => exact ⟨rfl, Or.inr rfl⟩
  | cons q l ih =>
    simp only [tryPermutations]
    split
    · split
      · split
        · exact ⟨rfl, Or.inl rfl⟩
        · exact ⟨rfl, Or.inl rfl⟩
      · exact ih p p'
    · exact ih p p'

theorem tryAttempts_irrelevant {E : Type} [LinearOrder E] (S : Setup E) (st : BitRates) (chain : List Nat) (bone : Nat)
    (original : E) (l : List (List Nat)) (t : Tried E) (ht : t.bestError ≤ original) (p p' : BitRates) :
    tryAttempts S st chain bone original l t p = tryAttempts S st chain bone original l t p' := by
  induction l generalizing t p p' with
  | nil => rfl
  | cons a l ih =>
    obtain ⟨h1, h2⟩ := tryPermutations_irrelevant S st chain bone original (permutationsFrom a) original p p'
    simp only [tryAttempts]
    rw [← h1]
    by_cases hlt : (tryPermutations S st chain bone original (permutationsFrom a) (original, p)).1 < t.bestError
    · have h2' : (tryPermutations S st chain bone original (permutationsFrom a) (original, p)).2 =
          (tryPermutations S st chain bone original (permutationsFrom a) (original, p')).2 := by
        rcases h2 with h2 | h2
        · exact h2
        · rw [h2] at hlt; exact absurd hlt (not_lt.2 ht)
      rw [if_pos hlt, if_pos hlt, h2']
    · rw [if_neg hlt, if_neg hlt]
      exact ih { t with error := (tryPermutations S st chain bone original (permutationsFrom a) (original, p)).1 } ht _ _

/-! ### Climbing -/

theorem climb_spec {E : Type} [LinearOrder E] (S : Setup E) (chain : List Nat) (hnd : chain.Nodup) (bone : Nat)
    (permRates st₀ : BitRates) (initial : E) (fuel : Nat) (error : E) (st bestRates : BitRates)
    (hfuel : chainRoom chain st < fuel) (hstep : Step chain st₀ st) (hinv : bestRates = st ∨ initial ≤ error) :
    ∃ e st' best', climb S chain bone permRates fuel error st bestRates = some (e, st', best') ∧
      Step chain st₀ (if e < initial then best' else st') := by
  induction fuel generalizing error st bestRates with
  | zero => omega
  | succ fuel ih =>
    simp only [climb]
    have hold : Step chain st₀ (if error < initial then bestRates else st) := by
      split
      · rename_i h
        rcases hinv with hinv | hinv
        · rw [hinv]; exact hstep
        · exact absurd h (not_lt.2 hinv)
      · exact hstep
    by_cases hp : S.precision bone ≤ error
    · rw [if_pos hp]
      obtain ⟨t, ht⟩ : ∃ t, t = tryAttempts S st chain bone error (attempts S.level chain.length)
        { found := false, error := error, bestError := error, bestRates := bestRates } permRates := ⟨_, rfl⟩
      have hspec := tryAttempts_spec S st chain hnd bone error (attempts S.level chain.length)
        { found := false, error := error, bestError := error, bestRates := bestRates } permRates rfl (Or.inl ⟨rfl, rfl⟩)
      simp only [← ht] at hspec ⊢
      rcases hspec with ⟨h1, h2, h3, h4, -⟩ | ⟨h1, h2, h3⟩
      · rw [if_neg (by simp [h1]), if_pos h2.ge]
        exact ⟨_, _, _, rfl, by rw [h3, h4]; exact hold⟩
      · by_cases hf : t.found = true
        · rw [if_pos hf]
          refine ⟨_, _, _, rfl, ?_⟩
          split
          · exact hstep.trans h2.step
          · exact hstep
        · rw [if_neg hf, if_neg (not_le.2 h1)]
          exact ih _ _ _ (by have := chainRoom_lt chain h2.step.raised h2.moved; omega) (hstep.trans h2.step) (Or.inl rfl)
    · rw [if_neg hp]
      exact ⟨_, _, _, rfl, hold⟩

/-! ### Raising indiscriminately -/

theorem raised_one (r : Rates) :
    (r.rotation < 24 → RaisedRates r { r with rotation := r.rotation + 1 } ∧ { r with rotation := r.rotation + 1 } ≠ r) ∧
    (r.translation < 24 → RaisedRates r { r with translation := r.translation + 1 } ∧
      { r with translation := r.translation + 1 } ≠ r) ∧
    (r.scale < 24 → RaisedRates r { r with scale := r.scale + 1 } ∧ { r with scale := r.scale + 1 } ≠ r) := by
  refine ⟨fun h => ⟨⟨Or.inr ⟨Nat.lt_succ_self _, h⟩, .refl _, .refl _⟩, fun e => ?_⟩,
    fun h => ⟨⟨.refl _, Or.inr ⟨Nat.lt_succ_self _, h⟩, .refl _⟩, fun e => ?_⟩,
    fun h => ⟨⟨.refl _, .refl _, Or.inr ⟨Nat.lt_succ_self _, h⟩⟩, fun e => ?_⟩⟩
  · have := congrArg Rates.rotation e; simp at this
  · have := congrArg Rates.translation e; simp at this
  · have := congrArg Rates.scale e; simp at this

theorem raiseOnce_spec (r : Rates) (h : smallest r < 24) : RaisedRates r (raiseOnce r) ∧ raiseOnce r ≠ r := by
  obtain ⟨r1, r2, r3⟩ := raised_one r
  unfold raiseOnce
  by_cases h1 : r.rotation = r.translation ∧ r.translation < kHighestBitRate ∧ kHighestBitRate ≤ r.scale
  · rw [if_pos h1]; exact r2 h1.2.1
  · rw [if_neg h1]
    by_cases h2 : r.rotation = smallest r
    · rw [if_pos h2]; exact r1 (by omega)
    · rw [if_neg h2]
      by_cases h3 : r.translation = smallest r
      · rw [if_pos h3]; exact r2 (by omega)
      · rw [if_neg h3]; exact r3 (by unfold smallest at *; omega)

theorem smallest_maxed (r : Rates) : 24 ≤ smallest r ↔ Maxed r := by
  unfold smallest Maxed; omega

theorem raised_maxed (r r' : Rates) (h : RaisedRates r r') (hm : Maxed r') : r' = maxedOut r := by
  obtain ⟨a, b, c⟩ := r
  obtain ⟨a', b', c'⟩ := r'
  unfold RaisedRates Raised Maxed at *
  simp only [maxedOut, highest_eq, Rates.mk.injEq]
  simp only at *
  omega

/-- The bone `link` is raised by steps, in the state `base`. -/
theorem raiseBone_spec {E : Type} [LinearOrder E] (S : Setup E) (bone link : Nat) (base : BitRates) (fuel : Nat) (st : BitRates)
    (error : E) (best : Rates × E) (hfuel : room (st link) < fuel)
    (hst : st = Function.update base link (st link)) (hr : RaisedRates (base link) (st link))
    (he : error = objectMax S st bone false) (hb : RaisedRates (base link) best.1)
    (hbe : best.2 = objectMax S (Function.update base link best.1) bone false) (hle : best.2 ≤ error) :
    ∃ r e maxed, raiseBone S bone link fuel st error best = some (r, e, maxed) ∧ RaisedRates (base link) r ∧
      e = objectMax S (Function.update base link r) bone false ∧ (maxed = false → e < S.precision bone) ∧
      (maxed = true → S.precision bone ≤ objectMax S (Function.update base link (maxedOut (base link))) bone false) := by
  induction fuel generalizing st error best with
  | zero => omega
  | succ fuel ih =>
    simp only [raiseBone]
    by_cases hp : S.precision bone ≤ error
    · rw [if_pos hp]
      by_cases hm : kHighestBitRate ≤ smallest (st link)
      · rw [if_pos hm]
        refine ⟨_, _, _, rfl, hb, hbe, by simp, fun _ => ?_⟩
        rw [highest_eq, smallest_maxed] at hm
        rw [← raised_maxed _ _ hr hm, ← hst, ← he]
        exact hp
      · rw [if_neg hm]
        rw [highest_eq] at hm
        obtain ⟨h1, h2⟩ := raiseOnce_spec (st link) (by omega)
        obtain ⟨st', hst'⟩ : ∃ st', st' = Function.update st link (raiseOnce (st link)) := ⟨_, rfl⟩
        have hl : st' link = raiseOnce (st link) := by rw [hst', Function.update_self]
        have hu : st' = Function.update base link (st' link) := by
          rw [hl, hst', hst, Function.update_idem, Function.update_self]
        rw [← hst']
        refine ih st' _ _ ?_ hu ?_ rfl ?_ ?_ ?_
        · rw [hl]; have := h1.room_lt h2; omega
        · rw [hl]; exact hr.trans h1
        · split
          · rw [hl]; exact hr.trans h1
          · exact hb
        · split
          · dsimp only; rw [← hu]
          · exact hbe
        · split
          · exact le_rfl
          · rename_i h; exact not_lt.1 h
    · rw [if_neg hp]
      exact ⟨_, _, _, rfl, hb, hbe, fun _ => lt_of_le_of_lt hle (not_le.1 hp), by simp⟩

/-- A pass over the bones of the chain -/
theorem raiseChain_spec {E : Type} [LinearOrder E] (S : Setup E) (chain : List Nat) (bone fuel : Nat) (hfuel : 72 < fuel)
    (l : List Nat) (hl : ∀ b ∈ l, b ∈ chain) (st : BitRates) (error : E) (he : error = objectMax S st bone false) (n : Nat) :
    ∃ st' e n', raiseChain S bone fuel l st error n = some (st', e, n') ∧ Step chain st st' ∧
      e = objectMax S st' bone false ∧ (e < S.precision bone ∨ n' = n + l.length) ∧
      (S.precision bone ≤ e → ∀ b rest, l = b :: rest →
        S.precision bone ≤ objectMax S (Function.update st b (maxedOut (st b))) bone false) := by
  induction l generalizing st error n with
  | nil => exact ⟨_, _, _, rfl, .refl _ _, he, Or.inr rfl, by simp⟩
  | cons link rest ih =>
    have hself : st = Function.update st link (st link) := (Function.update_eq_self link st).symm
    obtain ⟨r, e, maxed, e1, h1, h2, h3, h4⟩ := raiseBone_spec S bone link st fuel st error (st link, error)
      (by have := room_le (st link); omega) hself (.refl _) he (.refl _) (by rw [he]; dsimp only; rw [← hself]) le_rfl
    have hstep : Step chain st (Function.update st link r) := by
      refine ⟨RaisedAll.update (.refl _) _ _ h1, fun b hb => ?_⟩
      have : b ≠ link := by rintro rfl; exact hb (hl _ List.mem_cons_self)
      rw [Function.update_of_ne this]
    simp only [raiseChain, e1, Option.bind_eq_bind, Option.bind_some]
    by_cases hp : e < S.precision bone
    · rw [if_pos hp]
      exact ⟨_, _, _, rfl, hstep, h2, Or.inl hp, fun h => absurd hp (not_lt.2 h)⟩
    · rw [if_neg hp]
      have hmax : maxed = true := by
        cases maxed with
        | true => rfl
        | false => exact absurd (h3 rfl) hp
      rw [hmax, if_pos rfl]
      obtain ⟨st', e', n', e2, g1, g2, g3, -⟩ := ih (fun b hb => hl b (List.mem_cons_of_mem _ hb)) _ e h2 (n + 1)
      refine ⟨st', e', n', e2, hstep.trans g1, g2, ?_, ?_⟩
      · rcases g3 with g3 | g3
        · exact Or.inl g3
        · right; rw [g3, List.length_cons]; omega
      · intro _ b rest' hb
        cases hb
        exact h4 hmax

theorem raiseAll_spec {E : Type} [LinearOrder E] (S : Setup E) (chain : List Nat) (bone fuel : Nat) (hfuel : 72 < fuel)
    (st : BitRates) :
    ∃ st' e, raiseAll S chain bone fuel fuel st (objectMax S st bone false) = some (st', e) ∧ Step chain st st' ∧
      e = objectMax S st' bone false ∧
      (S.precision bone ≤ e → ∀ b rest, chain.reverse = b :: rest →
        S.precision bone ≤ objectMax S (Function.update st b (maxedOut (st b))) bone false) := by
  obtain ⟨k, rfl⟩ : ∃ k, fuel = k + 2 := ⟨fuel - 2, by omega⟩
  by_cases hp : S.precision bone ≤ objectMax S st bone false
  · obtain ⟨st', e, n', e1, h1, h2, h3, h4⟩ := raiseChain_spec S chain bone (k + 2) hfuel chain.reverse
      (fun b hb => List.mem_reverse.1 hb) st _ rfl 0
    rw [raiseAll, if_pos hp]
    simp only [e1, Option.bind_eq_bind, Option.bind_some]
    by_cases hn : n' = chain.length
    · rw [if_pos hn]
      exact ⟨_, _, rfl, h1, h2, h4⟩
    · rw [if_neg hn]
      have hlt : e < S.precision bone := by
        rcases h3 with h3 | h3
        · exact h3
        · rw [List.length_reverse] at h3; omega
      refine ⟨st', e, ?_, h1, h2, h4⟩
      rw [raiseAll, if_neg (not_le.2 hlt)]
  · refine ⟨st, _, ?_, .refl _ _, rfl, fun h => absurd h hp⟩
    rw [raiseAll, if_neg hp]

/-! ### Maxing out -/

theorem raised_maxedOut (r : Rates) : RaisedRates r (maxedOut r) ∧ Maxed (maxedOut r) := by
  unfold RaisedRates Raised Maxed maxedOut
  rw [highest_eq]
  simp only
  omega

theorem maxOut_spec {E : Type} [LinearOrder E] (S : Setup E) (chain : List Nat) (bone : Nat) (l : List Nat)
    (hl : ∀ b ∈ l, b ∈ chain) (st : BitRates) :
    Step chain st (maxOut S bone l st) ∧ (Meets S (maxOut S bone l st) bone ∨ ∀ b ∈ l, Maxed (maxOut S bone l st b)) := by
  induction l generalizing st with
  | nil => exact ⟨.refl _ _, Or.inr (by simp)⟩
  | cons link rest ih =>
    obtain ⟨st', hst'⟩ : ∃ st', st' = Function.update st link (maxedOut (st link)) := ⟨_, rfl⟩
    have hstep : Step chain st st' := by
      rw [hst']
      refine ⟨RaisedAll.update (.refl _) _ _ (raised_maxedOut _).1, fun b hb => ?_⟩
      have : b ≠ link := by rintro rfl; exact hb (hl _ List.mem_cons_self)
      rw [Function.update_of_ne this]
    simp only [maxOut, ← hst']
    split
    · rename_i h
      exact ⟨hstep, Or.inl ((objectMax_lt S st' bone false).1 h)⟩
    · obtain ⟨h1, h2⟩ := ih (fun b hb => hl b (List.mem_cons_of_mem _ hb)) st'
      refine ⟨hstep.trans h1, ?_⟩
      rcases h2 with h2 | h2
      · exact Or.inl h2
      · refine Or.inr (fun b hb => ?_)
        rcases List.mem_cons.1 hb with hb | hb
        · have : Maxed (st' b) := by rw [hb, hst', Function.update_self]; exact (raised_maxedOut _).2
          exact this.raised (h1.raised b)
        · exact h2 b hb

/-! ### A bone -/

/-- After a bone was processed: it meets its precision; or its chain has the highest rates, when they are tried; or, otherwise,
the highest rates for the bone itself are of no use in a state `mid` on the way. -/
def Settled {E : Type} [LinearOrder E] (S : Setup E) (chain : List Nat) (bone : Nat) (st st' : BitRates) : Prop :=
  Meets S st' bone ∨ (S.fullRotations = true ∧ ∀ b ∈ chain, Maxed (st' b)) ∨
    (S.fullRotations = false ∧ ∀ b rest, chain.reverse = b :: rest → ∃ mid, Step chain st mid ∧ Step chain mid st' ∧
      ¬ Meets S (Function.update mid b (maxedOut (mid b))) bone)

theorem optimizeBone_spec {E : Type} [LinearOrder E] (S : Setup E) (fuel : Nat) (permRates : BitRates) (chain : List Nat)
    (hnd : chain.Nodup) (bone : Nat) (hf1 : 72 < fuel) (hf2 : 72 * chain.length < fuel) (st bestRates : BitRates) :
    ∃ st' best', optimizeBone S fuel permRates chain bone st bestRates = some (st', best') ∧ Step chain st st' ∧
      Settled S chain bone st st' := by
  unfold optimizeBone
  by_cases hm : objectMax S st bone true < S.precision bone
  · rw [if_pos hm]
    exact ⟨_, _, rfl, .refl _ _, Or.inl ((objectMax_lt S st bone true).1 hm)⟩
  · rw [if_neg hm]
    obtain ⟨e, st₁, best₁, e1, h1⟩ := climb_spec S chain hnd bone permRates st (objectMax S st bone true) fuel
      (objectMax S st bone true) st bestRates (by have := chainRoom_le chain st; omega) (.refl _ _) (Or.inr le_rfl)
    simp only [e1, Option.bind_eq_bind, Option.bind_some]
    obtain ⟨st₂, hst₂⟩ : ∃ st₂, st₂ = if e < objectMax S st bone true then best₁ else st₁ := ⟨_, rfl⟩
    rw [← hst₂] at h1 ⊢
    obtain ⟨st₃, e₃, e2, h2, h3, h4⟩ := raiseAll_spec S chain bone fuel hf1 st₂
    simp only [finishBone, e2, Option.bind_eq_bind, Option.bind_some]
    by_cases hp : S.precision bone ≤ e₃
    · by_cases hfull : S.fullRotations = true
      · rw [if_pos ⟨hp, hfull⟩]
        obtain ⟨h5, h6⟩ := maxOut_spec S chain bone chain.reverse (fun b hb => List.mem_reverse.1 hb) st₃
        refine ⟨_, _, rfl, h1.trans (h2.trans h5), ?_⟩
        rcases h6 with h6 | h6
        · exact Or.inl h6
        · exact Or.inr (Or.inl ⟨hfull, fun b hb => h6 b (List.mem_reverse.2 hb)⟩)
      · rw [if_neg (fun h => hfull h.2)]
        refine ⟨_, _, rfl, h1.trans h2, Or.inr (Or.inr ⟨by simpa using hfull, ?_⟩)⟩
        intro b rest hb
        refine ⟨st₂, h1, h2, ?_⟩
        rw [← objectMax_lt S _ bone false]
        exact not_lt.2 (h4 hp b rest hb)
    · rw [if_neg (fun h => hp h.1)]
      refine ⟨_, _, rfl, h1.trans h2, Or.inl ?_⟩
      rw [← objectMax_lt S _ bone false, ← h3]
      exact not_le.1 hp

/-- All bones: each is settled when it is processed, and then rates are only raised further. -/
theorem optimizeBones_spec {E : Type} [LinearOrder E] (S : Setup E) (fuel : Nat) (permRates : BitRates)
    (chain : Nat → Option (List Nat)) (l : List Nat) (hf1 : 72 < fuel)
    (hc : ∀ b ∈ l, ∃ c, chain b = some c ∧ c.Nodup ∧ 72 * c.length < fuel) (st bestRates : BitRates) :
    ∃ st', optimizeBones S fuel permRates chain l st bestRates = some st' ∧ RaisedAll st st' ∧
      (∀ b, (∀ x ∈ l, ∀ c, chain x = some c → b ∉ c) → st' b = st b) ∧
      ∀ b ∈ l, ∃ c before after, chain b = some c ∧ RaisedAll st before ∧ Step c before after ∧
        Settled S c b before after ∧ RaisedAll after st' := by
  induction l generalizing st bestRates with
  | nil => exact ⟨st, rfl, .refl _, fun _ _ => rfl, by simp⟩
  | cons bone rest ih =>
    obtain ⟨c, hcb, hnd, hlen⟩ := hc bone List.mem_cons_self
    obtain ⟨st₁, best₁, e1, h1, h2⟩ := optimizeBone_spec S fuel permRates c hnd bone hf1 hlen st bestRates
    obtain ⟨st', e2, h3, h4, h5⟩ := ih (fun b hb => hc b (List.mem_cons_of_mem _ hb)) st₁ best₁
    refine ⟨st', by simp only [optimizeBones, hcb, e1, Option.bind_eq_bind, Option.bind_some]; exact e2,
      h1.raised.trans h3, ?_, ?_⟩
    · intro b hb
      rw [h4 b (fun x hx => hb x (List.mem_cons_of_mem _ hx)), h1.others b (hb bone List.mem_cons_self c hcb)]
    · intro b hb
      rcases List.mem_cons.1 hb with hb | hb
      · rw [hb]
        exact ⟨c, st, st₁, hcb, .refl _, h1, h2, h3⟩
      · obtain ⟨c', before, after, g1, g2, g3⟩ := h5 b hb
        exact ⟨c', before, after, g1, h1.raised.trans g2, g3⟩

end Acl.Search
