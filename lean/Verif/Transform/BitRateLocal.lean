import Mathlib.Tactic.Linarith
import Mathlib.Tactic.IntervalCases
import Mathlib.Data.List.Sort
import Verif.Transform.BitRateSearchSpec
/- Lemmas: the errors, and the search in local space. -/
namespace Acl.Search
open Acl

theorem scan_lt {E : Type} [LinearOrder E] (err : Nat → E) (thr : E) (b : Bool) (l : List Nat) (m : E) :
    scan err thr b l m < thr ↔ m < thr ∧ ∀ s ∈ l, err s < thr := by
  induction l generalizing m with
  | nil => simp [scan]
  | cons a l ih =>
    simp only [scan]
    split
    · rename_i h
      constructor
      · intro hh
        exact absurd (lt_of_le_of_lt (le_max_right _ _) hh) (not_lt.2 h.2)
      · intro hh
        exact absurd (hh.2 a List.mem_cons_self) (not_lt.2 h.2)
    · rw [ih]
      simp only [max_lt_iff, List.mem_cons, forall_eq_or_imp]
      tauto

theorem scan_worst {E : Type} [LinearOrder E] (err : Nat → E) (thr : E) (b : Bool) (l : List Nat) (m : E)
    (h : b = true → ∀ s ∈ l, err s < thr) :
    m ≤ scan err thr b l m ∧ (∀ s ∈ l, err s ≤ scan err thr b l m) ∧
      (scan err thr b l m = m ∨ ∃ s ∈ l, scan err thr b l m = err s) := by
  induction l generalizing m with
  | nil => exact ⟨le_rfl, by simp, Or.inl rfl⟩
  | cons a l ih =>
    have hno : ¬ (b = true ∧ thr ≤ err a) := fun hh => absurd (h hh.1 a List.mem_cons_self) (not_lt.2 hh.2)
    obtain ⟨h1, h2, h3⟩ := ih (max m (err a)) (fun hb s hs => h hb s (List.mem_cons_of_mem _ hs))
    simp only [scan]
    rw [if_neg hno]
    refine ⟨le_trans (le_max_left _ _) h1, ?_, ?_⟩
    · intro s hs
      rcases List.mem_cons.1 hs with hs | hs
      · rw [hs]; exact le_trans (le_max_right _ _) h1
      · exact h2 s hs
    · rcases h3 with h3 | ⟨s, hs, h3⟩
      · rw [h3]
        rcases max_cases m (err a) with ⟨h, -⟩ | ⟨h, -⟩
        · exact Or.inl h
        · exact Or.inr ⟨a, List.mem_cons_self, h⟩
      · exact Or.inr ⟨s, List.mem_cons_of_mem _ hs, h3⟩

theorem localMax_lt {E : Type} [LinearOrder E] (S : Setup E) (bone : Nat) (r : Rates) :
    localMax S bone r < S.precision bone ↔ MeetsLocal S bone r := by
  unfold localMax MeetsLocal
  rw [scan_lt]; simp

theorem objectMax_lt {E : Type} [LinearOrder E] (S : Setup E) (st : BitRates) (bone : Nat) (b : Bool) :
    objectMax S st bone b < S.precision bone ↔ Meets S st bone := by
  unfold objectMax Meets
  rw [scan_lt]; simp

theorem localMax_worst {E : Type} [LinearOrder E] (S : Setup E) (bone : Nat) (r : Rates) (h : MeetsLocal S bone r) :
    Worst S.zero S.numSamples (S.localError bone r) (localMax S bone r) := by
  obtain ⟨h1, h2, h3⟩ := scan_worst (S.localError bone r) (S.precision bone) true (List.range S.numSamples) S.zero
    (fun _ s hs => h.2 s (List.mem_range.1 hs))
  refine ⟨h1, fun s hs => h2 s (List.mem_range.2 hs), ?_⟩
  rcases h3 with h3 | ⟨s, hs, h3⟩
  · exact Or.inl h3
  · exact Or.inr ⟨s, List.mem_range.1 hs, h3⟩

theorem Worst.unique {E : Type} [LinearOrder E] {z : E} {n : Nat} {err : Nat → E} {e e' : E} (h : Worst z n err e)
    (h' : Worst z n err e') : e = e' := by
  have key : ∀ {a b : E}, Worst z n err a → Worst z n err b → a ≤ b := by
    intro a b ha hb
    rcases ha.2.2 with h3 | ⟨s, hs, h3⟩
    · rw [h3]; exact hb.1
    · rw [h3]; exact hb.2.1 s hs
  exact le_antisymm (key h h') (key h' h)

/-! ### The tables -/

theorem numBits_eq (rate : Nat) (h : rate ≤ 24) : numBits rate = bitsOf rate := by
  interval_cases rate <;> rfl

theorem mem_tuples (n : Nat) (l : List Nat) : l ∈ tuples n ↔ l.length = n ∧ ∀ d ∈ l, d ≤ 24 := by
  induction n generalizing l with
  | zero => simp [tuples]; intro h; simp [h]
  | succ n ih =>
    simp only [tuples, List.mem_flatMap, List.mem_range, List.mem_map]
    constructor
    · rintro ⟨d, hd, l', hl', rfl⟩
      obtain ⟨h1, h2⟩ := (ih l').1 hl'
      refine ⟨by simp [h1], ?_⟩
      intro x hx
      rcases List.mem_cons.1 hx with hx | hx
      · have : kNumBitRates = 25 := rfl
        omega
      · exact h2 x hx
    · rintro ⟨h1, h2⟩
      cases l with
      | nil => simp at h1
      | cons d l =>
        refine ⟨d, ?_, l, (ih l).2 ⟨by simpa using h1, fun x hx => h2 x (List.mem_cons_of_mem _ hx)⟩, rfl⟩
        have := h2 d List.mem_cons_self
        have : kNumBitRates = 25 := rfl
        omega

theorem bits_le (l : List Nat) (h : ∀ d ∈ l, d ≤ 24) : (l.map numBits).sum ≤ 32 * l.length := by
  induction l with
  | nil => simp
  | cons d l ih =>
    have h1 := ih (fun x hx => h x (List.mem_cons_of_mem _ hx))
    have h2 : numBits d ≤ 32 := by
      rw [numBits_eq d (h d List.mem_cons_self)]
      unfold bitsOf; split <;> (try split) <;> omega
    simp; omega

theorem mem_table (n : Nat) (l : List Nat) : l ∈ table n ↔ l.length = n ∧ ∀ d ∈ l, d ≤ 24 := by
  simp only [table, List.mem_flatMap, List.mem_range, List.mem_filter, mem_tuples, decide_eq_true_eq]
  constructor
  · rintro ⟨_, _, h, _⟩; exact h
  · intro h
    refine ⟨_, ?_, h, rfl⟩
    have := bits_le l h.2
    rw [h.1] at this; omega

theorem flatMap_sorted (f : Nat → List (List Nat)) (g : List Nat → Nat) (hf : ∀ s, ∀ l ∈ f s, g l = s) (n k : Nat) :
    ((List.range' k n).flatMap f).Pairwise (fun a b => g a ≤ g b) ∧ ∀ l ∈ (List.range' k n).flatMap f, k ≤ g l := by
  induction n generalizing k with
  | zero => simp
  | succ n ih =>
    rw [List.range'_succ, List.flatMap_cons]
    obtain ⟨h1, h2⟩ := ih (k + 1)
    refine ⟨?_, ?_⟩
    · rw [List.pairwise_append]
      refine ⟨?_, h1, ?_⟩
      · have : ∀ l : List (List Nat), (∀ x ∈ l, g x = k) → l.Pairwise (fun a b => g a ≤ g b) := by
          intro l hl
          induction l with
          | nil => exact .nil
          | cons a l ih =>
            refine List.pairwise_cons.2 ⟨fun b hb => ?_, ih (fun x hx => hl x (List.mem_cons_of_mem _ hx))⟩
            rw [hl a List.mem_cons_self, hl b (List.mem_cons_of_mem _ hb)]
        exact this _ (hf k)
      · intro a ha b hb
        rw [hf k a ha]
        exact le_trans (Nat.le_succ k) (h2 b hb)
    · intro l hl
      rcases List.mem_append.1 hl with hl | hl
      · rw [hf k l hl]
      · exact le_trans (Nat.le_succ k) (h2 l hl)

theorem table_sorted (n : Nat) : (table n).Pairwise (fun a b => (a.map numBits).sum ≤ (b.map numBits).sum) := by
  unfold table
  rw [List.range_eq_range']
  exact (flatMap_sorted _ (fun l => (l.map numBits).sum) (by
    intro s l hl
    simpa using (List.mem_filter.1 hl).2) _ 0).1

/-! ### The loop over the permutations -/

/-- The permutations that are measured -/
def options (initial : Rates) (rows : List (List Nat)) : List (Rates × Nat) :=
  rows.filterMap fun row => (desired initial row).bind fun x => if skipped initial x.1 then none else some x

/-- The loop over them -/
def optionLoop {E : Type} [LinearOrder E] (S : Setup E) (bone : Nat) : List (Rates × Nat) → LocalBest E → LocalBest E
  | [], b => b
  | x :: rest, b =>
    if b.goodEnough ∧ x.2 ≠ b.prevSize then b
    else optionLoop S bone rest (b.update (S.precision bone) x.1 x.2 (localMax S bone x.1))

theorem localLoop_options {E : Type} [LinearOrder E] (S : Setup E) (bone : Nat) (initial : Rates) (rows : List (List Nat))
    (hrows : ∀ row ∈ rows, (desired initial row).isSome) (b : LocalBest E) :
    localLoop S bone initial rows b = some (optionLoop S bone (options initial rows) b) := by
  induction rows generalizing b with
  | nil => rfl
  | cons row rows ih =>
    obtain ⟨x, hx⟩ := Option.isSome_iff_exists.1 (hrows row List.mem_cons_self)
    have ih' := ih (fun r hr => hrows r (List.mem_cons_of_mem _ hr))
    simp only [localLoop, options, hx, Option.bind_eq_bind, Option.bind_some, List.filterMap_cons]
    by_cases hs : skipped initial x.1 = true
    · simp only [hs, if_true]
      exact ih' b
    · simp only [hs, if_false, Bool.false_eq_true]
      simp only [optionLoop]
      split
      · rfl
      · exact ih' _

theorem optionLoop_good {E : Type} [LinearOrder E] (S : Setup E) (bone : Nat) (l : List (Rates × Nat)) (b : LocalBest E)
    (hg : b.goodEnough = true) (he : b.error < S.precision bone) :
    let b' := optionLoop S bone l b
    b'.error < S.precision bone ∧ b'.error ≤ b.error ∧
      ((b'.rates = b.rates ∧ b'.error = b.error) ∨ ∃ x ∈ l, x.2 = b.prevSize ∧ b'.rates = x.1 ∧ b'.error = localMax S bone x.1) ∧
      ((l.Pairwise (fun x y => x.2 ≤ y.2) ∧ ∀ x ∈ l, b.prevSize ≤ x.2) →
        ∀ x ∈ l, x.2 = b.prevSize → b'.error ≤ localMax S bone x.1) := by
  induction l generalizing b with
  | nil => exact ⟨he, le_rfl, Or.inl ⟨rfl, rfl⟩, by simp⟩
  | cons x l ih =>
    simp only [optionLoop]
    by_cases hx : x.2 = b.prevSize
    · rw [if_neg (by simp [hx])]
      obtain ⟨u, hu⟩ : ∃ u, u = b.update (S.precision bone) x.1 x.2 (localMax S bone x.1) := ⟨_, rfl⟩
      rw [← hu]
      have hup : u.prevSize = b.prevSize := by
        rw [hu, LocalBest.update]; split <;> exact hx
      by_cases hlt : localMax S bone x.1 < b.error
      · have hue : u.error = localMax S bone x.1 := by rw [hu, LocalBest.update, if_pos hlt]
        have hur : u.rates = x.1 := by rw [hu, LocalBest.update, if_pos hlt]
        have hug : u.goodEnough = true := by
          rw [hu, LocalBest.update, if_pos hlt]; simpa using lt_trans hlt he
        obtain ⟨h1, h2, h3, h4⟩ := ih u hug (by rw [hue]; exact lt_trans hlt he)
        refine ⟨h1, le_trans h2 (by rw [hue]; exact hlt.le), Or.inr ?_, ?_⟩
        · rcases h3 with ⟨h3, h3'⟩ | ⟨y, hy, h5, h6, h7⟩
          · exact ⟨x, List.mem_cons_self, hx, by rw [h3, hur], by rw [h3', hue]⟩
          · exact ⟨y, List.mem_cons_of_mem _ hy, by rw [h5, hup], h6, h7⟩
        · rintro ⟨hs, hp⟩ y hy hys
          rcases List.mem_cons.1 hy with hy | hy
          · rw [hy, ← hue]; exact h2
          · exact h4 ⟨hs.of_cons, fun z hz => by rw [hup]; exact hp z (List.mem_cons_of_mem _ hz)⟩ y hy (by rw [hup]; exact hys)
      · have hue : u.error = b.error := by rw [hu, LocalBest.update, if_neg hlt]
        have hur : u.rates = b.rates := by rw [hu, LocalBest.update, if_neg hlt]
        have hug : u.goodEnough = true := by rw [hu, LocalBest.update, if_neg hlt]; exact hg
        obtain ⟨h1, h2, h3, h4⟩ := ih u hug (by rw [hue]; exact he)
        refine ⟨h1, by rw [← hue]; exact h2, ?_, ?_⟩
        · rcases h3 with ⟨h3, h3'⟩ | ⟨y, hy, h5, h6, h7⟩
          · exact Or.inl ⟨by rw [h3, hur], by rw [h3', hue]⟩
          · exact Or.inr ⟨y, List.mem_cons_of_mem _ hy, by rw [h5, hup], h6, h7⟩
        · rintro ⟨hs, hp⟩ y hy hys
          rcases List.mem_cons.1 hy with hy | hy
          · rw [hy]; exact le_trans h2 (by rw [hue]; exact not_lt.1 hlt)
          · exact h4 ⟨hs.of_cons, fun z hz => by rw [hup]; exact hp z (List.mem_cons_of_mem _ hz)⟩ y hy (by rw [hup]; exact hys)
    · rw [if_pos ⟨hg, hx⟩]
      refine ⟨he, le_rfl, Or.inl ⟨rfl, rfl⟩, ?_⟩
      rintro ⟨hs, hp⟩ y hy hys
      have h1 := hp x List.mem_cons_self
      rcases List.mem_cons.1 hy with hy | hy
      · rw [hy] at hys; exact absurd hys hx
      · have := (List.pairwise_cons.1 hs).1 y hy
        omega

theorem optionLoop_spec {E : Type} [LinearOrder E] (S : Setup E) (bone : Nat) (l : List (Rates × Nat)) (b : LocalBest E)
    (hg : b.goodEnough = false) (he : S.precision bone ≤ b.error) (hs : l.Pairwise (fun x y => x.2 ≤ y.2)) :
    let b' := optionLoop S bone l b
    (b'.rates = b.rates ∨ ∃ x ∈ l, b'.rates = x.1) ∧
    ((∃ x ∈ l, localMax S bone x.1 < S.precision bone) →
      ∃ x ∈ l, b'.rates = x.1 ∧ localMax S bone x.1 < S.precision bone ∧
        ∀ y ∈ l, localMax S bone y.1 < S.precision bone →
          x.2 ≤ y.2 ∧ (x.2 = y.2 → localMax S bone x.1 ≤ localMax S bone y.1)) := by
  induction l generalizing b with
  | nil => exact ⟨Or.inl rfl, by simp⟩
  | cons x l ih =>
    simp only [optionLoop]
    rw [if_neg (by simp [hg])]
    obtain ⟨u, hu⟩ : ∃ u, u = b.update (S.precision bone) x.1 x.2 (localMax S bone x.1) := ⟨_, rfl⟩
    rw [← hu]
    have hle := (List.pairwise_cons.1 hs).1
    by_cases hm : localMax S bone x.1 < S.precision bone
    · have hlt : localMax S bone x.1 < b.error := lt_of_lt_of_le hm he
      have hue : u.error = localMax S bone x.1 := by rw [hu, LocalBest.update, if_pos hlt]
      have hur : u.rates = x.1 := by rw [hu, LocalBest.update, if_pos hlt]
      have hup : u.prevSize = x.2 := by rw [hu, LocalBest.update, if_pos hlt]
      have hug : u.goodEnough = true := by rw [hu, LocalBest.update, if_pos hlt]; simpa using hm
      obtain ⟨h1, h2, h3, h4⟩ := optionLoop_good S bone l u hug (by rw [hue]; exact hm)
      have h4' := h4 ⟨hs.of_cons, fun z hz => by rw [hup]; exact hle z hz⟩
      rcases h3 with ⟨h3, h3'⟩ | ⟨y, hy, h5, h6, h7⟩
      · refine ⟨Or.inr ⟨x, List.mem_cons_self, by rw [h3, hur]⟩, fun _ => ⟨x, List.mem_cons_self, by rw [h3, hur], hm, ?_⟩⟩
        intro y hy hym
        rcases List.mem_cons.1 hy with hy | hy
        · rw [hy]; exact ⟨le_rfl, fun _ => le_rfl⟩
        · refine ⟨hle y hy, fun hxy => ?_⟩
          rw [← hue, ← h3']
          exact h4' y hy (by rw [hup]; exact hxy.symm)
      · refine ⟨Or.inr ⟨y, List.mem_cons_of_mem _ hy, h6⟩, fun _ => ⟨y, List.mem_cons_of_mem _ hy, h6, by rw [← h7]; exact h1, ?_⟩⟩
        intro z hz hzm
        rcases List.mem_cons.1 hz with hz | hz
        · rw [hz, h5, hup]
          exact ⟨le_rfl, fun _ => by rw [← h7, ← hue]; exact h2⟩
        · refine ⟨by rw [h5, hup]; exact hle z hz, fun hxy => ?_⟩
          rw [← h7]
          exact h4' z hz (by rw [← hxy, h5])
    · have hue : S.precision bone ≤ u.error := by
        rw [hu, LocalBest.update]; split
        · exact not_lt.1 hm
        · exact he
      have hug : u.goodEnough = false := by
        rw [hu, LocalBest.update]; split
        · simpa using not_lt.1 hm
        · exact hg
      obtain ⟨h1, h2⟩ := ih u hug hue hs.of_cons
      have hur : u.rates = b.rates ∨ u.rates = x.1 := by
        rw [hu, LocalBest.update]; split
        · exact Or.inr rfl
        · exact Or.inl rfl
      refine ⟨?_, ?_⟩
      · rcases h1 with h1 | ⟨y, hy, h1⟩
        · rcases hur with hur | hur
          · exact Or.inl (by rw [h1, hur])
          · exact Or.inr ⟨x, List.mem_cons_self, by rw [h1, hur]⟩
        · exact Or.inr ⟨y, List.mem_cons_of_mem _ hy, h1⟩
      · rintro ⟨y, hy, hym⟩
        have hyl : y ∈ l := by
          rcases List.mem_cons.1 hy with hy | hy
          · rw [hy] at hym; exact absurd hym hm
          · exact hy
        obtain ⟨z, hz, hz1, hz2, hz3⟩ := h2 ⟨y, hyl, hym⟩
        refine ⟨z, List.mem_cons_of_mem _ hz, hz1, hz2, ?_⟩
        intro w hw hwm
        rcases List.mem_cons.1 hw with hw | hw
        · rw [hw] at hwm; exact absurd hwm hm
        · exact hz3 w hw hwm

/-! ### The permutations and the legal rates -/

/-- A rate that a permutation may give to a sub-track -/
def Given (k : Bool × Bool) (d : Nat) : Prop := (k.1 = false ∧ d = 255) ∨ (k.1 = true ∧ d ≤ 24)

def needs (k : Bool × Bool) : Nat := if k.1 then 1 else 0

theorem initial_invalid (k : Bool × Bool) : initialRate k = kInvalidBitRate ↔ k.1 = false := by
  obtain ⟨a, b⟩ := k
  cases a <;> cases b <;> simp [initialRate, kInvalidBitRate, kLowestBitRate]

theorem initial_lowest (k : Bool × Bool) : initialRate k = kLowestBitRate ↔ k.1 = true ∧ k.2 = false := by
  obtain ⟨a, b⟩ := k
  cases a <;> cases b <;> simp [initialRate, kInvalidBitRate, kLowestBitRate]

theorem numDofs_initial (k : Kinds) : numDofs (initialRates k) = needs k.rotation + needs k.translation + needs k.scale := by
  unfold numDofs initialRates needs
  simp only [ne_eq, initial_invalid, Bool.not_eq_false]

theorem consume_spec (k : Bool × Bool) (row : List Nat) (hl : needs k ≤ row.length) (hr : ∀ d ∈ row, d ≤ 24) :
    ∃ d rest, consume (initialRate k) row = some (d, bitsOf d, rest) ∧ (row.map numBits).sum = bitsOf d + (rest.map numBits).sum ∧
      row.length = needs k + rest.length ∧ (∀ d ∈ rest, d ≤ 24) ∧ Given k d := by
  by_cases hk : k.1 = false
  · refine ⟨255, row, ?_, by simp [bitsOf], by simp [needs, hk], hr, Or.inl ⟨hk, rfl⟩⟩
    rw [consume.eq_def, if_pos ((initial_invalid k).2 hk), (initial_invalid k).2 hk]; rfl
  · have hk' : k.1 = true := by simpa using hk
    cases row with
    | nil => simp [needs, hk'] at hl
    | cons d rest =>
      have hd := hr d List.mem_cons_self
      refine ⟨d, rest, ?_, ?_, by simp [needs, hk']; omega, fun x hx => hr x (List.mem_cons_of_mem _ hx), Or.inr ⟨hk', hd⟩⟩
      · rw [consume.eq_def, if_neg (fun h => hk ((initial_invalid k).1 h)), ← numBits_eq d hd]
      · simp [numBits_eq d hd]

theorem consume_given (k : Bool × Bool) (d : Nat) (h : Given k d) (rest : List Nat) :
    consume (initialRate k) ((if k.1 then [d] else []) ++ rest) = some (d, bitsOf d, rest) := by
  rcases h with ⟨hk, hd⟩ | ⟨hk, hd⟩
  · rw [consume.eq_def, if_pos ((initial_invalid k).2 hk), (initial_invalid k).2 hk, hk, hd]; rfl
  · rw [consume.eq_def, if_neg (fun h => by rw [(initial_invalid k).1 h] at hk; exact absurd hk (by decide)), hk]
    simp [numBits_eq d hd]

theorem desired_spec (k : Kinds) (row : List Nat) (hl : row.length = numDofs (initialRates k)) (hr : ∀ d ∈ row, d ≤ 24) :
    ∃ r, desired (initialRates k) row = some (r, bitSize r) ∧ bitSize r = (row.map numBits).sum ∧
      Given k.rotation r.rotation ∧ Given k.translation r.translation ∧ Given k.scale r.scale := by
  rw [numDofs_initial] at hl
  obtain ⟨d0, row0, e0, s0, l0, h0, g0⟩ := consume_spec k.rotation row (by omega) hr
  obtain ⟨d1, row1, e1, s1, l1, h1, g1⟩ := consume_spec k.translation row0 (by omega) h0
  obtain ⟨d2, row2, e2, s2, l2, h2, g2⟩ := consume_spec k.scale row1 (by omega) h1
  have hnil : row2 = [] := List.length_eq_zero_iff.1 (by omega)
  refine ⟨⟨d0, d1, d2⟩, ?_, ?_, g0, g1, g2⟩
  · simp only [desired, initialRates, e0, e1, e2, Option.bind_eq_bind, Option.bind_some]
    rfl
  · rw [s0, s1, s2, hnil]; simp [bitSize]; omega

theorem desired_given (k : Kinds) (r : Rates) (g0 : Given k.rotation r.rotation) (g1 : Given k.translation r.translation)
    (g2 : Given k.scale r.scale) :
    ∃ row, row.length = numDofs (initialRates k) ∧ (∀ d ∈ row, d ≤ 24) ∧ desired (initialRates k) row = some (r, bitSize r) := by
  refine ⟨(if k.rotation.1 then [r.rotation] else []) ++ ((if k.translation.1 then [r.translation] else []) ++
    ((if k.scale.1 then [r.scale] else []) ++ [])), ?_, ?_, ?_⟩
  · rw [numDofs_initial]
    simp only [List.length_append, needs]
    split <;> split <;> split <;> simp
  · intro d hd
    have one : ∀ (q : Bool × Bool) (x : Nat), Given q x → d ∈ (if q.1 then [x] else []) → d ≤ 24 := by
      intro q x g h
      rcases g with ⟨hq, -⟩ | ⟨hq, hx⟩
      · rw [hq] at h; simp at h
      · rw [hq] at h; simp at h; rw [h]; exact hx
    simp only [List.mem_append, List.not_mem_nil, or_false] at hd
    rcases hd with hd | hd | hd
    · exact one _ _ g0 hd
    · exact one _ _ g1 hd
    · exact one _ _ g2 hd
  · simp only [desired, initialRates, consume_given _ _ g0, consume_given _ _ g1, consume_given _ _ g2, Option.bind_eq_bind,
      Option.bind_some]
    rfl

theorem allowed_rate_iff (k : Bool × Bool) (d : Nat) :
    AllowedRate k d ↔ Given k d ∧ (initialRate k == kLowestBitRate && d == 0) = false := by
  obtain ⟨a, b⟩ := k
  cases a <;> cases b <;> simp [AllowedRate, Given, initialRate, kInvalidBitRate, kLowestBitRate]

theorem allowed_iff (k : Kinds) (r : Rates) : Allowed k r ↔
    (Given k.rotation r.rotation ∧ Given k.translation r.translation ∧ Given k.scale r.scale) ∧
      skipped (initialRates k) r = false := by
  unfold Allowed skipped
  simp only [allowed_rate_iff, initialRates, Bool.or_eq_false_iff]
  tauto

theorem initial_allowed (k : Kinds) : Allowed k (initialRates k) := by
  have one : ∀ q : Bool × Bool, AllowedRate q (initialRate q) := by
    rintro ⟨a, b⟩
    cases a <;> cases b <;> simp [AllowedRate, initialRate, kInvalidBitRate, kLowestBitRate]
  exact ⟨one _, one _, one _⟩

theorem mem_options (k : Kinds) (x : Rates × Nat) :
    x ∈ options (initialRates k) (table (numDofs (initialRates k))) ↔ Allowed k x.1 ∧ x.2 = bitSize x.1 := by
  simp only [options, List.mem_filterMap, mem_table]
  constructor
  · rintro ⟨row, ⟨hl, hr⟩, h⟩
    obtain ⟨r, e, -, g⟩ := desired_spec k row hl hr
    rw [e, Option.bind_some] at h
    by_cases hs : skipped (initialRates k) r = true
    · rw [if_pos hs] at h; exact absurd h (by simp)
    · rw [if_neg hs] at h
      cases h
      exact ⟨(allowed_iff k r).2 ⟨g, by simpa using hs⟩, rfl⟩
  · rintro ⟨ha, hx⟩
    obtain ⟨⟨g0, g1, g2⟩, hs⟩ := (allowed_iff k x.1).1 ha
    obtain ⟨row, hl, hr, e⟩ := desired_given k x.1 g0 g1 g2
    refine ⟨row, ⟨hl, hr⟩, ?_⟩
    rw [e, Option.bind_some, if_neg (by simp [hs]), ← hx]

theorem options_sorted (k : Kinds) :
    (options (initialRates k) (table (numDofs (initialRates k)))).Pairwise (fun x y => x.2 ≤ y.2) := by
  unfold options
  rw [List.pairwise_filterMap]
  refine (table_sorted _).imp_of_mem ?_
  intro a b ha hb hab x hx y hy
  have key : ∀ row ∈ table (numDofs (initialRates k)), ∀ x : Rates × Nat,
      ((desired (initialRates k) row).bind fun x => if skipped (initialRates k) x.1 then none else some x) = some x →
      x.2 = (row.map numBits).sum := by
    intro row hrow x hx
    obtain ⟨hl, hr⟩ := (mem_table _ _).1 hrow
    obtain ⟨r, e, hsz, -⟩ := desired_spec k row hl hr
    rw [e, Option.bind_some] at hx
    split at hx
    · exact absurd hx (by simp)
    · cases hx; exact hsz
  rw [key a ha x hx, key b hb y hy]
  exact hab

theorem localRates_spec {E : Type} [LinearOrder E] (S : Setup E) (bone : Nat) (k : Kinds) (hh : S.precision bone ≤ S.huge) :
    ∃ r, localRates S bone (initialRates k) = some r ∧ Allowed k r ∧
      ((∃ r', Allowed k r' ∧ MeetsLocal S bone r') → MeetsLocal S bone r ∧
        ∀ r', Allowed k r' → MeetsLocal S bone r' →
          bitSize r ≤ bitSize r' ∧ (bitSize r = bitSize r' → localMax S bone r ≤ localMax S bone r')) := by
  by_cases h0 : numDofs (initialRates k) = 0
  · refine ⟨initialRates k, by rw [localRates, if_pos h0], initial_allowed k, ?_⟩
    have honly : ∀ r', Allowed k r' → r' = initialRates k := by
      intro r' hr'
      rw [numDofs_initial] at h0
      have one : ∀ (q : Bool × Bool) (d : Nat), needs q = 0 → AllowedRate q d → d = initialRate q := by
        intro q d hq ha
        have hq1 : q.1 = false := by
          cases h : q.1
          · rfl
          · rw [needs, h] at hq; simp at hq
        rcases ha with ⟨-, ha⟩ | ⟨ha, -⟩
        · rw [(initial_invalid q).2 hq1, ha]; rfl
        · rw [hq1] at ha; exact absurd ha (by decide)
      obtain ⟨a, b, c⟩ := r'
      obtain ⟨h1, h2, h3⟩ := hr'
      simp only [initialRates, Rates.mk.injEq]
      exact ⟨one _ _ (by omega) h1, one _ _ (by omega) h2, one _ _ (by omega) h3⟩
    rintro ⟨r', hr', hm⟩
    rw [honly r' hr'] at hm
    refine ⟨hm, fun r'' hr'' _ => ?_⟩
    rw [honly r'' hr'']
    exact ⟨le_rfl, fun _ => le_rfl⟩
  · obtain ⟨h1, h2⟩ := optionLoop_spec S bone (options (initialRates k) (table (numDofs (initialRates k))))
      { rates := initialRates k, error := S.huge, prevSize := 2 ^ 32 - 1, goodEnough := false } rfl hh (options_sorted k)
    refine ⟨(optionLoop S bone (options (initialRates k) (table (numDofs (initialRates k))))
      { rates := initialRates k, error := S.huge, prevSize := 2 ^ 32 - 1, goodEnough := false }).rates, ?_, ?_, ?_⟩
    · rw [localRates, if_neg h0, localLoop_options]
      · rfl
      · intro row hrow
        obtain ⟨hl, hr⟩ := (mem_table _ _).1 hrow
        obtain ⟨r, e, -⟩ := desired_spec k row hl hr
        rw [e]; rfl
    · rcases h1 with h1 | ⟨x, hx, h1⟩
      · rw [h1]; exact initial_allowed k
      · rw [h1]; exact ((mem_options k x).1 hx).1
    · rintro ⟨r', hr', hm⟩
      obtain ⟨x, hx, e, hlt, hmin⟩ := h2 ⟨(r', bitSize r'), (mem_options k _).2 ⟨hr', rfl⟩, (localMax_lt S bone r').2 hm⟩
      obtain ⟨-, hsz⟩ := (mem_options k x).1 hx
      rw [e]
      refine ⟨(localMax_lt S bone _).1 hlt, fun r'' hr'' hm'' => ?_⟩
      have := hmin (r'', bitSize r'') ((mem_options k _).2 ⟨hr'', rfl⟩) ((localMax_lt S bone _).2 hm'')
      rw [hsz] at this
      exact this

end Acl.Search
