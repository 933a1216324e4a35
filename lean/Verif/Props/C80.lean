import Verif.Raw.StringMemory
/-!
C80: strings keep what they were made from and free exactly what they allocated. Model: Verif/Raw/StringMemory.lean. Specification:
`specStep`, strings as values.
-/
namespace Acl.C80
open Acl.StringMemory

/-- Specification: a string is a text, and the allocator it was given, if any. -/
structure Value where
  text : List Byte
  allocator : Option Nat

/-- Specification: the value of each live string. -/
abbrev Texts := Nat → Option Value

/-- Specification: a string is made in a variable that holds none, from one that is live (and is another one); `none` is a mistake of the
program, or text with a NUL in it. A moved string leaves an empty one, assigning exchanges the two, a copy has the same text
in memory of the allocator given to get_copy, or else of the allocator of the original (a copy of an empty string has none). -/
def specStep (t : Texts) : Op → Option Texts
  | .default v => if (t v).isNone then some (Function.update t v (some ⟨[], none⟩)) else none
  | .make v a text => if (t v).isNone ∧ (0 : Byte) ∉ text then some (Function.update t v (some ⟨text, some a⟩)) else none
  | .makeFrom v u a => if (t v).isNone then (t u).map fun x => Function.update t v (some ⟨x.text, some a⟩) else none
  | .move v u => if (t v).isNone then (t u).map fun x => Function.update (Function.update t v (some x)) u (some ⟨[], none⟩) else none
  | .assign v u => (t v).bind fun x => (t u).map fun y => Function.update (Function.update t v (some y)) u (some x)
  | .copy v u a => if (t v).isNone then (t u).map fun x =>
      Function.update t v (some (if x.text = [] then ⟨[], none⟩ else ⟨x.text, a <|> x.allocator⟩)) else none
  | .destroy v => (t v).map fun _ => Function.update t v none

/-- Specification: a program. -/
def specRun : List Op → Texts → Option Texts
  | [], t => some t
  | op :: ops, t => (specStep t op).bind (specRun ops)

/-- A string holds a text: nothing when it is empty, otherwise a block of its own allocator with the text and a NUL. -/
def Holds (h : Nat → Option Block) (next : Nat) (s : Str) (x : Value) : Prop :=
  (0 : Byte) ∉ x.text ∧ s.allocator = x.allocator ∧
    ((x.text = [] ∧ s.ptr = none) ∨ (x.text ≠ [] ∧ ∃ a b, s = ⟨some a, some b⟩ ∧ b < next ∧ h b = some ⟨a, x.text ++ [0]⟩))

structure Inv (st : State) (t : Texts) : Prop where
  live : ∀ v, (st.strings v = none ∧ t v = none) ∨ ∃ s x, st.strings v = some s ∧ t v = some x ∧ Holds st.heap st.next s x
  alone : ∀ v w s s' b, st.strings v = some s → st.strings w = some s' → s.ptr = some b → s'.ptr = some b → v = w
  owned : ∀ b, st.heap b ≠ none → b < st.next ∧ ∃ v s, st.strings v = some s ∧ s.ptr = some b

theorem untilNul_append (x : List Byte) (h : (0 : Byte) ∉ x) : untilNul (x ++ [0]) = some x := by
  induction x with
  | nil => rfl
  | cons b x ih =>
    simp only [List.mem_cons, not_or] at h
    simp only [List.cons_append, untilNul, if_neg (Ne.symm h.1), ih h.2, Option.map_some]

theorem chars_holds {h : Nat → Option Block} {a b : Nat} {x : List Byte} (hx : (0 : Byte) ∉ x) (hb : h b = some ⟨a, x ++ [0]⟩) :
    chars h b = some x := by
  unfold chars
  rw [hb]
  exact untilNul_append x hx

theorem live_of {st : State} {t : Texts} (h : Inv st t) {v : Nat} {x : Value} (hv : t v = some x) :
    ∃ s, st.strings v = some s ∧ Holds st.heap st.next s x := by
  rcases h.live v with ⟨-, h2⟩ | ⟨s, y, h1, h2, h3⟩
  · rw [hv] at h2; cases h2
  · rw [hv] at h2; injection h2 with h2; subst h2; exact ⟨s, h1, h3⟩

theorem none_of {st : State} {t : Texts} (h : Inv st t) {v : Nat} (hv : (t v).isNone) : st.strings v = none := by
  rcases h.live v with ⟨h1, -⟩ | ⟨s, y, -, h2, -⟩
  · exact h1
  · rw [h2] at hv; cases hv

/-- A new string without memory. -/
theorem inv_empty {st : State} {t : Texts} (h : Inv st t) {v : Nat} (hv : (t v).isNone) (s : Str) (hs : s.ptr = none) :
    Inv { st with strings := Function.update st.strings v (some s) } (Function.update t v (some ⟨[], s.allocator⟩)) := by
  have hn := none_of h hv
  constructor
  · intro w
    by_cases e : w = v
    · subst e; exact Or.inr ⟨s, ⟨[], s.allocator⟩, by simp, by simp, by simp, rfl, Or.inl ⟨rfl, hs⟩⟩
    · simpa [e] using h.live w
  · intro w1 w2 s1 s2 b h1 h2 p1 p2
    by_cases e1 : w1 = v
    · subst e1; simp at h1; subst h1; rw [hs] at p1; cases p1
    by_cases e2 : w2 = v
    · subst e2; simp at h2; subst h2; rw [hs] at p2; cases p2
    simp only [ne_eq, e1, e2, not_false_iff, Function.update_of_ne] at h1 h2
    exact h.alone w1 w2 s1 s2 b h1 h2 p1 p2
  · intro b hb
    obtain ⟨h1, w, s1, h2, h3⟩ := h.owned b hb
    refine ⟨h1, w, s1, ?_, h3⟩
    have e : w ≠ v := by rintro rfl; rw [hn] at h2; cases h2
    simpa [e] using h2

/-- A new string. -/
theorem inv_construct {st : State} {t : Texts} (h : Inv st t) {v : Nat} (hv : (t v).isNone) (a : Nat) (x : List Byte) (hx : (0 : Byte) ∉ x) :
    Inv (construct st v a x) (Function.update t v (some ⟨x, some a⟩)) := by
  unfold construct
  split
  · rename_i hl
    have hn := none_of h hv
    have hne : x ≠ [] := by rintro rfl; simp at hl
    have hlt : ∀ w s b, st.strings w = some s → s.ptr = some b → b < st.next := by
      intro w s b hw hb
      rcases h.live w with ⟨h1, -⟩ | ⟨s', y, h1, -, -, -, ⟨-, h3⟩ | ⟨-, a', b', h3, h4, -⟩⟩
      · rw [hw] at h1; cases h1
      · rw [hw] at h1; injection h1 with h1; subst h1; rw [hb] at h3; cases h3
      · rw [hw] at h1; injection h1 with h1; subst h1; subst h3; simp at hb; omega
    constructor
    · intro w
      by_cases e : w = v
      · subst e
        exact Or.inr ⟨⟨some a, some st.next⟩, ⟨x, some a⟩, by simp, by simp, hx, rfl, Or.inr ⟨hne, a, st.next, rfl, by simp, by simp⟩⟩
      · simp only [ne_eq, e, not_false_iff, Function.update_of_ne]
        rcases h.live w with h1 | ⟨s, y, h1, h2, h3, h3', h4⟩
        · exact Or.inl h1
        · refine Or.inr ⟨s, y, h1, h2, h3, h3', ?_⟩
          rcases h4 with h4 | ⟨h4, a', b', h5, h6, h7⟩
          · exact Or.inl h4
          · exact Or.inr ⟨h4, a', b', h5, by show b' < st.next + 1; omega, by
              show Function.update st.heap st.next _ b' = _
              rw [Function.update_of_ne (by omega)]; exact h7⟩
    · intro w1 w2 s1 s2 b h1 h2 p1 p2
      by_cases e1 : w1 = v <;> by_cases e2 : w2 = v
      · rw [e1, e2]
      · subst e1
        simp only [ne_eq, e2, not_false_iff, Function.update_of_ne, Function.update_self, Option.some.injEq] at h1 h2
        subst h1
        simp only [Option.some.injEq] at p1
        have := hlt w2 s2 b h2 p2
        omega
      · subst e2
        simp only [ne_eq, e1, not_false_iff, Function.update_of_ne, Function.update_self, Option.some.injEq] at h1 h2
        subst h2
        simp only [Option.some.injEq] at p2
        have := hlt w1 s1 b h1 p1
        omega
      · simp only [ne_eq, e1, e2, not_false_iff, Function.update_of_ne] at h1 h2
        exact h.alone w1 w2 s1 s2 b h1 h2 p1 p2
    · intro b hb
      by_cases e : b = st.next
      · subst e
        exact ⟨by simp, v, ⟨some a, some st.next⟩, by simp, rfl⟩
      · simp only [ne_eq, e, not_false_iff, Function.update_of_ne] at hb
        obtain ⟨h1, w, s, h2, h3⟩ := h.owned b hb
        have e' : w ≠ v := by rintro rfl; rw [hn] at h2; cases h2
        exact ⟨by show b < st.next + 1; omega, w, s, by simpa [e'] using h2, h3⟩
  · rename_i hl
    have : x = [] := by cases x with
      | nil => rfl
      | cons => simp at hl
    subst this
    exact inv_empty h hv ⟨some a, none⟩ rfl

theorem text_holds {st : State} {v : Nat} {s : Str} {x : Value} (hs : st.strings v = some s) (h : Holds st.heap st.next s x) :
    text st v = some x.text := by
  obtain ⟨hx, -, ⟨h1, h2⟩ | ⟨-, a, b, h1, -, h3⟩⟩ := h
  · simp [text, hs, h2, h1]
  · simp [text, hs, h1, chars_holds hx h3]

/-- Strings exchanged between variables. -/
theorem inv_perm {st : State} {t : Texts} (h : Inv st t) {v u : Nat} {s s' : Str} {x y : Value} (hv : st.strings v = some s) (hu : st.strings u = some s')
    (hs : Holds st.heap st.next s x) (hs' : Holds st.heap st.next s' y) :
    Inv { st with strings := Function.update (Function.update st.strings v (some s')) u (some s) }
      (Function.update (Function.update t v (some y)) u (some x)) := by
  have key : ∀ w r, Function.update (Function.update st.strings v (some s')) u (some s) w = some r →
      ∃ w', st.strings w' = some r ∧ ((w = u ∧ w' = v) ∨ (w ≠ u ∧ w = v ∧ w' = u) ∨ (w ≠ u ∧ w ≠ v ∧ w' = w)) := by
    intro w r hw
    by_cases e : w = u
    · subst e
      simp only [Function.update_self, Option.some.injEq] at hw
      subst hw
      exact ⟨v, hv, Or.inl ⟨rfl, rfl⟩⟩
    · by_cases e2 : w = v
      · subst e2
        simp only [ne_eq, e, not_false_iff, Function.update_of_ne, Function.update_self, Option.some.injEq] at hw
        subst hw
        exact ⟨u, hu, Or.inr (Or.inl ⟨e, rfl, rfl⟩)⟩
      · simp only [ne_eq, e, e2, not_false_iff, Function.update_of_ne] at hw
        exact ⟨w, hw, Or.inr (Or.inr ⟨e, e2, rfl⟩)⟩
  constructor
  · intro w
    by_cases e : w = u
    · subst e; exact Or.inr ⟨s, x, by simp, by simp, hs⟩
    · by_cases e2 : w = v
      · subst e2; exact Or.inr ⟨s', y, by simp [e], by simp [e], hs'⟩
      · simpa [e, e2] using h.live w
  · intro w1 w2 s1 s2 b h1 h2 p1 p2
    obtain ⟨w1', g1, c1⟩ := key w1 s1 h1
    obtain ⟨w2', g2, c2⟩ := key w2 s2 h2
    have := h.alone w1' w2' s1 s2 b g1 g2 p1 p2
    omega
  · intro b hb
    obtain ⟨h1, w, r, h2, h3⟩ := h.owned b hb
    refine ⟨h1, ?_⟩
    by_cases e : w = v
    · subst e
      rw [hv] at h2; injection h2 with h2; subst h2
      exact ⟨u, s, by simp, h3⟩
    · by_cases e2 : w = u
      · subst e2
        rw [hu] at h2; injection h2 with h2; subst h2
        refine ⟨v, s', ?_, h3⟩
        have e3 : v ≠ w := Ne.symm e
        simp [e3]
      · exact ⟨w, r, by simpa [e, e2] using h2, h3⟩

theorem inv_destroy {st : State} {t : Texts} (h : Inv st t) {v : Nat} {x : Value} (hv : t v = some x) :
    ∃ st', destroy st v = some st' ∧ Inv st' (Function.update t v none) := by
  obtain ⟨s, hs, hx, -, hh⟩ := live_of h hv
  rcases hh with ⟨h1, h2⟩ | ⟨h1, a, b, h2, h3, h4⟩
  · refine ⟨{ st with strings := Function.update st.strings v none }, by simp [destroy, hs, h2], ?_⟩
    constructor
    · intro w
      by_cases e : w = v
      · subst e; exact Or.inl ⟨by simp, by simp⟩
      · simpa [e] using h.live w
    · intro w1 w2 s1 s2 b g1 g2 p1 p2
      by_cases e1 : w1 = v
      · subst e1; simp at g1
      by_cases e2 : w2 = v
      · subst e2; simp at g2
      simp only [ne_eq, e1, e2, not_false_iff, Function.update_of_ne] at g1 g2
      exact h.alone w1 w2 s1 s2 b g1 g2 p1 p2
    · intro b hb
      obtain ⟨g1, w, r, g2, g3⟩ := h.owned b hb
      have e : w ≠ v := by rintro rfl; rw [hs] at g2; injection g2 with g2; subst g2; rw [h2] at g3; cases g3
      exact ⟨g1, w, r, by simpa [e] using g2, g3⟩
  · subst h2
    refine ⟨{ heap := Function.update st.heap b none, next := st.next, strings := Function.update st.strings v none }, ?_, ?_⟩
    · simp [destroy, hs, chars_holds hx h4, deallocate, h4]
    constructor
    · intro w
      by_cases e : w = v
      · subst e; exact Or.inl ⟨by simp, by simp⟩
      · simp only [ne_eq, e, not_false_iff, Function.update_of_ne]
        rcases h.live w with g | ⟨r, y, g1, g2, g3, g3', g4⟩
        · exact Or.inl g
        · refine Or.inr ⟨r, y, g1, g2, g3, g3', ?_⟩
          rcases g4 with g4 | ⟨g4, a', b', g5, g6, g7⟩
          · exact Or.inl g4
          · have e' : b' ≠ b := by
              rintro rfl
              subst g5
              exact e (h.alone w v _ _ b' g1 hs rfl rfl)
            exact Or.inr ⟨g4, a', b', g5, g6, by
              show Function.update st.heap b none b' = _
              rw [Function.update_of_ne e']; exact g7⟩
    · intro w1 w2 s1 s2 c g1 g2 p1 p2
      by_cases e1 : w1 = v
      · subst e1; simp at g1
      by_cases e2 : w2 = v
      · subst e2; simp at g2
      simp only [ne_eq, e1, e2, not_false_iff, Function.update_of_ne] at g1 g2
      exact h.alone w1 w2 s1 s2 c g1 g2 p1 p2
    · intro c hc
      by_cases e : c = b
      · subst e; simp at hc
      · simp only [ne_eq, e, not_false_iff, Function.update_of_ne] at hc
        obtain ⟨g1, w, r, g2, g3⟩ := h.owned c hc
        have e' : w ≠ v := by
          rintro rfl
          rw [hs] at g2; injection g2 with g2; subst g2
          simp at g3
          exact e g3.symm
        exact ⟨g1, w, r, by simpa [e'] using g2, g3⟩

/-- One operation. -/
theorem step_inv {st : State} {t t' : Texts} (h : Inv st t) (op : Op) (hop : specStep t op = some t') : ∃ st', step st op = some st' ∧ Inv st' t' := by
  cases op with
  | default v =>
    simp only [specStep, Option.ite_none_right_eq_some, Option.some.injEq] at hop
    obtain ⟨hv, rfl⟩ := hop
    exact ⟨_, rfl, inv_empty h hv empty rfl⟩
  | make v a x =>
    simp only [specStep, Option.ite_none_right_eq_some, Option.some.injEq] at hop
    obtain ⟨⟨hv, hx⟩, rfl⟩ := hop
    exact ⟨_, rfl, inv_construct h hv a x hx⟩
  | makeFrom v u a =>
    simp only [specStep, Option.ite_none_right_eq_some, Option.map_eq_some_iff] at hop
    obtain ⟨hv, x, hu, rfl⟩ := hop
    obtain ⟨s, hs, hh⟩ := live_of h hu
    exact ⟨construct st v a x.text, by simp [step, constructFrom, text_holds hs hh], inv_construct h hv a x.text hh.1⟩
  | move v u =>
    simp only [specStep, Option.ite_none_right_eq_some, Option.map_eq_some_iff] at hop
    obtain ⟨hv, x, hu, rfl⟩ := hop
    obtain ⟨s, hs, hh⟩ := live_of h hu
    have huv : u ≠ v := by rintro rfl; rw [hu] at hv; cases hv
    refine ⟨_, by simp only [step, moveConstruct, hs, Option.bind_eq_bind, Option.bind_some, Option.pure_def]; rfl, ?_⟩
    have h1 := inv_empty h hv empty rfl
    have h2 := inv_perm (v := v) (u := u) (s := empty) (s' := s) (x := ⟨[], none⟩) (y := x) h1 (by simp) (by simpa [huv] using hs) ⟨by simp, rfl, Or.inl ⟨rfl, rfl⟩⟩ hh
    simpa using h2
  | assign v u =>
    simp only [specStep, Option.bind_eq_some_iff, Option.map_eq_some_iff] at hop
    obtain ⟨x, hv, y, hu, rfl⟩ := hop
    obtain ⟨s, hs, hh⟩ := live_of h hv
    obtain ⟨s', hs', hh'⟩ := live_of h hu
    exact ⟨_, by simp only [step, moveAssign, hs, hs', Option.bind_eq_bind, Option.bind_some, Option.pure_def], inv_perm h hs hs' hh hh'⟩
  | copy v u a =>
    simp only [specStep, Option.ite_none_right_eq_some, Option.map_eq_some_iff] at hop
    obtain ⟨hv, x, hu, rfl⟩ := hop
    obtain ⟨s, hs, hx, ha, ⟨h1, h2⟩ | ⟨h1, a', b, h2, -, h4⟩⟩ := live_of h hu
    · rw [if_pos h1]
      exact ⟨_, by simp only [step, getCopy, hs, h2, Option.bind_eq_bind, Option.bind_some, Option.pure_def], inv_empty h hv empty rfl⟩
    · subst h2
      rw [if_neg h1, ← ha, show (a <|> some a') = some (a.getD a') by cases a <;> rfl]
      exact ⟨construct st v (a.getD a') x.text, by simp only [step, getCopy, hs, chars_holds hx h4, Option.bind_eq_bind, Option.bind_some, Option.pure_def],
        inv_construct h hv _ x.text hx⟩
  | destroy v =>
    simp only [specStep, Option.map_eq_some_iff] at hop
    obtain ⟨x, hv, rfl⟩ := hop
    exact inv_destroy h hv

theorem run_inv (ops : List Op) (st : State) (t t' : Texts) (h : Inv st t) (hop : specRun ops t = some t') : ∃ st', run ops st = some st' ∧ Inv st' t' := by
  induction ops generalizing st t with
  | nil => simp only [specRun, Option.some.injEq] at hop; subst hop; exact ⟨st, rfl, h⟩
  | cons op ops ih =>
    simp only [specRun, Option.bind_eq_some_iff] at hop
    obtain ⟨t1, h1, h2⟩ := hop
    obtain ⟨st1, g1, g2⟩ := step_inv h op h1
    obtain ⟨st2, g3, g4⟩ := ih st1 t1 g2 h2
    exact ⟨st2, by simp [run, g1, g3], g4⟩

theorem inv_start : Inv start (fun _ => none) := ⟨fun _ => Or.inl ⟨rfl, rfl⟩, (fun v w s s' b h => nomatch h), fun b hb => absurd rfl hb⟩

/-- C80: whatever a program does with strings, as long as it does not use variables that hold no string and puts no NUL in a text, no
operation accesses memory that is not there or frees a block that is not live, with another allocator or another size. At the end every
string has the text and the allocator the specification says, `empty` and `==` agree with that, and there are as many live blocks as strings that
are not empty: each of them has one of its own, from its allocator. -/
theorem C80_strings (ops : List Op) (t : Texts) (h : specRun ops (fun _ => none) = some t) :
    ∃ st, run ops start = some st ∧ (∀ v, text st v = (t v).map (·.text)) ∧ (∀ v, isEmpty st v = (t v).map fun x => x.text.isEmpty) ∧
      (∀ v, (st.strings v).map (·.allocator) = (t v).map (·.allocator)) ∧
      (∀ v u x y, t v = some x → t u = some y → equals st v u = some (decide (x.text = y.text))) ∧
      ∃ block : Nat → Option Nat, (∀ v, (block v).isSome ↔ ∃ x, t v = some x ∧ x.text ≠ []) ∧ (∀ b, st.heap b ≠ none ↔ ∃ v, block v = some b) ∧
        (∀ v b x, block v = some b → t v = some x → (st.heap b).map (fun k => some k.allocator) = some x.allocator) ∧
        ∀ v w b, block v = some b → block w = some b → v = w := by
  obtain ⟨st, h1, h2⟩ := run_inv ops start _ t inv_start h
  have htext : ∀ v, text st v = (t v).map (·.text) := by
    intro v
    rcases h2.live v with ⟨g1, g2⟩ | ⟨s, x, g1, g2, g3⟩
    · rw [g2]; simp [text, g1]
    · rw [g2, text_holds g1 g3]; rfl
  refine ⟨st, h1, htext, ?_, ?_, ?_, fun v => (st.strings v).bind (·.ptr), ?_, ?_, ?_, ?_⟩
  · intro v
    rcases h2.live v with ⟨g1, g2⟩ | ⟨s, ⟨x, al⟩, g1, g2, hx, -, ⟨g3, g4⟩ | ⟨g3, a, b, g4, -, g6⟩⟩
    · rw [g2]; simp [isEmpty, g1]
    · have g3' : x = [] := g3
      rw [g2]; simp [isEmpty, g1, g4, g3']
    · rw [g2]
      cases x with
      | nil => exact absurd rfl g3
      | cons c x =>
        simp only [List.mem_cons, not_or] at hx
        simp [isEmpty, g1, g4, g6]
        exact Ne.symm hx.1
  · intro v
    rcases h2.live v with ⟨g1, g2⟩ | ⟨s, x, g1, g2, -, g4, -⟩
    · rw [g1, g2]; rfl
    · rw [g1, g2]; simp [g4]
  · intro v u x y hv hu
    have e1 : text st v = some x.text := by rw [htext, hv]; rfl
    have e2 : text st u = some y.text := by rw [htext, hu]; rfl
    unfold equals
    simp only [e1, e2, Option.bind_eq_bind, Option.pure_def]
    simp only [Option.bind_some, List.take_length]
    generalize x.text = x
    generalize y.text = y
    by_cases hl : x.length = y.length
    · rw [if_neg (by simpa using hl)]
      split
      · rename_i h0
        have hx0 : x = [] := List.eq_nil_of_length_eq_zero h0
        have hy0 : y = [] := List.eq_nil_of_length_eq_zero (hl ▸ h0)
        simp [hx0, hy0]
      · by_cases e : x = y <;> simp [e]
    · rw [if_pos hl]
      have : x ≠ y := by rintro rfl; exact hl rfl
      simp [this]
  · intro v
    rcases h2.live v with ⟨g1, g2⟩ | ⟨s, x, g1, g2, -, -, ⟨g3, g4⟩ | ⟨g3, a, b, g4, -, -⟩⟩
    · simp [g1, g2]
    · simp [g1, g2, g4, g3]
    · simp [g1, g2, g4, g3]
  · intro b
    constructor
    · intro hb
      obtain ⟨-, v, s, g1, g2⟩ := h2.owned b hb
      exact ⟨v, by simp [g1, g2]⟩
    · rintro ⟨v, hv⟩
      rcases h2.live v with ⟨g1, g2⟩ | ⟨s, x, g1, g2, -, -, ⟨g3, g4⟩ | ⟨g3, a, b', g4, -, g6⟩⟩
      · simp [g1] at hv
      · simp [g1, g4] at hv
      · simp [g1, g4] at hv
        subst hv
        rw [g6]; nofun
  · intro v b x hv hx
    obtain ⟨s, hs, -, g2, ⟨g3, g4⟩ | ⟨g3, a, b', g4, -, g6⟩⟩ := live_of h2 hx
    · simp [hs, g4] at hv
    · subst g4
      simp only [hs, Option.bind_some, Option.some.injEq] at hv
      subst hv
      rw [g6, ← g2]; rfl
  · intro v w b hv hw
    simp only [Option.bind_eq_some_iff] at hv hw
    obtain ⟨s, g1, g2⟩ := hv
    obtain ⟨s', g3, g4⟩ := hw
    exact h2.alone v w s s' b g1 g3 g2 g4

/-- C80: when every string was destroyed, no block is left. -/
theorem C80_no_leak (ops : List Op) (t : Texts) (h : specRun ops (fun _ => none) = some t) (hall : ∀ v, t v = none) :
    ∃ st, run ops start = some st ∧ ∀ b, st.heap b = none := by
  obtain ⟨st, h1, -, -, -, -, block, h5, h6, -⟩ := C80_strings ops t h
  refine ⟨st, h1, fun b => ?_⟩
  by_contra hb
  obtain ⟨v, hv⟩ := (h6 b).1 hb
  obtain ⟨x, hx, -⟩ := (h5 v).1 (by rw [hv]; rfl)
  rw [hall v] at hx
  cases hx

/-- Finding: without asserts a string made from text with a NUL in it keeps the text up to the NUL only, and frees its memory with another
size than it was allocated with. -/
theorem C80_nul_finding (a : Nat) (x y : List Byte) (hx : (0 : Byte) ∉ x) :
    (run [.make 0 a (x ++ 0 :: y)] start).bind (fun st => text st 0) = some x ∧ run [.make 0 a (x ++ 0 :: y), .destroy 0] start = none := by
  have hu : ∀ z, untilNul (x ++ 0 :: z) = some x := by
    intro z
    clear y
    induction x with
    | nil => rfl
    | cons b x ih =>
      simp only [List.mem_cons, not_or] at hx
      simp only [List.cons_append, untilNul, if_neg (Ne.symm hx.1), ih hx.2, Option.map_some]
  have hl : 0 < x.length + (y.length + 1) := by omega
  constructor
  · simp [run, step, construct, text, chars, start, hl]
    exact hu _
  · simp [run, step, construct, destroy, chars, start, deallocate, hl]
    intro z hz
    have := (hu (y ++ [0])).symm.trans hz
    injection this with this
    rw [← this]
    omega

/-- A name that is copied, moved and exchanged. -/
def exOps : List Op := [.make 0 5 [104, 105], .copy 1 0 none, .move 2 0, .make 3 6 [111], .assign 3 2, .makeFrom 4 3 7, .destroy 1, .default 8]

example : ((specRun exOps fun _ => none).map fun t => [t 0, t 1, t 2, t 3, t 4, t 8].map fun x => x.map fun y => (y.text, y.allocator)) =
    some [some ([], none), none, some ([111], some 6), some ([104, 105], some 5), some ([104, 105], some 7), some ([], none)] := by decide +kernel

example : ((specRun (exOps ++ [.destroy 0, .destroy 2, .destroy 3, .destroy 4, .destroy 8]) fun _ => none).map fun t => (List.range 9).map fun v => (t v).isNone) =
    some (List.replicate 9 true) := by decide +kernel

end Acl.C80
