import Verif.Transform.BitRateObject
import Verif.Transform.HierarchyLemmas
import Verif.Props.C59
/-!
C62: the search for the bit rates of a segment ends, with legal bit rates. In local space it picks the smallest that meet the
precision of a bone, and of those the most accurate. In object space rates are only raised from there; with rotations stored as
full quaternions a bone ends up within its precision or its whole chain has the highest bit rates (when higher rates are never
worse). Otherwise the search may give up although higher rates would do (a finding).
-/
namespace Acl.C62
open Acl Acl.Raw Acl.Hierarchy Acl.Search

/-! ### Specification (see also BitRateSearchSpec.lean) -/

/-- Raising bit rates never makes an error larger. -/
def Monotone {E : Type} [LinearOrder E] (S : Setup E) : Prop :=
  ∀ st st', RaisedAll st st' → ∀ b s, S.objectError st' b s ≤ S.objectError st b s

/-- The error of a bone depends on the bones from the root to it. -/
def OfChain {E : Type} (S : Setup E) (parents : List Nat) : Prop :=
  ∀ b path, RootPath parents b path → ∀ st st' : BitRates, (∀ a ∈ path, st' a = st a) →
    ∀ s, S.objectError st' b s = S.objectError st b s

/-- `n - 2` zeros, 1 and 2: the parent of a bone raised by one and the bone by two -/
def oneTwo (n : Nat) : List Nat := List.replicate (n - 2) 0 ++ [1, 2]

/-! ### Proofs -/

theorem allowed_raised {k : Kinds} {r r' : Rates} (h : Allowed k r) (hr : RaisedRates r r') : Allowed k r' := by
  have one : ∀ (q : Bool × Bool) (a b : Nat), AllowedRate q a → Raised a b → AllowedRate q b := by
    rintro ⟨x, y⟩ a b ha hab
    unfold AllowedRate Raised at *
    cases x <;> cases y <;> simp at ha ⊢ <;> omega
  exact ⟨one _ _ _ h.1 hr.1, one _ _ _ h.2.1 hr.2.1, one _ _ _ h.2.2 hr.2.2⟩

theorem mapM_some {α β : Type} (f : α → Option β) (l : List α) (h : ∀ a ∈ l, ∃ b, f a = some b) :
    ∃ l', l.mapM f = some l' ∧ l'.length = l.length ∧ ∀ (i : Nat) (a : α), l[i]? = some a → ∃ b, f a = some b ∧ l'[i]? = some b := by
  induction l with
  | nil => exact ⟨[], rfl, rfl, by simp⟩
  | cons a l ih =>
    obtain ⟨b, hb⟩ := h a List.mem_cons_self
    obtain ⟨l', e, hl, hi⟩ := ih (fun x hx => h x (List.mem_cons_of_mem _ hx))
    refine ⟨b :: l', by simp [List.mapM_cons, hb, e], by simp [hl], ?_⟩
    intro i x hx
    cases i with
    | zero => simp at hx; subst hx; exact ⟨b, hb, rfl⟩
    | succ i => simpa using hi i x (by simpa using hx)

/-- The search as a whole -/
theorem find_spec {E : Type} [LinearOrder E] (S : Setup E) (parents : List Nat) (hv : ParentsValid parents)
    (ho : Ordered parents) (kinds : Nat → Kinds) (hh : ∀ b, S.precision b ≤ S.huge) (fuel : Nat)
    (hf : 72 * parents.length + 72 < fuel) (permRates : BitRates) :
    ∃ (st locals : BitRates), findOptimalBitRates S fuel permRates parents kinds = some st ∧
      (∀ b, b < parents.length → localRates S b (initialRates (kinds b)) = some (locals b)) ∧ RaisedAll locals st ∧
      ∀ b, b < parents.length → ∃ path before after, RootPath parents b path ∧ RaisedAll locals before ∧
        Step path before after ∧ Settled S path b before after ∧ RaisedAll after st := by
  obtain ⟨l, el, -, hl⟩ := mapM_some (fun b => localRates S b (initialRates (kinds b))) (List.range parents.length)
    (fun b _ => by
      obtain ⟨r, e, -⟩ := localRates_spec S b (kinds b) (hh b)
      exact ⟨r, e⟩)
  obtain ⟨locals, hlocals⟩ : ∃ st : BitRates, st = fun b => l.getD b { rotation := 0, translation := 0, scale := 0 } := ⟨_, rfl⟩
  obtain ⟨c, ec, hc⟩ := boneChain_spec hv ho fuel (by omega)
  have hmem : ∀ b ∈ sortParentFirst parents, b < parents.length :=
    fun b hb => List.mem_range.1 ((sort_perm parents).mem_iff.1 hb)
  obtain ⟨st, e, h1, -, h3⟩ := optimizeBones_spec S fuel permRates (boneChain c) (sortParentFirst parents) (by omega)
    (fun b hb => by
      obtain ⟨path, hp, ep⟩ := hc b (hmem b hb)
      have hasc := (hp.ascending ho).1
      have := ascending_length hasc hp.all_lt
      exact ⟨path, ep, hasc.imp (fun h => Nat.ne_of_lt h), by omega⟩) locals locals
  refine ⟨st, locals, ?_, ?_, h1, ?_⟩
  · simp only [findOptimalBitRates, el, ec, Option.bind_eq_bind, Option.bind_some, ← hlocals]
    exact e
  · intro b hb
    obtain ⟨r, e1, e2⟩ := hl b b (by simp [hb])
    rw [e1, hlocals]
    simp [e2]
  · intro b hb
    obtain ⟨path, before, after, g1, g2, g3, g4, g5⟩ := h3 b ((sort_perm parents).mem_iff.2 (List.mem_range.2 hb))
    obtain ⟨path', hp, ep⟩ := hc b hb
    have : path' = path := by rw [g1] at ep; exact (Option.some.inj ep).symm
    subst this
    exact ⟨_, before, after, hp, g2, g3, g4, g5⟩

/-- **C62.** In local space: the smallest legal bit rates that meet the precision, if there are any, and of those with that
size the most accurate. -/
theorem C62_local {E : Type} [LinearOrder E] (S : Setup E) (bone : Nat) (k : Kinds) (hh : S.precision bone ≤ S.huge) :
    ∃ r, localRates S bone (initialRates k) = some r ∧ Allowed k r ∧
      ((∃ r', Allowed k r' ∧ MeetsLocal S bone r') → MeetsLocal S bone r ∧
        ∀ r', Allowed k r' → MeetsLocal S bone r' → bitSize r ≤ bitSize r' ∧
          (bitSize r = bitSize r' → ∀ e e', Worst S.zero S.numSamples (S.localError bone r) e →
            Worst S.zero S.numSamples (S.localError bone r') e' → e ≤ e')) := by
  obtain ⟨r, e, ha, h⟩ := localRates_spec S bone k hh
  refine ⟨r, e, ha, fun hex => ?_⟩
  obtain ⟨hm, hmin⟩ := h hex
  refine ⟨hm, fun r' hr' hm' => ?_⟩
  obtain ⟨h1, h2⟩ := hmin r' hr' hm'
  refine ⟨h1, fun hs e e' he he' => ?_⟩
  rw [he.unique (localMax_worst S bone r hm), he'.unique (localMax_worst S bone r' hm')]
  exact h2 hs

/-- The search ends, whatever the errors are, with legal bit rates that are at least those found in local space, and whatever
the uninitialized buffer holds. -/
theorem C62_legal {E : Type} [LinearOrder E] (S : Setup E) (parents : List Nat) (hv : ParentsValid parents)
    (ho : Ordered parents) (kinds : Nat → Kinds) (hh : ∀ b, S.precision b ≤ S.huge) (fuel : Nat)
    (hf : 72 * parents.length + 72 < fuel) (permRates : BitRates) :
    ∃ st, findOptimalBitRates S fuel permRates parents kinds = some st ∧
      ∀ b, b < parents.length → Allowed (kinds b) (st b) ∧
        ∃ r, localRates S b (initialRates (kinds b)) = some r ∧ RaisedRates r (st b) := by
  obtain ⟨st, locals, e, h1, h2, -⟩ := find_spec S parents hv ho kinds hh fuel hf permRates
  refine ⟨st, e, fun b hb => ?_⟩
  obtain ⟨r, e1, ha, -⟩ := localRates_spec S b (kinds b) (hh b)
  have : r = locals b := by rw [h1 b hb] at e1; exact (Option.some.inj e1).symm
  rw [this] at ha
  exact ⟨allowed_raised ha (h2 b), locals b, h1 b hb, h2 b⟩

theorem climb_irrelevant {E : Type} [LinearOrder E] (S : Setup E) (chain : List Nat) (bone : Nat) (p p' : BitRates)
    (fuel : Nat) (error : E) (st best : BitRates) :
    climb S chain bone p fuel error st best = climb S chain bone p' fuel error st best := by
  induction fuel generalizing error st best with
  | zero => rfl
  | succ fuel ih =>
    simp only [climb]
    rw [tryAttempts_irrelevant S st chain bone error (attempts S.level chain.length)
      { found := false, error := error, bestError := error, bestRates := best } le_rfl p p']
    split
    · split
      · rfl
      · split
        · rfl
        · exact ih _ _ _
    · rfl

/-- The uninitialized buffer has no influence. -/
theorem C62_buffer {E : Type} [LinearOrder E] (S : Setup E) (fuel : Nat) (permRates permRates' : BitRates) (parents : List Nat)
    (kinds : Nat → Kinds) :
    findOptimalBitRates S fuel permRates parents kinds = findOptimalBitRates S fuel permRates' parents kinds := by
  have h1 : ∀ chain bone st best, optimizeBone S fuel permRates chain bone st best =
      optimizeBone S fuel permRates' chain bone st best := by
    intro chain bone st best
    unfold optimizeBone
    rw [climb_irrelevant S chain bone permRates permRates']
  have h2 : ∀ chain l st best, optimizeBones S fuel permRates chain l st best =
      optimizeBones S fuel permRates' chain l st best := by
    intro chain l
    induction l with
    | nil => intro st best; rfl
    | cons b l ih =>
      intro st best
      simp only [optimizeBones, h1, ih]
  simp only [findOptimalBitRates, h2]

theorem meets_mono {E : Type} [LinearOrder E] {S : Setup E} (hm : Monotone S) {st st' : BitRates} (h : RaisedAll st st') {b : Nat}
    (hb : Meets S st b) : Meets S st' b :=
  ⟨hb.1, fun s hs => lt_of_le_of_lt (hm st st' h b s) (hb.2 s hs)⟩

/-- With full quaternions, when raising rates does not make errors larger: every bone is within its precision, or it has the
highest bit rates and so have all its ancestors. -/
theorem C62_precision {E : Type} [LinearOrder E] (S : Setup E) (hm : Monotone S) (hfull : S.fullRotations = true)
    (parents : List Nat) (hv : ParentsValid parents) (ho : Ordered parents) (kinds : Nat → Kinds)
    (hh : ∀ b, S.precision b ≤ S.huge) (fuel : Nat) (hf : 72 * parents.length + 72 < fuel) (permRates st : BitRates)
    (hst : findOptimalBitRates S fuel permRates parents kinds = some st) (b : Nat) (path : List Nat)
    (hp : RootPath parents b path) : Meets S st b ∨ ∀ a ∈ path, Maxed (st a) := by
  obtain ⟨st', locals, e, -, -, h3⟩ := find_spec S parents hv ho kinds hh fuel hf permRates
  rw [hst] at e; cases e
  obtain ⟨path', before, after, g1, -, -, g4, g5⟩ := h3 b hp.lt
  have : path' = path := g1.unique hp
  subst this
  rcases g4 with g4 | ⟨-, g4⟩ | ⟨g4, -⟩
  · exact Or.inl (meets_mono hm g5 g4)
  · exact Or.inr (fun a ha => (g4 a ha).raised (g5 a))
  · rw [hfull] at g4; exact absurd g4 (by decide)

/-- Whatever the format: a root is out of its precision only if even the highest bit rates do not bring it within. -/
theorem C62_root {E : Type} [LinearOrder E] (S : Setup E) (hm : Monotone S) (parents : List Nat) (hc : OfChain S parents)
    (hv : ParentsValid parents) (ho : Ordered parents) (kinds : Nat → Kinds)
    (hh : ∀ b, S.precision b ≤ S.huge) (fuel : Nat) (hf : 72 * parents.length + 72 < fuel) (permRates st : BitRates)
    (hst : findOptimalBitRates S fuel permRates parents kinds = some st) (b : Nat) (hroot : parents[b]? = some invalidIndex) :
    Meets S st b ∨ ∀ r, RaisedRates (st b) r → Maxed r → ¬ Meets S (Function.update st b r) b := by
  have hp : RootPath parents b [b] := .root hroot
  by_cases hmeets : Meets S st b
  · exact Or.inl hmeets
  · right
    intro r hr hmax
    obtain ⟨st', locals, e, -, -, h3⟩ := find_spec S parents hv ho kinds hh fuel hf permRates
    rw [hst] at e; cases e
    obtain ⟨path', before, after, g1, -, -, g4, g5⟩ := h3 b hp.lt
    have : path' = [b] := g1.unique hp
    subst this
    rcases g4 with g4 | ⟨-, g4⟩ | ⟨-, g4⟩
    · exact absurd (meets_mono hm g5 g4) hmeets
    · have h1 : Maxed (st b) := (g4 b List.mem_cons_self).raised (g5 b)
      have h2 : r = st b := by
        rw [raised_maxed _ _ hr hmax]
        exact (raised_maxed _ _ (.refl _) h1).symm
      rw [h2, Function.update_eq_self]; exact hmeets
    · obtain ⟨mid, m1, m2, m3⟩ := g4 b [] rfl
      have h2 : r = maxedOut (mid b) :=
        raised_maxed _ _ ((m2.raised b).trans ((g5 b).trans hr)) hmax
      intro hh'
      apply m3
      refine ⟨hh'.1, fun s hs => ?_⟩
      rw [hc b [b] hp (Function.update st b r) (Function.update mid b (maxedOut (mid b))) (by
        intro a ha
        rw [List.mem_singleton] at ha
        rw [ha, Function.update_self, Function.update_self, h2]) s]
      exact hh'.2 s hs

/-! ### The increments that are tried -/

theorem mem_words (n : Nat) (p : List Nat) : p ∈ words n ↔ p.length = n ∧ ∀ d ∈ p, d ≤ 3 := by
  induction n generalizing p with
  | zero => simp [words]; intro h; rw [h]; simp
  | succ n ih =>
    simp only [words, List.mem_flatMap, List.mem_range, List.mem_map]
    constructor
    · rintro ⟨d, hd, l', hl', rfl⟩
      obtain ⟨h1, h2⟩ := (ih l').1 hl'
      refine ⟨by simp [h1], ?_⟩
      intro x hx
      rcases List.mem_cons.1 hx with hx | hx
      · omega
      · exact h2 x hx
    · rintro ⟨h1, h2⟩
      cases p with
      | nil => simp at h1
      | cons d l =>
        have := h2 d List.mem_cons_self
        exact ⟨d, by omega, l, (ih l).2 ⟨by simpa using h1, fun x hx => h2 x (List.mem_cons_of_mem _ hx)⟩, rfl⟩

theorem mem_from (a p : List Nat) (h3 : ∀ d ∈ a, d ≤ 3) : p ∈ permutationsFrom a ↔ p.Perm a ∧ lexLe a p = true := by
  simp only [permutationsFrom, List.mem_filter, mem_words, Bool.and_eq_true, List.isPerm_iff]
  constructor
  · rintro ⟨-, h⟩; exact h
  · intro h
    exact ⟨⟨h.1.length_eq, fun d hd => h3 d (h.1.mem_iff.1 hd)⟩, h⟩

theorem lexLe_cons (a b : Nat) (l m : List Nat) : lexLe (a :: l) (b :: m) = true ↔ a < b ∨ (a = b ∧ lexLe l m = true) := by
  simp [lexLe]

theorem sorted_le (a p : List Nat) (hs : a.Pairwise (· ≤ ·)) (hp : p.Perm a) : lexLe a p = true := by
  induction a generalizing p with
  | nil => rfl
  | cons x a ih =>
    cases p with
    | nil => exact absurd hp.length_eq (by simp)
    | cons y p =>
      rw [lexLe_cons]
      have hy : y ∈ x :: a := hp.mem_iff.1 List.mem_cons_self
      have hxy : x ≤ y := by
        rcases List.mem_cons.1 hy with hy | hy
        · exact hy.ge
        · exact (List.pairwise_cons.1 hs).1 y hy
      rcases Nat.lt_or_eq_of_le hxy with h | h
      · exact Or.inl h
      · subst h
        exact Or.inr ⟨rfl, ih p hs.of_cons (List.perm_cons _ |>.1 hp)⟩

theorem twoOne_le (m : Nat) (p : List Nat) (hp : p.Perm (List.replicate m 0 ++ [2, 1])) (hne : p ≠ List.replicate m 0 ++ [1, 2]) :
    lexLe (List.replicate m 0 ++ [2, 1]) p = true := by
  induction m generalizing p with
  | zero =>
    simp only [List.replicate_zero, List.nil_append] at *
    have hlen := hp.length_eq
    match p, hlen with
    | [a, b], _ =>
      have ha : a ∈ [2, 1] := hp.mem_iff.1 (by simp)
      have hb : b ∈ [2, 1] := hp.mem_iff.1 (by simp)
      have hsum := hp.sum_eq
      simp at ha hb hsum
      rcases ha with rfl | rfl
      · have : b = 1 := by omega
        subst this
        decide
      · have : b = 2 := by omega
        subst this
        exact absurd rfl hne
  | succ m ih =>
    cases p with
    | nil => exact absurd hp.length_eq (by simp)
    | cons y p =>
      rw [List.replicate_succ, List.cons_append] at hp hne ⊢
      rw [lexLe_cons]
      rcases Nat.eq_zero_or_pos y with h | h
      · subst h
        exact Or.inr ⟨rfl, ih p (List.perm_cons _ |>.1 hp) (fun hh => hne (by rw [hh]))⟩
      · exact Or.inl h

theorem not_twoOne_le (m : Nat) : ¬ lexLe (List.replicate m 0 ++ [2, 1]) (List.replicate m 0 ++ [1, 2]) = true := by
  induction m with
  | zero => decide
  | succ m ih =>
    rw [List.replicate_succ, List.cons_append, List.cons_append, lexLe_cons]
    rintro (h | h)
    · omega
    · exact ih h.2

/-- A list is its zeros followed by the rest. -/
theorem perm_pad (p : List Nat) : ∃ q, p.Perm (List.replicate (p.length - q.length) 0 ++ q) ∧ q.length ≤ p.length ∧
    q.sum = p.sum ∧ ∀ d ∈ q, 1 ≤ d := by
  induction p with
  | nil => exact ⟨[], by simp⟩
  | cons x p ih =>
    obtain ⟨q, h1, h2, h3, h4⟩ := ih
    rcases Nat.eq_zero_or_pos x with h | h
    · subst h
      refine ⟨q, ?_, by simp; omega, by simp [h3], h4⟩
      have : (0 :: p).length - q.length = (p.length - q.length) + 1 := by simp; omega
      rw [this, List.replicate_succ, List.cons_append]
      exact h1.cons _
    · refine ⟨x :: q, ?_, by simp; omega, by simp [h3], ?_⟩
      · have : (x :: p).length - (x :: q).length = p.length - q.length := by simp
        rw [this]
        exact (h1.cons x).trans List.perm_middle.symm
      · intro d hd
        rcases List.mem_cons.1 hd with hd | hd
        · omega
        · exact h4 d hd

theorem small_sums (q : List Nat) (h : ∀ d ∈ q, 1 ≤ d) :
    (q.sum = 1 → q = [1]) ∧ (q.sum = 2 → q = [2] ∨ q = [1, 1]) ∧
      (q.sum = 3 → q = [3] ∨ q = [2, 1] ∨ q = [1, 2] ∨ q = [1, 1, 1]) := by
  match q, h with
  | [], _ => simp
  | [a], h => simp
  | [a, b], h =>
    have h1 := h a (by simp)
    have h2 := h b (by simp)
    simp; omega
  | [a, b, c], h =>
    have h1 := h a (by simp)
    have h2 := h b (by simp)
    have h3 := h c (by simp)
    simp; omega
  | a :: b :: c :: d :: q, h =>
    have h1 := h a (by simp)
    have h2 := h b (by simp)
    have h3 := h c (by simp)
    have h4 := h d (by simp)
    simp; omega

/-- The increments that an iteration of the search tries for a chain of `n` bones: all that add up to 1; to 2 from the level
high on; to 3 at the highest level, except the ones that raise the bone by 2 and its parent by 1 (a finding: the permutations
start with the bone raised by 1 and its parent by 2, which is not the first). -/
theorem C62_increments (level n : Nat) (hn : 1 ≤ n) (p : List Nat) :
    p ∈ (attempts level n).flatMap permutationsFrom ↔
      p.length = n ∧ (p.sum = 1 ∨ (p.sum = 2 ∧ 3 ≤ level) ∨ (p.sum = 3 ∧ 4 ≤ level ∧ p ≠ oneTwo n)) := by
  have pad_small : ∀ l : List Nat, (∀ d ∈ l, d ≤ 3) → ∀ d ∈ List.replicate (n - l.length) 0 ++ l, d ≤ 3 := by
    intro l hl d hd
    rcases List.mem_append.1 hd with hd | hd
    · rw [(List.mem_replicate.1 hd).2]; omega
    · exact hl d hd
  have pad_sorted : ∀ l : List Nat, l.Pairwise (· ≤ ·) → (List.replicate (n - l.length) 0 ++ l).Pairwise (· ≤ ·) := by
    intro l hl
    rw [List.pairwise_append]
    refine ⟨?_, hl, ?_⟩
    · rw [List.pairwise_replicate]; exact Or.inr (Nat.le_refl 0)
    · intro a ha b _
      rw [(List.mem_replicate.1 ha).2]; omega
  -- membership in the permutations of a padded list
  have from_iff : ∀ l : List Nat, (∀ d ∈ l, d ≤ 3) → (p ∈ permutationsFrom (List.replicate (n - l.length) 0 ++ l) ↔
      p.Perm (List.replicate (n - l.length) 0 ++ l) ∧ lexLe (List.replicate (n - l.length) 0 ++ l) p = true) :=
    fun l hl => mem_from _ _ (pad_small l hl)
  have sorted_iff : ∀ l : List Nat, (∀ d ∈ l, d ≤ 3) → l.Pairwise (· ≤ ·) →
      (p ∈ permutationsFrom (List.replicate (n - l.length) 0 ++ l) ↔ p.Perm (List.replicate (n - l.length) 0 ++ l)) := by
    intro l hl hs
    rw [from_iff l hl]
    exact ⟨fun h => h.1, fun h => ⟨h, sorted_le _ _ (pad_sorted l hs) h⟩⟩
  have perm_sum : ∀ l : List Nat, l.length ≤ n → p.Perm (List.replicate (n - l.length) 0 ++ l) → p.length = n ∧ p.sum = l.sum := by
    intro l hl h
    refine ⟨?_, ?_⟩
    · rw [h.length_eq]; simp; omega
    · rw [h.sum_eq]; simp
  have s1 := sorted_iff [1] (by decide) (by decide)
  have s2 := sorted_iff [2] (by decide) (by decide)
  have s11 := sorted_iff [1, 1] (by decide) (by decide)
  have s3 := sorted_iff [3] (by decide) (by decide)
  have s111 := sorted_iff [1, 1, 1] (by decide) (by decide)
  have s21 := from_iff [2, 1] (by decide)
  have hmem : p ∈ (attempts level n).flatMap permutationsFrom ↔
      p ∈ permutationsFrom (List.replicate (n - [1].length) 0 ++ [1]) ∨
      (3 ≤ level ∧ (p ∈ permutationsFrom (List.replicate (n - [2].length) 0 ++ [2]) ∨
        (1 < n ∧ p ∈ permutationsFrom (List.replicate (n - [1, 1].length) 0 ++ [1, 1])))) ∨
      (4 ≤ level ∧ (p ∈ permutationsFrom (List.replicate (n - [3].length) 0 ++ [3]) ∨
        (1 < n ∧ (p ∈ permutationsFrom (List.replicate (n - [2, 1].length) 0 ++ [2, 1]) ∨
          (2 < n ∧ p ∈ permutationsFrom (List.replicate (n - [1, 1, 1].length) 0 ++ [1, 1, 1])))))) := by
    by_cases a1 : 3 ≤ level <;> by_cases a2 : 4 ≤ level <;> by_cases a3 : 1 < n <;> by_cases a4 : 2 < n <;>
      simp [attempts, a1, a2, a3, a4, or_assoc]
  rw [hmem, s1, s2, s11, s3, s111, s21]
  constructor
  · rintro (h | ⟨hlev, h | ⟨h1, h⟩⟩ | ⟨hlev, h | ⟨h1, ⟨h, hle⟩ | ⟨h2, h⟩⟩⟩)
    · obtain ⟨g1, g2⟩ := perm_sum _ (by simpa using hn) h
      exact ⟨g1, Or.inl g2⟩
    · obtain ⟨g1, g2⟩ := perm_sum _ (by simpa using hn) h
      exact ⟨g1, Or.inr (Or.inl ⟨g2, hlev⟩)⟩
    · obtain ⟨g1, g2⟩ := perm_sum _ (by simp; omega) h
      exact ⟨g1, Or.inr (Or.inl ⟨g2, hlev⟩)⟩
    · obtain ⟨g1, g2⟩ := perm_sum _ (by simpa using hn) h
      refine ⟨g1, Or.inr (Or.inr ⟨g2, hlev, ?_⟩)⟩
      intro he
      have : 1 ∈ List.replicate (n - [3].length) 0 ++ [3] := h.mem_iff.1 (by rw [he]; simp [oneTwo])
      simp at this
    · obtain ⟨g1, g2⟩ := perm_sum _ (by simp; omega) h
      refine ⟨g1, Or.inr (Or.inr ⟨g2, hlev, ?_⟩)⟩
      intro he
      rw [he] at hle
      exact not_twoOne_le _ hle
    · obtain ⟨g1, g2⟩ := perm_sum _ (by simp; omega) h
      refine ⟨g1, Or.inr (Or.inr ⟨g2, hlev, ?_⟩)⟩
      intro he
      have : 2 ∈ List.replicate (n - [1, 1, 1].length) 0 ++ [1, 1, 1] := h.mem_iff.1 (by rw [he]; simp [oneTwo])
      simp at this
  · rintro ⟨hlen, hsum⟩
    obtain ⟨q, h1, h2, h3, h4⟩ := perm_pad p
    rw [hlen] at h1 h2
    obtain ⟨q1, q2, q3⟩ := small_sums q h4
    rw [← h3] at hsum
    rcases hsum with hs | ⟨hs, hlev⟩ | ⟨hs, hlev, hne⟩
    · have := q1 hs
      subst this
      exact Or.inl h1
    · rcases q2 hs with hq | hq
      · subst hq; exact Or.inr (Or.inl ⟨hlev, Or.inl h1⟩)
      · subst hq; exact Or.inr (Or.inl ⟨hlev, Or.inr ⟨by simp at h2; omega, h1⟩⟩)
    · rcases q3 hs with hq | hq | hq | hq
      · subst hq; exact Or.inr (Or.inr ⟨hlev, Or.inl h1⟩)
      · subst hq
        exact Or.inr (Or.inr ⟨hlev, Or.inr ⟨by simp at h2; omega, Or.inl ⟨h1, twoOne_le _ _ h1 hne⟩⟩⟩)
      · subst hq
        have h1' : p.Perm (List.replicate (n - [2, 1].length) 0 ++ [2, 1]) :=
          h1.trans (List.Perm.append_left _ (List.Perm.swap 2 1 []))
        exact Or.inr (Or.inr ⟨hlev, Or.inr ⟨by simp at h2; omega, Or.inl ⟨h1', twoOne_le _ _ h1' hne⟩⟩⟩)
      · subst hq; exact Or.inr (Or.inr ⟨hlev, Or.inr ⟨by simp at h2; omega, Or.inr ⟨by simp at h2; omega, h1⟩⟩⟩)

/-! ### Giving up -/

/-- Two bones with an animated rotation. The error of the child is the larger of what both rotations contribute, which is
too much below 20 bits: 5 for the parent, 3 for the child. -/
def plateau : Setup Nat :=
  { numSamples := 1, localError := fun _ _ _ => 0,
    objectError := fun st b _ =>
      if b = 1 then max (if (st 0).rotation < 20 then 5 else 0) (if (st 1).rotation < 20 then 3 else 0) else 0,
    precision := fun _ => 1, zero := 0, huge := 10 ^ 10, hasScale := false, level := 4, fullRotations := false }

def rotationOnly : Nat → Kinds := fun _ => { rotation := (true, false), translation := (false, false), scale := (false, false) }

theorem plateau_monotone : Monotone plateau := by
  intro st st' h b s
  have h0 := (h 0).1
  have h1 := (h 1).1
  unfold Raised at h0 h1
  simp only [plateau]
  split
  · apply max_le_max
    · split <;> split <;> omega
    · split <;> split <;> omega
  · exact le_rfl

theorem exParents_valid : ParentsValid [invalidIndex, 0] ∧ Ordered [invalidIndex, 0] := by
  refine ⟨by unfold ParentsValid; decide +kernel, ?_⟩
  intro i p h
  have hi2 : i < 2 := (List.getElem?_eq_some_iff.1 h).1
  interval_cases i <;> (simp at h; subst h; simp)

theorem plateau_chain : OfChain plateau [invalidIndex, 0] := by
  intro b path hp st st' h s
  have hb := hp.lt
  have hb2 : b < 2 := hb
  interval_cases b
  · rfl
  · have hp1 : RootPath [invalidIndex, 0] 1 ([0] ++ [1]) :=
      .child (p := 0) rfl (by decide) (.root rfl)
    have hpath : path = [0, 1] := hp.unique hp1
    rw [hpath] at h
    simp only [plateau, h 0 (by simp), h 1 (by simp)]

/-- Finding: with a rotation format other than full quaternions (so with the default settings) the search may give up, at every
compression level, although the highest bit rates of the same sub-tracks are within the precision and higher rates are never
worse. -/
theorem C62_gives_up_finding :
    ∃ (S : Setup Nat) (parents : List Nat) (kinds : Nat → Kinds) (fuel : Nat) (st : BitRates), S.fullRotations = false ∧
      Monotone S ∧ OfChain S parents ∧ ParentsValid parents ∧ Ordered parents ∧ (∀ b, S.precision b ≤ S.huge) ∧
      72 * parents.length + 72 < fuel ∧ (∀ permRates, findOptimalBitRates S fuel permRates parents kinds = some st) ∧
      ¬ Meets S st 1 ∧
      ∃ st', RaisedAll st st' ∧ (∀ b, b < parents.length → Allowed (kinds b) (st' b)) ∧ ∀ b, Meets S st' b := by
  have ev : ((findOptimalBitRates plateau 217 (fun _ => ⟨0, 0, 0⟩) [invalidIndex, 0] rotationOnly).map
      fun st => (st 0, st 1)) = some (⟨20, 255, 255⟩, ⟨1, 255, 255⟩) := by decide +kernel
  obtain ⟨st, hst, h01⟩ := Option.map_eq_some_iff.1 ev
  obtain ⟨h0, h1⟩ := Prod.mk.injEq _ _ _ _ |>.mp h01
  refine ⟨plateau, [invalidIndex, 0], rotationOnly, 217, st, rfl, plateau_monotone, plateau_chain, exParents_valid.1,
    exParents_valid.2, fun b => by show 1 ≤ 10 ^ 10; norm_num, by decide, fun q => ?_, ?_, fun b => maxedOut (st b), ?_, ?_, ?_⟩
  · rw [← hst]; exact C62_buffer _ _ _ _ _ _
  · rintro ⟨-, h⟩
    have := h 0 (by decide)
    simp [plateau, h0, h1] at this
  · exact fun b => (raised_maxedOut _).1
  · intro b hb
    have hb2 : b < 2 := hb
    interval_cases b
    · show Allowed _ (maxedOut (st 0)); rw [h0]; unfold Allowed AllowedRate; decide
    · show Allowed _ (maxedOut (st 1)); rw [h1]; unfold Allowed AllowedRate; decide
  · intro b
    refine ⟨by show (0 : Nat) < 1; decide, fun s _ => ?_⟩
    have e0 : (maxedOut (st 0)).rotation = 24 := by rw [h0]; rfl
    have e1 : (maxedOut (st 1)).rotation = 24 := by rw [h1]; rfl
    simp [plateau, e0, e1]

/-! ### Non-vacuity -/

/-- The hypotheses of C62_precision and C62_root: the same errors with translations and full quaternions; the search maxes out
the child. -/
def fullPlateau : Setup Nat :=
  { plateau with
    objectError := fun st b _ =>
      if b = 1 then max (if (st 0).translation < 20 then 5 else 0) (if (st 1).translation < 20 then 3 else 0) else 0,
    fullRotations := true }

def translationOnly : Nat → Kinds :=
  fun _ => { rotation := (false, false), translation := (true, true), scale := (false, false) }

example : Monotone fullPlateau ∧ fullPlateau.fullRotations = true ∧ (∀ b, fullPlateau.precision b ≤ fullPlateau.huge) ∧
    ((findOptimalBitRates fullPlateau 217 (fun _ => ⟨0, 0, 0⟩) [invalidIndex, 0] translationOnly).map
      fun st => (st 0, st 1)) = some (⟨255, 20, 255⟩, ⟨255, 24, 255⟩) := by
  refine ⟨?_, rfl, fun b => by show 1 ≤ 10 ^ 10; norm_num, by decide +kernel⟩
  intro st st' h b s
  have h0 := (h 0).2.1
  have h1 := (h 1).2.1
  unfold Raised at h0 h1
  simp only [fullPlateau]
  split
  · apply max_le_max
    · split <;> split <;> omega
    · split <;> split <;> omega
  · exact le_rfl

/-- Local space: the error shrinks with the bits; 4 bits in total are too few, and of the permutations with 5 bits that are
good enough, (2, 3) and (3, 2), the second is more accurate. -/
def exLocal : Setup Nat :=
  { plateau with localError := fun _ r s => (10 - 3 * r.rotation) + (12 - 2 * r.translation) + s, precision := fun _ => 12,
                 numSamples := 2 }

example : localRates exLocal 0 (initialRates { rotation := (true, true), translation := (true, false), scale := (false, true) }) =
    some ⟨3, 2, 255⟩ := by decide +kernel

/-- The two permutations of a chain of two bones that raise it by 3 unevenly: only one is tried. -/
example : [2, 1] ∈ (attempts 4 2).flatMap permutationsFrom ∧ [1, 2] ∉ (attempts 4 2).flatMap permutationsFrom := by
  decide +kernel

end Acl.C62
