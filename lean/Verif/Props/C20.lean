import Verif.Context.Model
/-!
C20: what a seek gives does not depend on the history of the context, with one exception: seeking again at the same
(clamped) time with the same rounding policy returns early, also when data was streamed or the looping policy was changed
in between. Model: Verif/Context/Model.lean. Specification: `Fresh` below, `Context.observe`.
-/
namespace Acl.C20
open Acl.Context Acl.Interp Acl.F32

variable {F : Type}

/-- Specification: `f` is a fresh context, just initialized with these tracks and this database, with this looping policy. -/
def Fresh (k : Kind F) (s : Settings) (w : World) (a : Nat) (db : Option Nat) (p : Looping) (f : Ctx F) : Prop :=
  ∃ f0, initCtx k s w {} a db = some (f0, true) ∧ setLoopingPolicy s w f0 p = some f

/-- What is asked of the compressed tracks in memory: they do not change while contexts are bound to them, have a sample
rate, no two different ones have the same hash, and the ones without tracks are empty for seek (both kinds check). -/
structure Tame (k : Kind F) (w0 : World) (ops : List Op) : Prop where
  fixed : ∀ w, Op.world w ∈ ops → w.tracks = w0.tracks
  rate : ∀ a, 0 < (w0.tracks a).clip.sampleRate
  hashes : ∀ a b, (w0.tracks a).hash = (w0.tracks b).hash → w0.tracks a = w0.tracks b

/-- The policy, duration and hash of a bound context go with its tracks. -/
def Bound (s : Settings) (T : Nat → Tracks) (c : Ctx F) : Prop :=
  ∀ a, c.tracks = some a → c.tracksHash = (T a).hash ∧ c.looping ≠ .asCompressed ∧ (s.wrapping = false → c.looping = .clamp) ∧
    c.duration = (T a).clip.finiteDuration c.looping

/-- The policy seek goes by. -/
def eff (s : Settings) (c : Ctx F) : Looping := if s.wrapping then c.looping else .clamp

/-- What the context holds was computed in world `w` with policy `p`. -/
def Holds (k : Kind F) (s : Settings) (w : World) (c : Ctx F) (p : Looping) (a : Nat) : Prop :=
  k.isEmpty (w.tracks a) = false ∧ ∃ f, c.seen = some f ∧ k.compute s w (w.tracks a) c.db p c.sampleTime c.rounding = some f

theorem resolve_ne (t : Tracks) : t.loopingPolicy ≠ .asCompressed := by
  unfold Tracks.loopingPolicy resolveLooping
  split
  · split
    · simp
    · split <;> simp
  · rename_i h; exact absurd rfl h

theorem duration_nonneg (c : Interp.Clip) (h : 0 < c.sampleRate) (p : Looping) :
    ∀ d, c.finiteDuration p = .fin d → 0 ≤ d := by
  intro d
  unfold Clip.finiteDuration calculateFiniteDuration fdivInf
  split
  · intro e; injection e with e; rw [← e]
  · split
    · intro e; injection e with e; rw [← e]
      unfold fdiv
      exact rnd_nonneg (div_nonneg (rnd_nonneg (Nat.cast_nonneg _)) h.le)
    · intro e; cases e

theorem clampTime_nonneg (c : Interp.Clip) (h : 0 < c.sampleRate) (p : Looping) (t : ℚ) : 0 ≤ clampTime t (c.finiteDuration p) := by
  have := duration_nonneg c h p
  cases hd : c.finiteDuration p with
  | fin d => exact le_min (le_max_right _ _) (this d hd)
  | inf => exact le_max_right _ _

theorem clampTime_idem (t : ℚ) (d : FInf) : clampTime (clampTime t d) d = clampTime t d := by
  cases d with
  | inf => simp [clampTime]
  | fin d =>
    show min (max (min (max t 0) d) 0) d = min (max t 0) d
    rcases le_total 0 d with h | h
    · rw [max_eq_left (le_min (le_max_right _ _) h)]; simp
    · rw [min_eq_right (le_trans h (le_max_right t 0)), max_eq_right h, min_eq_right h]

section steps
variable {k : Kind F} {s : Settings} {w : World} {c c' : Ctx F}

theorem bind_fields {a : Nat} {db : Option Nat} (h : bind k s w c a db = (c', true)) :
    c'.tracks = some a ∧ c'.db = db ∧ c'.tracksHash = (w.tracks a).hash ∧ c'.sampleTime = -1 ∧
    c'.looping = (if s.wrapping then (w.tracks a).loopingPolicy else .clamp) ∧ c'.duration = (w.tracks a).clip.finiteDuration c'.looping := by
  unfold Context.bind at h
  simp only [] at h
  split at h
  · simp at h
  · simp only [Prod.mk.injEq, and_true] at h
    subst h
    exact ⟨rfl, rfl, rfl, rfl, rfl, rfl⟩

theorem init_cases {a : Nat} {db : Option Nat} {b : Bool} (h : initCtx k s w c a db = some (c', b)) :
    (b = false ∧ c' = c) ∨ (b = true ∧ bind k s w c a db = (c', true)) := by
  unfold initCtx at h
  simp only [Option.bind_eq_bind, Option.pure_def, Option.bind_eq_some_iff] at h
  obtain ⟨x, -, h⟩ := h
  cases x
  · simp only [Bool.false_eq_true, if_false, Option.some.injEq, Prod.mk.injEq] at h
    exact Or.inl ⟨h.2.symm, h.1.symm⟩
  · simp only [if_true, Option.some.injEq] at h
    cases b
    · left
      unfold Context.bind at h
      simp only [] at h
      split at h
      · simp only [Prod.mk.injEq, and_true] at h; exact ⟨rfl, h.symm⟩
      · simp at h
    · exact Or.inr ⟨rfl, h⟩

theorem relocated_cases {a : Nat} {db : Option Nat} {b : Bool} (h : relocated k s w c a db = some (c', b)) :
    (b = false ∧ c' = c) ∨ (b = true ∧ c.tracks.isSome ∧ c.tracksHash = (w.tracks a).hash ∧ c'.tracks = some a ∧ c'.sampleTime = -1 ∧
      c'.tracksHash = c.tracksHash ∧ c'.looping = c.looping ∧ c'.duration = c.duration) := by
  unfold relocated at h
  split at h
  · simp only [Option.pure_def, Option.some.injEq, Prod.mk.injEq] at h
    exact Or.inl ⟨h.2.symm, h.1.symm⟩
  rename_i hs
  have hs' : c.tracks.isSome := by cases hc : c.tracks <;> simp_all
  simp only [Option.bind_eq_bind, Option.pure_def, Option.bind_eq_some_iff] at h
  obtain ⟨x, -, h⟩ := h
  cases x
  · simp only [Bool.false_eq_true, if_false, Option.some.injEq, Prod.mk.injEq] at h
    exact Or.inl ⟨h.2.symm, h.1.symm⟩
  · simp only [if_true, Option.some.injEq] at h
    unfold rebind at h
    split at h
    · simp only [Prod.mk.injEq] at h; exact Or.inl ⟨h.2.symm, h.1.symm⟩
    rename_i hh
    have hh' : c.tracksHash = (w.tracks a).hash := by simpa using hh
    split at h
    · split at h
      · simp only [Prod.mk.injEq] at h; exact Or.inl ⟨h.2.symm, h.1.symm⟩
      · simp only [Prod.mk.injEq] at h
        obtain ⟨rfl, rfl⟩ := h
        exact Or.inr ⟨rfl, hs', hh', rfl, rfl, rfl, rfl, rfl⟩
    · split at h
      · simp only [Prod.mk.injEq] at h; exact Or.inl ⟨h.2.symm, h.1.symm⟩
      · simp only [Prod.mk.injEq] at h
        obtain ⟨rfl, rfl⟩ := h
        exact Or.inr ⟨rfl, hs', hh', rfl, rfl, rfl, rfl, rfl⟩

theorem policy_cases {p : Looping} (h : setLoopingPolicy s w c p = some c') :
    c'.tracks = c.tracks ∧ c'.db = c.db ∧ c'.tracksHash = c.tracksHash ∧ c'.sampleTime = c.sampleTime ∧ c'.rounding = c.rounding ∧ c'.seen = c.seen ∧
    ((c'.looping = c.looping ∧ c'.duration = c.duration) ∨
      (s.wrapping = true ∧ c'.looping ≠ .asCompressed ∧ ∃ a, c.tracks = some a ∧ c'.duration = (w.tracks a).clip.finiteDuration c'.looping)) := by
  unfold setLoopingPolicy at h
  split at h
  · simp only [Option.some.injEq] at h; subst h
    exact ⟨rfl, rfl, rfl, rfl, rfl, rfl, Or.inl ⟨rfl, rfl⟩⟩
  rename_i hw
  cases hc : c.tracks with
  | none => rw [hc] at h; cases h
  | some a =>
    rw [hc] at h
    simp only [] at h
    have hne : (if p = .asCompressed then (w.tracks a).loopingPolicy else p) ≠ .asCompressed := by
      split
      · exact resolve_ne _
      · assumption
    generalize (if p = Looping.asCompressed then (w.tracks a).loopingPolicy else p) = q at h hne
    split at h
    · simp only [Option.some.injEq] at h; subst h
      exact ⟨rfl, rfl, rfl, rfl, rfl, rfl, Or.inr ⟨by simpa using hw, hne, a, rfl, rfl⟩⟩
    · simp only [Option.some.injEq] at h; subst h
      exact ⟨hc, rfl, rfl, rfl, rfl, rfl, Or.inl ⟨rfl, rfl⟩⟩

/-- The time seek goes by. -/
def usedTime (s : Settings) (c : Ctx F) (t : ℚ) : ℚ := if s.clampTimes then clampTime t c.duration else t

theorem seek_eq {a : Nat} (ha : c.tracks = some a) (t : ℚ) (r : Rounding) :
    seek k s w c t r = if k.isEmpty (w.tracks a) = true then some c
      else if c.sampleTime = usedTime s c t ∧ c.rounding = r then some c
      else (k.compute s w (w.tracks a) c.db (eff s c) (usedTime s c t) r).bind fun f =>
        some { c with sampleTime := usedTime s c t, rounding := r, seen := some f } := by
  obtain ⟨tr, db, h1, h2, d, l, ro, ti, se⟩ := c
  simp only at ha
  subst ha
  rfl

theorem seek_cases {a : Nat} (ha : c.tracks = some a) {t : ℚ} {r : Rounding} (h : seek k s w c t r = some c') :
    (c' = c ∧ (k.isEmpty (w.tracks a) = true ∨ (k.isEmpty (w.tracks a) = false ∧ c.sampleTime = usedTime s c t ∧ c.rounding = r))) ∨
    (k.isEmpty (w.tracks a) = false ∧ ¬(c.sampleTime = usedTime s c t ∧ c.rounding = r) ∧
      ∃ f, k.compute s w (w.tracks a) c.db (eff s c) (usedTime s c t) r = some f ∧
        c' = { c with sampleTime := usedTime s c t, rounding := r, seen := some f }) := by
  rw [seek_eq ha] at h
  split at h
  · simp only [Option.some.injEq] at h
    exact Or.inl ⟨h.symm, Or.inl (by assumption)⟩
  rename_i he
  have he' : k.isEmpty (w.tracks a) = false := by simpa using he
  split at h
  · rename_i hc
    simp only [Option.some.injEq] at h
    exact Or.inl ⟨h.symm, Or.inr ⟨he', hc⟩⟩
  · rename_i hc
    simp only [Option.bind_eq_some_iff, Option.some.injEq] at h
    obtain ⟨f, hf, e⟩ := h
    exact Or.inr ⟨he', hc, f, hf, e.symm⟩

end steps

theorem run_append (k : Kind F) (s : Settings) (xs ys : List Op) (st : World × Ctx F) :
    run k s (xs ++ ys) st = (run k s xs st).bind (run k s ys) := by
  induction xs generalizing st with
  | nil => rfl
  | cons x xs ih =>
    simp only [List.cons_append, run, Option.bind_eq_bind, Option.bind_assoc]
    congr 1; funext r; exact ih _

/-- One operation keeps the tracks in memory and the binding consistent. -/
theorem step_bound {k : Kind F} {s : Settings} {w0 w w' : World} {c c' : Ctx F} {op : Op} {b : Bool}
    (hT : w.tracks = w0.tracks) (hinj : ∀ a b, (w0.tracks a).hash = (w0.tracks b).hash → w0.tracks a = w0.tracks b)
    (hop : ∀ x, op = .world x → x.tracks = w0.tracks) (hB : Bound s w0.tracks c) (h : step k s (w, c) op = some ((w', c'), b)) :
    w'.tracks = w0.tracks ∧ Bound s w0.tracks c' := by
  cases op with
  | init a db =>
    simp only [step, Option.map_eq_some_iff, Prod.mk.injEq] at h
    obtain ⟨⟨r1, r2⟩, hi, ⟨rfl, rfl⟩, rfl⟩ := h
    refine ⟨hT, ?_⟩
    rcases init_cases hi with ⟨-, rfl⟩ | ⟨-, hb⟩
    · exact hB
    · obtain ⟨h1, -, h3, -, h5, h6⟩ := bind_fields hb
      intro x hx
      simp only at hx h1 h3 h5 h6
      rw [h1, Option.some.injEq] at hx
      subst hx
      rw [← hT]
      refine ⟨h3, ?_, ?_, h6⟩
      · rw [h5]; split
        · exact resolve_ne _
        · simp
      · intro hw; rw [h5, hw]; rfl
  | relocated a db =>
    simp only [step, Option.map_eq_some_iff, Prod.mk.injEq] at h
    obtain ⟨⟨r1, r2⟩, hi, ⟨rfl, rfl⟩, rfl⟩ := h
    refine ⟨hT, ?_⟩
    rcases relocated_cases hi with ⟨-, rfl⟩ | ⟨-, h0, h1, h2, h3, h4, h5, h6⟩
    · exact hB
    · obtain ⟨y, hy⟩ := Option.isSome_iff_exists.1 h0
      obtain ⟨b1, b2, b3, b4⟩ := hB y hy
      intro x hx
      simp only at hx h2 h3 h4 h5 h6
      rw [h2, Option.some.injEq] at hx
      subst hx
      rw [hT] at h1
      have hxy := hinj y a (by rw [← b1, h1])
      rw [h4, h5, h6, ← hxy]
      exact ⟨b1, b2, b3, b4⟩
  | reset =>
    simp only [step, Option.some.injEq, Prod.mk.injEq] at h
    obtain ⟨⟨rfl, rfl⟩, -⟩ := h
    exact ⟨hT, fun x hx => by cases hx⟩
  | setLoopingPolicy p =>
    simp only [step, Option.map_eq_some_iff, Prod.mk.injEq] at h
    obtain ⟨r1, hi, ⟨rfl, rfl⟩, -⟩ := h
    refine ⟨hT, ?_⟩
    obtain ⟨h1, -, h3, -, -, -, h7⟩ := policy_cases hi
    intro x hx
    rw [h1] at hx
    obtain ⟨b1, b2, b3, b4⟩ := hB x hx
    rw [h3]
    rcases h7 with ⟨h7, h8⟩ | ⟨hw, hne, y, hy, h8⟩
    · rw [h7, h8]; exact ⟨b1, b2, b3, b4⟩
    · rw [hx, Option.some.injEq] at hy
      subst hy
      exact ⟨b1, hne, (fun hf => by rw [hw] at hf; cases hf), by rw [h8, hT]⟩
  | seek t r =>
    simp only [step, Option.map_eq_some_iff, Prod.mk.injEq] at h
    obtain ⟨r1, hi, ⟨rfl, rfl⟩, -⟩ := h
    refine ⟨hT, ?_⟩
    intro x hx
    cases hc : c.tracks with
    | none =>
      unfold Context.seek at hi; rw [hc] at hi
      simp only [Option.some.injEq] at hi
      subst hi; rw [hc] at hx; cases hx
    | some a =>
      rcases seek_cases hc hi with ⟨rfl, -⟩ | ⟨-, -, f, -, rfl⟩
      · exact hB x hx
      · exact hB x hx
  | world x =>
    simp only [step, Option.some.injEq, Prod.mk.injEq] at h
    obtain ⟨⟨rfl, rfl⟩, -⟩ := h
    exact ⟨hop _ rfl, hB⟩

theorem run_bound {k : Kind F} {s : Settings} {w0 : World} (hinj : ∀ a b, (w0.tracks a).hash = (w0.tracks b).hash → w0.tracks a = w0.tracks b)
    (ops : List Op) (hop : ∀ x, Op.world x ∈ ops → x.tracks = w0.tracks) (w w' : World) (c c' : Ctx F)
    (hT : w.tracks = w0.tracks) (hB : Bound s w0.tracks c) (h : run k s ops (w, c) = some (w', c')) :
    w'.tracks = w0.tracks ∧ Bound s w0.tracks c' := by
  induction ops generalizing w c with
  | nil =>
    simp only [run, Option.some.injEq, Prod.mk.injEq] at h
    obtain ⟨rfl, rfl⟩ := h
    exact ⟨hT, hB⟩
  | cons op ops ih =>
    simp only [run, Option.bind_eq_bind, Option.bind_eq_some_iff] at h
    obtain ⟨⟨⟨w1, c1⟩, b⟩, hs, hr⟩ := h
    obtain ⟨h1, h2⟩ := step_bound hT hinj (fun x hx => hop x (by rw [← hx]; exact List.mem_cons_self)) hB hs
    exact ih (fun x hx => hop x (List.mem_cons_of_mem _ hx)) w1 c1 h1 h2 hr

theorem bound_init (s : Settings) (T : Nat → Tracks) : Bound s T ({} : Ctx F) := fun a h => by cases h

/-- A fresh context. -/
theorem fresh_fields {k : Kind F} {s : Settings} {w : World} {a : Nat} {db : Option Nat} {p : Looping} {f : Ctx F}
    (h : Fresh k s w a db p f) (hp : p ≠ .asCompressed) (hp2 : s.wrapping = false → p = .clamp) :
    f.tracks = some a ∧ f.db = db ∧ f.sampleTime = -1 ∧ f.looping = p ∧ f.duration = (w.tracks a).clip.finiteDuration p := by
  obtain ⟨f0, h0, h1⟩ := h
  rcases init_cases h0 with ⟨hb, -⟩ | ⟨-, hb⟩
  · cases hb
  obtain ⟨b1, b2, -, b4, b5, b6⟩ := bind_fields hb
  unfold setLoopingPolicy at h1
  split at h1
  · rename_i hw
    have hw' : s.wrapping = false := by simpa using hw
    simp only [Option.some.injEq] at h1; subst h1
    rw [hw'] at b5
    rw [hp2 hw']
    exact ⟨b1, b2, b4, b5, by rw [b6, b5]; rfl⟩
  · rw [b1] at h1
    simp only [if_neg hp] at h1
    split at h1
    · simp only [Option.some.injEq] at h1; subst h1
      exact ⟨rfl, b2, b4, rfl, rfl⟩
    · rename_i hl
      have hl' : f0.looping = p := by simpa using hl
      simp only [Option.some.injEq] at h1; subst h1
      exact ⟨b1, b2, b4, hl', by rw [b6, hl']⟩

/-- Seeking with a context that holds nothing stale for this time is seeking with a fresh one. -/
theorem seek_fresh {k : Kind F} {s : Settings} {w : World} {c f : Ctx F} {a : Nat} {t : ℚ} {r : Rounding}
    (hrate : 0 < (w.tracks a).clip.sampleRate) (ha : c.tracks = some a) (hB : Bound s w.tracks c) (ht : s.clampTimes = true ∨ 0 ≤ t)
    (hE : k.isEmpty (w.tracks a) = true → c.sampleTime = -1)
    (hH : c.sampleTime = usedTime s c t → c.rounding = r → k.isEmpty (w.tracks a) = false → Holds k s w c (eff s c) a)
    (hf : Fresh k s w a c.db c.looping f) :
    (seek k s w c t r).map (observe w) = (seek k s w f t r).map (observe w) := by
  obtain ⟨b1, b2, b3, b4⟩ := hB a ha
  obtain ⟨f1, f2, f3, f4, f5⟩ := fresh_fields hf b2 b3
  have hu : usedTime s f t = usedTime s c t := by unfold usedTime; rw [f5, b4]
  have hu0 : 0 ≤ usedTime s c t := by
    unfold usedTime
    split
    · rw [b4]; exact clampTime_nonneg _ hrate _ _
    · rcases ht with ht | ht
      · contradiction
      · exact ht
  have he : eff s f = eff s c := by unfold eff; rw [f4]
  cases hem : k.isEmpty (w.tracks a) with
  | true =>
    rw [seek_eq ha, seek_eq f1, if_pos hem, if_pos hem, Option.map_some, Option.map_some]
    unfold observe
    rw [ha, f1, f3, hE hem]
    simp
  | false =>
    have hff : seek k s w f t r = (k.compute s w (w.tracks a) c.db (eff s c) (usedTime s c t) r).bind fun x =>
        some { f with sampleTime := usedTime s c t, rounding := r, seen := some x } := by
      have hne : ¬(f.sampleTime = usedTime s f t ∧ f.rounding = r) := by
        intro h; rw [hu, f3] at h; linarith [h.1]
      rw [seek_eq f1, if_neg (by rw [hem]; simp), if_neg hne, he, hu, show f.db = c.db from f2]
    by_cases hc : c.sampleTime = usedTime s c t ∧ c.rounding = r
    · obtain ⟨-, x, hx1, hx2⟩ := hH hc.1 hc.2 hem
      rw [hc.1, hc.2] at hx2
      rw [seek_eq ha, if_neg (by rw [hem]; simp), if_pos hc, hff, hx2, Option.bind_some, Option.map_some, Option.map_some]
      unfold observe
      simp only [ha, f1, hc.1, hc.2, hx1]
    · rw [seek_eq ha, if_neg (by rw [hem]; simp), if_neg hc, hff]
      cases k.compute s w (w.tracks a) c.db (eff s c) (usedTime s c t) r with
      | none => rfl
      | some x =>
        simp only [Option.bind_some, Option.map_some]
        unfold observe
        simp only [ha, f1]

theorem used_nonneg {s : Settings} {w : World} {c : Ctx F} {a : Nat} {t : ℚ} (hrate : 0 < (w.tracks a).clip.sampleRate)
    (ha : c.tracks = some a) (hB : Bound s w.tracks c) (ht : s.clampTimes = true ∨ 0 ≤ t) : 0 ≤ usedTime s c t := by
  obtain ⟨-, -, -, b4⟩ := hB a ha
  unfold usedTime
  split
  · rw [b4]; exact clampTime_nonneg _ hrate _ _
  · rcases ht with ht | ht
    · contradiction
    · exact ht

/-- A property of contexts kept by every operation of a list is kept by running it. -/
theorem run_induct {k : Kind F} {s : Settings} (P : World → Ctx F → Prop) (ops : List Op)
    (hstep : ∀ op ∈ ops, ∀ w c w' c' b, P w c → step k s (w, c) op = some ((w', c'), b) → P w' c')
    (w w' : World) (c c' : Ctx F) (hP : P w c) (h : run k s ops (w, c) = some (w', c')) : P w' c' := by
  induction ops generalizing w c with
  | nil =>
    simp only [run, Option.some.injEq, Prod.mk.injEq] at h
    obtain ⟨rfl, rfl⟩ := h
    exact hP
  | cons op ops ih =>
    simp only [run, Option.bind_eq_bind, Option.bind_eq_some_iff] at h
    obtain ⟨⟨⟨w1, c1⟩, b⟩, hs, hr⟩ := h
    exact ih (fun op hop => hstep op (List.mem_cons_of_mem _ hop)) w1 c1 (hstep op List.mem_cons_self _ _ _ _ _ hP hs) hr

def isSeek : Op → Bool
  | .seek .. => true
  | _ => false

def isWorldOrPolicy : Op → Bool
  | .world _ => true
  | .setLoopingPolicy _ => true
  | _ => false

def isBind : Op → Bool
  | .init .. => true
  | .relocated .. => true
  | _ => false

/-- What an operation other than seek does to what a context holds: nothing, or it binds the context again. -/
theorem step_keeps {k : Kind F} {s : Settings} {w w' : World} {c c' : Ctx F} {op : Op} {b : Bool} (hop : isSeek op = false)
    (h : step k s (w, c) op = some ((w', c'), b)) :
    (c'.sampleTime = -1 ∧ isBind op = true ∧ b = true) ∨ c'.tracks = none ∨
    (c'.tracks = c.tracks ∧ c'.db = c.db ∧ c'.sampleTime = c.sampleTime ∧ c'.rounding = c.rounding ∧ c'.seen = c.seen ∧
      (isWorldOrPolicy op = false → w' = w ∧ c' = c)) := by
  cases op with
  | init a db =>
    simp only [step, Option.map_eq_some_iff, Prod.mk.injEq] at h
    obtain ⟨⟨r1, r2⟩, hi, ⟨rfl, rfl⟩, rfl⟩ := h
    rcases init_cases hi with ⟨-, rfl⟩ | ⟨hb', hb⟩
    · exact Or.inr (Or.inr ⟨rfl, rfl, rfl, rfl, rfl, fun _ => ⟨rfl, rfl⟩⟩)
    · exact Or.inl ⟨(bind_fields hb).2.2.2.1, rfl, hb'⟩
  | relocated a db =>
    simp only [step, Option.map_eq_some_iff, Prod.mk.injEq] at h
    obtain ⟨⟨r1, r2⟩, hi, ⟨rfl, rfl⟩, rfl⟩ := h
    rcases relocated_cases hi with ⟨-, rfl⟩ | ⟨hb', -, -, -, h3, -⟩
    · exact Or.inr (Or.inr ⟨rfl, rfl, rfl, rfl, rfl, fun _ => ⟨rfl, rfl⟩⟩)
    · exact Or.inl ⟨h3, rfl, hb'⟩
  | reset =>
    simp only [step, Option.some.injEq, Prod.mk.injEq] at h
    obtain ⟨⟨rfl, rfl⟩, -⟩ := h
    exact Or.inr (Or.inl rfl)
  | setLoopingPolicy p =>
    simp only [step, Option.map_eq_some_iff, Prod.mk.injEq] at h
    obtain ⟨r1, hi, ⟨rfl, rfl⟩, -⟩ := h
    obtain ⟨h1, h2, -, h4, h5, h6, -⟩ := policy_cases hi
    exact Or.inr (Or.inr ⟨h1, h2, h4, h5, h6, fun h => by cases h⟩)
  | seek t r => cases hop
  | world x =>
    simp only [step, Option.some.injEq, Prod.mk.injEq] at h
    obtain ⟨⟨rfl, rfl⟩, -⟩ := h
    exact Or.inr (Or.inr ⟨rfl, rfl, rfl, rfl, rfl, fun h => by cases h⟩)

theorem step_world {k : Kind F} {s : Settings} {w w' : World} {c c' : Ctx F} {op : Op} {b : Bool} (hop : isWorldOrPolicy op = false)
    (h : step k s (w, c) op = some ((w', c'), b)) : w' = w := by
  cases op with
  | world x => cases hop
  | setLoopingPolicy p => cases hop
  | reset =>
    simp only [step, Option.some.injEq, Prod.mk.injEq] at h
    exact h.1.1.symm
  | _ =>
    simp only [step, Option.map_eq_some_iff, Prod.mk.injEq] at h
    obtain ⟨_, _, ⟨h, _⟩, _⟩ := h
    exact h.symm

theorem step_seek {k : Kind F} {s : Settings} {w w' : World} {c c' : Ctx F} {t : ℚ} {r : Rounding} {b : Bool}
    (h : step k s (w, c) (.seek t r) = some ((w', c'), b)) : w' = w ∧ seek k s w c t r = some c' := by
  simp only [step, Option.map_eq_some_iff, Prod.mk.injEq] at h
  obtain ⟨r1, hi, ⟨rfl, rfl⟩, -⟩ := h
  exact ⟨rfl, hi⟩

/-- A seek keeps the binding. -/
theorem seek_binding {k : Kind F} {s : Settings} {w : World} {c c' : Ctx F} {t : ℚ} {r : Rounding} (h : seek k s w c t r = some c') :
    c'.tracks = c.tracks ∧ c'.db = c.db ∧ c'.looping = c.looping ∧ c'.duration = c.duration := by
  cases hc : c.tracks with
  | none =>
    unfold Context.seek at h; rw [hc] at h
    simp only [Option.some.injEq] at h
    subst h; exact ⟨hc, rfl, rfl, rfl⟩
  | some a =>
    rcases seek_cases hc h with ⟨rfl, -⟩ | ⟨-, -, f, -, rfl⟩
    · exact ⟨hc, rfl, rfl, rfl⟩
    · exact ⟨hc, rfl, rfl, rfl⟩

/-- A bound context of an empty track list has not been seeked. -/
theorem run_empty {k : Kind F} {s : Settings} {w0 : World} (ops : List Op) (w w' : World) (c c' : Ctx F)
    (hop : ∀ x, Op.world x ∈ ops → x.tracks = w0.tracks) (hw : w.tracks = w0.tracks)
    (h0 : ∀ a, c.tracks = some a → k.isEmpty (w0.tracks a) = true → c.sampleTime = -1)
    (h : run k s ops (w, c) = some (w', c')) (a : Nat) (ha : c'.tracks = some a) (he : k.isEmpty (w0.tracks a) = true) : c'.sampleTime = -1 := by
  have := run_induct (k := k) (s := s) (fun w c => w.tracks = w0.tracks ∧ ∀ a, c.tracks = some a → k.isEmpty (w0.tracks a) = true → c.sampleTime = -1) ops
    (by
      intro op hmem w1 c1 w2 c2 b hP hs
      cases hsk : isSeek op with
      | false =>
        refine ⟨?_, ?_⟩
        · cases op with
          | world x =>
            simp only [step, Option.some.injEq, Prod.mk.injEq] at hs
            rw [← hs.1.1]; exact hop x hmem
          | init a db => simp only [step, Option.map_eq_some_iff, Prod.mk.injEq] at hs; obtain ⟨_, _, ⟨rfl, _⟩, _⟩ := hs; exact hP.1
          | relocated a db => simp only [step, Option.map_eq_some_iff, Prod.mk.injEq] at hs; obtain ⟨_, _, ⟨rfl, _⟩, _⟩ := hs; exact hP.1
          | reset => simp only [step, Option.some.injEq, Prod.mk.injEq] at hs; rw [← hs.1.1]; exact hP.1
          | setLoopingPolicy p => simp only [step, Option.map_eq_some_iff, Prod.mk.injEq] at hs; obtain ⟨_, _, ⟨rfl, _⟩, _⟩ := hs; exact hP.1
          | seek t r => cases hsk
        · intro a ha he
          rcases step_keeps hsk hs with ⟨h1, -⟩ | h1 | ⟨h1, h2, h3, -⟩
          · exact h1
          · rw [h1] at ha; cases ha
          · rw [h3]; exact hP.2 a (by rw [← h1]; exact ha) he
      | true =>
        cases op with
        | seek t r =>
          obtain ⟨rfl, hs⟩ := step_seek hs
          refine ⟨hP.1, ?_⟩
          intro a ha he
          rw [(seek_binding hs).1] at ha
          rcases seek_cases ha hs with ⟨rfl, -⟩ | ⟨h1, -⟩
          · exact hP.2 a ha he
          · rw [hP.1, he] at h1; cases h1
        | _ => cases hsk) w w' c c' ⟨hw, h0⟩ h
  exact this.2 a ha he

/-- **C20.** Any history of a context that binds it (initialize or relocated returns true), in any number of steps without
seek: policy changes, streaming, more; and from there on any number of seeks, initialize, relocated and reset, but no
streaming and no policy change. Then seeking gives the pose a fresh context with this policy would give. -/
theorem C20_seek (k : Kind F) (s : Settings) (w0 w1 w2 w3 w : World) (c1 c2 c3 c : Ctx F) (before mid after : List Op) (bindOp : Op)
    (hT : Tame k w0 (before ++ bindOp :: mid ++ after))
    (h1 : run k s before (w0, {}) = some (w1, c1)) (h2 : step k s (w1, c1) bindOp = some ((w2, c2), true)) (hb : isBind bindOp = true)
    (h3 : run k s mid (w2, c2) = some (w3, c3)) (hmid : ∀ op ∈ mid, isSeek op = false)
    (h4 : run k s after (w3, c3) = some (w, c)) (hafter : ∀ op ∈ after, isWorldOrPolicy op = false)
    (a : Nat) (ha : c.tracks = some a) (t : ℚ) (r : Rounding) (ht : s.clampTimes = true ∨ 0 ≤ t) (f : Ctx F)
    (hf : Fresh k s w a c.db (getLoopingPolicy c) f) :
    (seek k s w c t r).map (observe w) = (seek k s w f t r).map (observe w) := by
  have hrun : run k s (before ++ bindOp :: mid ++ after) (w0, {}) = some (w, c) := by
    rw [run_append, run_append, h1, Option.bind_some, run]
    simp only [Option.bind_eq_bind, h2, Option.bind_some, h3, h4]
  have hrun3 : run k s (before ++ bindOp :: mid) (w0, {}) = some (w3, c3) := by
    rw [run_append, h1, Option.bind_some, run]
    simp only [Option.bind_eq_bind, h2, Option.bind_some, h3]
  obtain ⟨hW, hB⟩ := run_bound hT.hashes _ hT.fixed w0 w {} c rfl (bound_init s _) hrun
  have hB3 := run_bound hT.hashes _ (fun x hx => hT.fixed x (by
    rw [List.mem_append]; exact Or.inl hx)) w0 w3 {} c3 rfl (bound_init s _) hrun3
  have hE := fun he => run_empty (k := k) (s := s) (w0 := w0) _ w0 w {} c hT.fixed rfl (fun a h => by cases h) hrun a ha he
  have hc2 : ∀ a, c2.tracks = some a → c2.sampleTime = -1 := by
    intro a ha
    rcases step_keeps (by cases bindOp <;> first | rfl | cases hb) h2 with ⟨h, -⟩ | h | h
    · exact h
    · rw [h] at ha; cases ha
    · -- a bind that returns true sets the time
      cases bindOp with
      | init x y =>
        simp only [step, Option.map_eq_some_iff, Prod.mk.injEq] at h2
        obtain ⟨⟨r1, r2⟩, hi, ⟨rfl, rfl⟩, h2'⟩ := h2
        rcases init_cases hi with ⟨hx, -⟩ | ⟨-, hx⟩
        · simp only at h2'; rw [hx] at h2'; cases h2'
        · exact (bind_fields hx).2.2.2.1
      | relocated x y =>
        simp only [step, Option.map_eq_some_iff, Prod.mk.injEq] at h2
        obtain ⟨⟨r1, r2⟩, hi, ⟨rfl, rfl⟩, h2'⟩ := h2
        rcases relocated_cases hi with ⟨hx, -⟩ | ⟨-, -, -, -, hx, -⟩
        · simp only at h2'; rw [hx] at h2'; cases h2'
        · exact hx
      | _ => cases hb
  have hc3 : ∀ a, c3.tracks = some a → c3.sampleTime = -1 :=
    run_induct (k := k) (s := s) (fun _ c => ∀ a, c.tracks = some a → c.sampleTime = -1) mid (by
      intro op hop w c w' c' b hP hs a ha
      rcases step_keeps (hmid op hop) hs with ⟨h, -⟩ | h | ⟨h, -, h', -⟩
      · exact h
      · rw [h] at ha; cases ha
      · rw [h']; exact hP a (by rw [← h]; exact ha)) w2 w3 c2 c3 hc2 h3
  have hQ := run_induct (k := k) (s := s) (fun w' c => w' = w3 ∧ ∀ a, c.tracks = some a → c.sampleTime = -1 ∨ Holds k s w3 c (eff s c) a) after (by
      intro op hop w' c w'' c' b hP hs
      obtain ⟨rfl, hP⟩ := hP
      cases hsk : isSeek op with
      | false =>
        rcases step_keeps hsk hs with ⟨h, -⟩ | h | ⟨-, -, -, -, -, h⟩
        · refine ⟨?_, fun a ha => Or.inl h⟩
          exact step_world (hafter op hop) hs
        · refine ⟨?_, fun a ha => by rw [h] at ha; cases ha⟩
          exact step_world (hafter op hop) hs
        · obtain ⟨rfl, rfl⟩ := h (hafter op hop)
          exact ⟨rfl, hP⟩
      | true =>
        cases op with
        | seek t r =>
          obtain ⟨rfl, hs⟩ := step_seek hs
          refine ⟨rfl, ?_⟩
          intro a ha
          rw [(seek_binding hs).1] at ha
          rcases seek_cases ha hs with ⟨rfl, -⟩ | ⟨he, -, f, hf, rfl⟩
          · exact hP a ha
          · exact Or.inr ⟨he, f, rfl, hf⟩
        | _ => cases hsk) w3 w c3 c ⟨rfl, fun a ha => Or.inl (hc3 a ha)⟩ h4
  obtain ⟨rfl, hQ⟩ := hQ
  have hrate : 0 < (w.tracks a).clip.sampleRate := by rw [hW]; exact hT.rate a
  have hBw : Bound s w.tracks c := by rw [hW]; exact hB
  refine seek_fresh hrate ha hBw ht (by rw [hW]; exact hE) ?_ hf
  intro hst hro hem
  rcases hQ a ha with h | h
  · have := used_nonneg hrate ha hBw ht
    rw [← hst, h] at this
    linarith
  · exact h

/-- **C20**, with streaming and policy changes anywhere in the history: seeking at another time than the last seek did, or
with another rounding policy, gives the pose of a fresh context. -/
theorem C20_other_time (k : Kind F) (s : Settings) (w0 w1 w2 w : World) (c1 c2 c : Ctx F) (before after : List Op) (t' : ℚ) (r' : Rounding)
    (hT : Tame k w0 (before ++ Op.seek t' r' :: after))
    (h1 : run k s before (w0, {}) = some (w1, c1)) (h2 : seek k s w1 c1 t' r' = some c2)
    (h3 : run k s after (w1, c2) = some (w, c)) (hafter : ∀ op ∈ after, isSeek op = false)
    (a : Nat) (ha : c.tracks = some a) (t : ℚ) (r : Rounding) (ht : s.clampTimes = true ∨ 0 ≤ t)
    (hother : r ≠ r' ∨ usedTime s c t ≠ usedTime s c1 t') (f : Ctx F) (hf : Fresh k s w a c.db (getLoopingPolicy c) f) :
    (seek k s w c t r).map (observe w) = (seek k s w f t r).map (observe w) := by
  have hrun : run k s (before ++ Op.seek t' r' :: after) (w0, {}) = some (w, c) := by
    rw [run_append, h1, Option.bind_some, run]
    simp only [step, Option.bind_eq_bind, h2, Option.map_some, Option.bind_some, h3]
  obtain ⟨hW, hB⟩ := run_bound hT.hashes _ hT.fixed w0 w {} c rfl (bound_init s _) hrun
  have hE := fun he => run_empty (k := k) (s := s) (w0 := w0) _ w0 w {} c hT.fixed rfl (fun a h => by cases h) hrun a ha he
  have hW1 := (run_bound hT.hashes _ (fun x hx => hT.fixed x (by rw [List.mem_append]; exact Or.inl hx)) w0 w1 {} c1 rfl (bound_init s _) h1).1
  have hP := run_induct (k := k) (s := s) (fun _ c => ∀ a, c.tracks = some a → k.isEmpty (w0.tracks a) = true ∨ c.sampleTime = -1 ∨
      (c.sampleTime = usedTime s c1 t' ∧ c.rounding = r')) after (by
      intro op hop w c w' c' b hP hs a ha
      rcases step_keeps (hafter op hop) hs with ⟨h, -⟩ | h | ⟨h, -, h', h'', -⟩
      · exact Or.inr (Or.inl h)
      · rw [h] at ha; cases ha
      · rw [h', h'']; exact hP a (by rw [← h]; exact ha)) w1 w c2 c (by
      intro x hx
      rw [(seek_binding h2).1] at hx
      rcases seek_cases hx h2 with ⟨rfl, h | ⟨-, h⟩⟩ | ⟨-, -, f, -, rfl⟩
      · exact Or.inl (by rw [← hW1]; exact h)
      · exact Or.inr (Or.inr h)
      · exact Or.inr (Or.inr ⟨rfl, rfl⟩)) h3
  have hrate : 0 < (w.tracks a).clip.sampleRate := by rw [hW]; exact hT.rate a
  have hBw : Bound s w.tracks c := by rw [hW]; exact hB
  refine seek_fresh hrate ha hBw ht (by rw [hW]; exact hE) ?_ hf
  intro hst hro hem
  exfalso
  rcases hP a ha with h | h | ⟨h, h'⟩
  · rw [hW, h] at hem; cases hem
  · have := used_nonneg hrate ha hBw ht
    rw [← hst, h] at this
    linarith
  · rcases hother with ho | ho
    · exact ho (by rw [← hro, h'])
    · exact ho (by rw [← hst, h])

/-- **C20**, whatever the history: the pose is the one a fresh context would have given at this time and rounding policy,
now or at an earlier moment of the history, with the looping policy and the streamed data of that moment, while bound to
the same tracks and database. -/
theorem C20_earlier (k : Kind F) (s : Settings) (w0 w : World) (c c' : Ctx F) (ops : List Op) (hT : Tame k w0 ops)
    (h : run k s ops (w0, {}) = some (w, c)) (a : Nat) (ha : c.tracks = some a) (t : ℚ) (r : Rounding)
    (ht : s.clampTimes = true ∨ 0 ≤ t) (hs : seek k s w c t r = some c') :
    ∃ earlier later we ce, ops = earlier ++ later ∧ run k s earlier (w0, {}) = some (we, ce) ∧ ce.tracks = some a ∧ ce.db = c.db ∧
      ∀ f, Fresh k s we a c.db (getLoopingPolicy ce) f →
        (seek k s we f c'.sampleTime r).map (observe we) = some (observe w c') := by
  -- every context holds what a seek computed at an earlier moment
  have main : ∀ ops, (∀ x, Op.world x ∈ ops → x.tracks = w0.tracks) → ∀ w c, run k s ops (w0, {}) = some (w, c) → ∀ a, c.tracks = some a →
      c.sampleTime = -1 ∨ ∃ earlier later we ce, ops = earlier ++ later ∧ run k s earlier (w0, {}) = some (we, ce) ∧ ce.tracks = some a ∧ ce.db = c.db ∧
        usedTime s ce c.sampleTime = c.sampleTime ∧
        k.isEmpty (we.tracks a) = false ∧ ∃ f, c.seen = some f ∧ k.compute s we (we.tracks a) c.db (eff s ce) c.sampleTime c.rounding = some f := by
    intro ops
    induction ops using List.reverseRecOn with
    | nil =>
      intro _ w c h a ha
      simp only [run, Option.some.injEq, Prod.mk.injEq] at h
      rw [← h.2] at ha; cases ha
    | append_singleton ops op ih =>
      intro hfix w c h a ha
      rw [run_append] at h
      obtain ⟨⟨w1, c1⟩, hr, h⟩ := Option.bind_eq_some_iff.1 h
      simp only [run, Option.bind_eq_bind, Option.bind_eq_some_iff, Option.some.injEq] at h
      obtain ⟨⟨⟨w2, c2⟩, b⟩, hst, he⟩ := h
      simp only [Prod.mk.injEq] at he
      obtain ⟨rfl, rfl⟩ := he
      have ih' := ih (fun x hx => hfix x (List.mem_append_left _ hx)) w1 c1 hr
      cases hsk : isSeek op with
      | false =>
        rcases step_keeps hsk hst with ⟨h, -⟩ | h | ⟨h1, h2, h3, h4, h5, -⟩
        · exact Or.inl h
        · rw [h] at ha; cases ha
        · rw [h2, h3, h4, h5]
          rcases ih' a (by rw [← h1]; exact ha) with h | ⟨e, l, we, ce, e1, e2⟩
          · exact Or.inl h
          · exact Or.inr ⟨e, l ++ [op], we, ce, by rw [e1, List.append_assoc], e2⟩
      | true =>
        cases op with
        | seek t r =>
          obtain ⟨rfl, hs⟩ := step_seek hst
          rw [(seek_binding hs).1] at ha
          rcases seek_cases ha hs with ⟨rfl, -⟩ | ⟨hem, -, f, hf, rfl⟩
          · rcases ih' a ha with h | ⟨e, l, we, ce, e1, e2⟩
            · exact Or.inl h
            · exact Or.inr ⟨e, l ++ [Op.seek t r], we, ce, by rw [e1, List.append_assoc], e2⟩
          · refine Or.inr ⟨ops, [Op.seek t r], w2, c1, rfl, hr, ha, rfl, ?_, hem, f, rfl, hf⟩
            show usedTime s c1 (usedTime s c1 t) = usedTime s c1 t
            unfold usedTime
            split
            · exact clampTime_idem _ _
            · rfl
        | _ => cases hsk
  obtain ⟨hW, hB⟩ := run_bound hT.hashes _ hT.fixed w0 w {} c rfl (bound_init s _) h
  have hE := fun he => run_empty (k := k) (s := s) (w0 := w0) _ w0 w {} c hT.fixed rfl (fun a h => by cases h) h a ha he
  have hrate : 0 < (w.tracks a).clip.sampleRate := by rw [hW]; exact hT.rate a
  have hBw : Bound s w.tracks c := by rw [hW]; exact hB
  have hu0 := used_nonneg hrate ha hBw ht
  rcases seek_cases ha hs with ⟨rfl, hem | ⟨hem, hst, hro⟩⟩ | ⟨hem, hne, x, hx, rfl⟩
  · -- nothing to seek
    refine ⟨ops, [], w, c', by rw [List.append_nil], h, ha, rfl, ?_⟩
    intro f hf
    obtain ⟨b1, b2, b3, b4⟩ := hBw a ha
    obtain ⟨f1, f2, f3, f4, f5⟩ := fresh_fields hf b2 b3
    rw [seek_eq f1, if_pos hem, Option.map_some]
    unfold observe
    rw [ha, f1, f3, hE (by rw [← hW]; exact hem)]
    simp
  · -- nothing to do: the same time and rounding policy
    rcases main ops hT.fixed w c' h a ha with h' | ⟨e, l, we, ce, e1, e2, e3, e4, e5, e6, x, e7, e8⟩
    · rw [hst, ] at h'; linarith
    · refine ⟨e, l, we, ce, e1, e2, e3, e4, ?_⟩
      intro f hf
      obtain ⟨hWe, hBe⟩ := run_bound hT.hashes e (fun x hx => hT.fixed x (by rw [e1]; exact List.mem_append_left _ hx)) w0 we {} ce rfl (bound_init s _) e2
      obtain ⟨b1, b2, b3, b4⟩ := hBe a e3
      obtain ⟨f1, f2, f3, f4, f5⟩ := fresh_fields hf b2 b3
      have hu : usedTime s f c'.sampleTime = c'.sampleTime := by
        have : usedTime s f c'.sampleTime = usedTime s ce c'.sampleTime := by
          unfold usedTime; rw [f5, b4, hWe]; rfl
        rw [this, e5]
      have heff : eff s f = eff s ce := by unfold eff; rw [f4]; rfl
      rw [seek_eq f1, if_neg (by rw [e6]; simp), if_neg (by rw [hu, f3, hst]; intro hc; linarith [hc.1]), hu, heff, f2, ← hro, e8, Option.bind_some,
        Option.map_some]
      unfold observe
      simp only [ha, f1, e7, hWe, hW]
  · -- a seek
    refine ⟨ops, [], w, c, by rw [List.append_nil], h, ha, rfl, ?_⟩
    intro f hf
    obtain ⟨b1, b2, b3, b4⟩ := hBw a ha
    obtain ⟨f1, f2, f3, f4, f5⟩ := fresh_fields hf b2 b3
    have hu : usedTime s f (usedTime s c t) = usedTime s c t := by
      have : usedTime s f (usedTime s c t) = usedTime s c (usedTime s c t) := by
        unfold usedTime; rw [f5, b4]; rfl
      rw [this]
      unfold usedTime
      split
      · exact clampTime_idem _ _
      · rfl
    have heff : eff s f = eff s c := by unfold eff; rw [f4]; rfl
    simp only []
    rw [seek_eq f1, if_neg (by rw [hem]; simp), if_neg (by rw [hu, f3]; intro hc; linarith [hc.1]), hu, heff, f2, hx, Option.bind_some,
      Option.map_some]
    unfold observe
    simp only [ha, f1]

/-! ### Findings and examples -/

/-- Ten samples at 30 per second in one segment, the first and last sample in the clip, the others in the database. -/
def exTracks : Tracks := ⟨7, true, true, 1, ⟨10, 30, false, false⟩, 1, [], true, [0x80400000#32], true, 0, 24⟩

/-- The runtime headers of its database context: the hash of the clip, then the metadata of its segment. -/
def exHeaders (medium : BitVec 64) : Bytes := bytesLE 7#32 ++ bytesLE 0#32 ++ bytesLE (medium.setWidth 32) ++ bytesLE ((medium >>> 32).setWidth 32) ++
  bytesLE 0#32 ++ bytesLE 0#32

def exWorld (medium : BitVec 64) : World :=
  ⟨fun _ => exTracks, fun _ => ⟨9, true, true, 1, 1⟩, fun _ => ⟨some 0, 9, some 100, some 200, exHeaders medium⟩⟩

def exSettings : Settings := ⟨false, true, true, true⟩

/-- Before and after the medium tier was streamed in. -/
def exBefore : World := exWorld 0
def exAfter : World := exWorld 0x000000107F800000#64

/-- The key frames a pose is made of. -/
def frames (o : Option (Tracks × Option TransformSeek × Rounding)) : Option (Nat × Nat) :=
  o.bind fun x => x.2.1.map fun f => (f.frame0.clipIndex, f.frame1.clipIndex)

/-- Finding: seek returns early when the time and rounding policy are those of the last seek, although key frames were
streamed in since: at 0.15 seconds the context keeps interpolating the first and last samples, where a fresh context
uses the samples 4 and 5. -/
theorem C20_streaming_finding :
    ((run transformKind exSettings [.init 0 (some 0), .seek (3 / 20) .none, .world exAfter, .seek (3 / 20) .none] (exBefore, {})).map fun st =>
      frames (observe st.1 st.2)) = some (some (0, 9)) ∧
    ((run transformKind exSettings [.init 0 (some 0), .seek (3 / 20) .none] (exAfter, {})).map fun st =>
      frames (observe st.1 st.2)) = some (some (4, 5)) := by
  constructor <;> decide +kernel

/-- Finding: the same after a change of looping policy: at the end of a scalar clip of 10 samples of 24 bits with ceil, the
context keeps the last sample (bit 216), where a fresh context that wraps uses the first one (the second offset counts, as
the factor is 1). -/
theorem C20_policy_finding :
    ((run scalarKind exSettings [.init 0 none, .seek (fdiv 9 30) .ceil, .setLoopingPolicy .wrap, .seek (fdiv 9 30) .ceil] (exBefore, {})).map fun st =>
      (observe st.1 st.2).map fun x => x.2.1) = some (some (some (216#32, 216#32, 1))) ∧
    ((run scalarKind exSettings [.init 0 none, .setLoopingPolicy .wrap, .seek (fdiv 9 30) .ceil] (exBefore, {})).map fun st =>
      (observe st.1 st.2).map fun x => x.2.1) = some (some (some (216#32, 0#32, 1))) := by
  constructor <;> decide +kernel

/-- The hypotheses of C20 are met: a history with streaming and a change of policy, bound to tracks and database. -/
example : Tame transformKind exBefore ([.init 0 (some 0), .setLoopingPolicy .wrap] ++ Op.relocated 1 (some 0) :: [.world exAfter] ++ [.seek (1 / 10) .none, .seek (1 / 5) .floor]) :=
  ⟨fun w h => by
      simp only [List.cons_append, List.nil_append, List.mem_cons, List.not_mem_nil, or_false, reduceCtorEq, false_or, Op.world.injEq] at h
      rw [h]; rfl,
    fun _ => by show (0 : ℚ) < 30; norm_num, fun _ _ _ => rfl⟩

example : ((run transformKind exSettings ([.init 0 (some 0), .setLoopingPolicy .wrap] ++ Op.relocated 1 (some 0) :: [.world exAfter] ++
    [.seek (1 / 10) .none, .seek (1 / 5) .floor]) (exBefore, {})).map fun st => (st.2.tracks, frames (observe st.1 st.2))) = some (some 1, some (6, 7)) := by
  decide +kernel

example : ∃ f, Fresh transformKind exSettings exAfter 1 (some 0) .wrap f := by
  have : ((initCtx transformKind exSettings exAfter {} 1 (some 0)).bind fun x =>
      if x.2 then (setLoopingPolicy exSettings exAfter x.1 .wrap).map fun _ => () else none) = some () := by decide +kernel
  simp only [Option.bind_eq_some_iff] at this
  obtain ⟨⟨f0, b⟩, h0, h1⟩ := this
  cases b
  · cases h1
  · simp only [if_true, Option.map_eq_some_iff] at h1
    obtain ⟨f, h1, -⟩ := h1
    exact ⟨f, f0, h0, h1⟩

end Acl.C20
