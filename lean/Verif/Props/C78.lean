import Verif.Context.Universal
import Verif.Props.C20
import Verif.Props.C40
/-!
C78: a context whose settings support both scalar and transform tracks does what a context for the tracks it is bound to
does, whatever it was bound to before. Model: Verif/Context/Universal.lean. Specification: `Typed` and `typedStep` below: a
scalar or a transform context, replaced by a new one of the other kind when that is initialized successfully.
-/
namespace Acl.C78
open Acl.Context Acl.Context.Universal Acl.Interp Acl.F32

/-- Specification: a context of either kind. -/
inductive Typed where
  | scalar (c : Ctx ScalarSeek)
  | transform (c : Ctx TransformSeek)

/-- Specification: which tracks it is bound to. -/
def Typed.tracks : Typed → Option Nat
  | .scalar c => c.tracks
  | .transform c => c.tracks

/-- Specification: the context of a kind: the one there is, or a new one. -/
def Typed.asScalar : Typed → Ctx ScalarSeek
  | .scalar c => c
  | .transform _ => {}
def Typed.asTransform : Typed → Ctx TransformSeek
  | .scalar _ => {}
  | .transform c => c

variable (ty : Tracks → Nat) (s : Settings)

/-- Specification: initialize the context for the type of the tracks; it takes over if that succeeds. -/
def typedInit (w : World) (c : Typed) (a : Nat) (db : Option Nat) : Option (Typed × Bool) :=
  match family (ty (w.tracks a)) with
  | some .scalar => (initCtx scalarKind s w c.asScalar a db).map fun r => (if r.2 then .scalar r.1 else c, r.2)
  | some .transform => (initCtx transformKind s w c.asTransform a db).map fun r => (if r.2 then .transform r.1 else c, r.2)
  | none => (checks s w (w.tracks a) db).map fun _ => (c, false)

/-- Specification: tracks of the other kind are other tracks. -/
def typedRelocated (w : World) (c : Typed) (a : Nat) (db : Option Nat) : Option (Typed × Bool) :=
  match c, family (ty (w.tracks a)) with
  | .scalar x, some .scalar => (Context.relocated scalarKind s w x a db).map fun r => (.scalar r.1, r.2)
  | .transform x, some .transform => (Context.relocated transformKind s w x a db).map fun r => (.transform r.1, r.2)
  | c, _ => if c.tracks.isNone then some (c, false) else (checks s w (w.tracks a) db).map fun _ => (c, false)

/-- Specification: every operation is the one of the context there is. set_looping_policy is for initialized contexts. -/
def typedStep (st : World × Typed) : Op → Option ((World × Typed) × Bool)
  | .init a db => (typedInit ty s st.1 st.2 a db).map fun r => ((st.1, r.1), r.2)
  | .relocated a db => (typedRelocated ty s st.1 st.2 a db).map fun r => ((st.1, r.1), r.2)
  | .reset => match st.2 with
    | .scalar c => some ((st.1, .scalar (Context.reset c)), true)
    | .transform c => some ((st.1, .transform (Context.reset c)), true)
  | .setLoopingPolicy p => if st.2.tracks.isNone then none else match st.2 with
    | .scalar c => (Context.setLoopingPolicy s st.1 c p).map fun c => ((st.1, .scalar c), true)
    | .transform c => (Context.setLoopingPolicy s st.1 c p).map fun c => ((st.1, .transform c), true)
  | .seek t r => match st.2 with
    | .scalar c => (Context.seek scalarKind s st.1 c t r).map fun c => ((st.1, .scalar c), true)
    | .transform c => (Context.seek transformKind s st.1 c t r).map fun c => ((st.1, .transform c), true)
  | .world w => some ((w, st.2), true)

/-- Specification: a history and what its operations returned. -/
def typedRun : List Op → World × Typed → Option (List Bool × (World × Typed))
  | [], st => some ([], st)
  | op :: ops, st => do
    let r ← typedStep ty s st op
    let rest ← typedRun ops r.1
    pure (r.2 :: rest.1, rest.2)

/-- Specification: what is seen of a context: whether it is bound to tracks and databases, its looping policy and what a
decompression gives. -/
structure Seen where
  bound : Nat → Bool
  boundDatabase : Nat → Bool
  looping : Option Looping
  pose : Option Pose

def typedSeen (w : World) : Typed → Seen
  | .scalar c => ⟨Context.isBoundTo w c, Context.isBoundToDatabase scalarKind w c, c.tracks.map fun _ => c.looping, (Context.observe w c).map .scalar⟩
  | .transform c =>
    ⟨Context.isBoundTo w c, Context.isBoundToDatabase transformKind w c, c.tracks.map fun _ => c.looping, (Context.observe w c).map .transform⟩

def unionSeen {M : Type} (u : Storage M) (w : World) (m : M) : Seen :=
  ⟨Universal.isBoundTo u ty w m, Universal.isBoundToDatabase u ty w m, Universal.getLoopingPolicy u ty w m, Universal.observe u ty w m⟩

/-- relocated is never called with tracks of the other kind than those the context is bound to. -/
def NoCrossing : List Op → World × Typed → Prop
  | [], _ => True
  | op :: ops, st =>
    (∀ a db b, op = .relocated a db → st.2.tracks = some b → family (ty (st.1.tracks a)) = family (ty (st.1.tracks b))) ∧
    ∀ r, typedStep ty s st op = some r → NoCrossing ops r.1

/-- What is asked of the compressed tracks in memory, and of the sample times: the tracks at an address keep their type and have a
sample rate; times are clamped or not negative. -/
structure Tame (w0 : World) (ops : List Op) : Prop where
  types : ∀ w, Op.world w ∈ ops → ∀ a, ty (w.tracks a) = ty (w0.tracks a)
  rate0 : ∀ a, 0 < (w0.tracks a).clip.sampleRate
  rates : ∀ w, Op.world w ∈ ops → ∀ a, 0 < (w.tracks a).clip.sampleRate
  times : ∀ t r, Op.seek t r ∈ ops → s.clampTimes = true ∨ 0 ≤ t

/-- Two contexts of a kind that cannot be told apart: bound to nothing, or the same but for what the last seek left when
there was none since they were bound. -/
def Sim {F : Type} (c d : Ctx F) : Prop :=
  c.tracks = d.tracks ∧ (c.tracks ≠ none →
    c.db = d.db ∧ c.tracksHash = d.tracksHash ∧ c.dbHash = d.dbHash ∧ c.duration = d.duration ∧ c.looping = d.looping ∧
    c.sampleTime = d.sampleTime ∧ (c.sampleTime = -1 ∨ (c.rounding = d.rounding ∧ c.seen = d.seen)) ∧ (∀ x, c.duration = .fin x → 0 ≤ x))

section steps
variable {F : Type} {k : Kind F} {s : Settings} {w : World} {c d : Ctx F}

theorem sim_bind (hr : ∀ a, 0 < (w.tracks a).clip.sampleRate) (a : Nat) (db : Option Nat) :
    (Context.bind k s w c a db).2 = (Context.bind k s w d a db).2 ∧
    ((Context.bind k s w c a db).2 = true → Sim (Context.bind k s w c a db).1 (Context.bind k s w d a db).1 ∧ (Context.bind k s w d a db).1.tracks = some a) := by
  unfold Context.bind
  simp only []
  split
  · simp
  · exact ⟨rfl, fun _ => ⟨⟨rfl, fun _ => ⟨rfl, rfl, rfl, rfl, rfl, rfl, Or.inl rfl, C20.duration_nonneg _ (hr a) _⟩⟩, rfl⟩⟩

theorem sim_rebind (h : Sim c d) (hc : c.tracks ≠ none) (a : Nat) (db : Option Nat) :
    (Context.rebind k w c a db).2 = (Context.rebind k w d a db).2 ∧
    Sim (Context.rebind k w c a db).1 (Context.rebind k w d a db).1 ∧
    ((Context.rebind k w d a db).2 = false → (Context.rebind k w d a db).1 = d ∧ (Context.rebind k w c a db).1 = c) ∧
    ((Context.rebind k w d a db).2 = true → (Context.rebind k w d a db).1.tracks = some a) := by
  obtain ⟨h1, h2⟩ := h
  obtain ⟨h3, h4, h5, h6, h7, h8, h9, h10⟩ := h2 hc
  have hself : Sim c d := ⟨h1, h2⟩
  unfold Context.rebind
  rw [h4, h5]
  split
  · exact ⟨rfl, hself, fun _ => ⟨rfl, rfl⟩, nofun⟩
  split
  · split
    · exact ⟨rfl, hself, fun _ => ⟨rfl, rfl⟩, nofun⟩
    · exact ⟨rfl, ⟨rfl, fun _ => ⟨h3, rfl, rfl, h6, h7, rfl, Or.inl rfl, h10⟩⟩, nofun, fun _ => rfl⟩
  split
  · exact ⟨rfl, hself, fun _ => ⟨rfl, rfl⟩, nofun⟩
  · exact ⟨rfl, ⟨rfl, fun _ => ⟨rfl, rfl, rfl, h6, h7, rfl, Or.inl rfl, h10⟩⟩, nofun, fun _ => rfl⟩

theorem sim_policy (hr : ∀ a, 0 < (w.tracks a).clip.sampleRate) (h : Sim c d) (p : Looping) :
    (Context.setLoopingPolicy s w c p = none ∧ Context.setLoopingPolicy s w d p = none) ∨
    ∃ c' d', Context.setLoopingPolicy s w c p = some c' ∧ Context.setLoopingPolicy s w d p = some d' ∧ Sim c' d' ∧ d'.tracks = d.tracks := by
  unfold Context.setLoopingPolicy
  split
  · exact Or.inr ⟨c, d, rfl, rfl, h, rfl⟩
  · have h' := h
    obtain ⟨h1, h2⟩ := h
    cases hc : c.tracks with
    | none => rw [← h1, hc]; exact Or.inl ⟨rfl, rfl⟩
    | some a =>
      obtain ⟨h3, h4, h5, h6, h7, h8, h9, h10⟩ := h2 (by rw [hc]; nofun)
      rw [← h1, hc]
      simp only []
      generalize (if p = Looping.asCompressed then (w.tracks a).loopingPolicy else p) = q
      rw [h7]
      by_cases hq : d.looping ≠ q
      · rw [if_pos hq, if_pos hq]
        exact Or.inr ⟨_, _, rfl, rfl, ⟨rfl, fun _ => ⟨h3, h4, h5, rfl, rfl, h8, h9, C20.duration_nonneg _ (hr a) _⟩⟩, rfl⟩
      · rw [if_neg hq, if_neg hq]
        exact Or.inr ⟨c, d, rfl, rfl, h', h1.symm ▸ hc⟩

theorem used_nonneg {t : ℚ} (hd : ∀ x, c.duration = .fin x → 0 ≤ x) (ht : s.clampTimes = true ∨ 0 ≤ t) : 0 ≤ C20.usedTime s c t := by
  unfold C20.usedTime
  split
  · cases h : c.duration with
    | fin x => exact le_min (le_max_right _ _) (hd x h)
    | inf => exact le_max_right _ _
  · exact ht.resolve_left (by assumption)

theorem sim_seek (h : Sim c d) (t : ℚ) (r : Rounding) (ht : s.clampTimes = true ∨ 0 ≤ t) :
    (Context.seek k s w c t r = none ∧ Context.seek k s w d t r = none) ∨
    ∃ c' d', Context.seek k s w c t r = some c' ∧ Context.seek k s w d t r = some d' ∧ Sim c' d' ∧ d'.tracks = d.tracks := by
  have h' := h
  obtain ⟨h1, h2⟩ := h
  cases hc : c.tracks with
  | none =>
    have hd : d.tracks = none := h1 ▸ hc
    refine Or.inr ⟨c, d, ?_, ?_, h', rfl⟩
    · unfold Context.seek; rw [hc]
    · unfold Context.seek; rw [hd]
  | some a =>
    have hd : d.tracks = some a := h1 ▸ hc
    obtain ⟨h3, h4, h5, h6, h7, h8, h9, h10⟩ := h2 (by rw [hc]; nofun)
    rw [C20.seek_eq hc, C20.seek_eq hd]
    have hu : C20.usedTime s d t = C20.usedTime s c t := by unfold C20.usedTime; rw [h6]
    have he : C20.eff s d = C20.eff s c := by unfold C20.eff; rw [h7]
    rw [hu, he, ← h3, ← h8]
    have hn := used_nonneg h10 ht
    split
    · exact Or.inr ⟨c, d, rfl, rfl, h', rfl⟩
    have hskip : (c.sampleTime = C20.usedTime s c t ∧ c.rounding = r) ↔ (c.sampleTime = C20.usedTime s c t ∧ d.rounding = r) := by
      rcases h9 with h9 | ⟨h9, -⟩
      · rw [h9]
        constructor <;> rintro ⟨h, -⟩ <;> rw [← h] at hn <;> norm_num at hn
      · rw [h9]
    by_cases hs : c.sampleTime = C20.usedTime s c t ∧ c.rounding = r
    · rw [if_pos hs, if_pos (hskip.1 hs)]
      exact Or.inr ⟨c, d, rfl, rfl, h', rfl⟩
    · rw [if_neg hs, if_neg (fun h => hs (hskip.2 h))]
      cases k.compute s w (w.tracks a) c.db (C20.eff s c) (C20.usedTime s c t) r with
      | none => exact Or.inl ⟨rfl, rfl⟩
      | some f =>
        exact Or.inr ⟨_, _, rfl, rfl, ⟨h1, fun _ => ⟨rfl, h4, h5, h6, h7, rfl, Or.inr ⟨rfl, rfl⟩, h10⟩⟩, rfl⟩

theorem sim_observe (h : Sim c d) : Context.observe w c = Context.observe w d := by
  obtain ⟨h1, h2⟩ := h
  unfold Context.observe
  cases hc : c.tracks with
  | none => rw [← h1, hc]
  | some a =>
    obtain ⟨-, -, -, -, -, h8, h9, -⟩ := h2 (by rw [hc]; nofun)
    rw [← h1, hc]
    simp only []
    rw [← h8]
    rcases h9 with h9 | ⟨h9, h10⟩
    · rw [if_pos (Or.inr (by rw [h9]; norm_num)), if_pos (Or.inr (by rw [h9]; norm_num))]
    · rw [h9, h10]

theorem sim_bound (h : Sim c d) (a : Nat) : Context.isBoundTo w c a = Context.isBoundTo w d a := by
  obtain ⟨h1, h2⟩ := h
  unfold Context.isBoundTo
  cases hc : c.tracks with
  | none => rw [← h1, hc]; rfl
  | some b => rw [← h1, hc, (h2 (by rw [hc]; nofun)).2.1]

theorem sim_database (h : Sim c d) (a : Nat) : Context.isBoundToDatabase k w c a = Context.isBoundToDatabase k w d a := by
  obtain ⟨h1, h2⟩ := h
  unfold Context.isBoundToDatabase
  cases hc : c.tracks with
  | none => rw [← h1, hc]; rfl
  | some b => 
    obtain ⟨h3, -, h5, -⟩ := h2 (by rw [hc]; nofun)
    rw [← h1, hc, h3, h5]

end steps

variable {ty s} {M : Type} {u : Storage M}

/-- The union holds the context of the specification. -/
def Rel (u : Storage M) (T : Nat → Nat) : Typed → M → Prop
  | .scalar c, m => Sim c (u.scalar m) ∧ ∀ a, c.tracks = some a → family (T a) = some .scalar
  | .transform c, m => Sim c (u.transform m) ∧ ∀ a, c.tracks = some a → family (T a) = some .transform

theorem rel_tracks {T : Nat → Nat} {t : Typed} {m : M} (h : Rel u T t m) : boundTracks u m = t.tracks := by
  cases t with
  | scalar c => exact h.1.1.symm
  | transform c => exact (u.same_tracks m).symm.trans h.1.1.symm

theorem sim_none {F : Type} {c d : Ctx F} (h1 : c.tracks = none) (h2 : d.tracks = none) : Sim c d :=
  ⟨h1.trans h2.symm, fun h => absurd h1 h⟩

/-- One operation. -/
theorem step_rel {T : Nat → Nat} {w : World} {t : Typed} {m : M} (hT : ∀ a, ty (w.tracks a) = T a)
    (hr : ∀ a, 0 < (w.tracks a).clip.sampleRate) (h : Rel u T t m) (op : Op)
    (hw : ∀ x, op = .world x → (∀ a, ty (x.tracks a) = T a) ∧ ∀ a, 0 < (x.tracks a).clip.sampleRate)
    (ht : ∀ x r, op = .seek x r → s.clampTimes = true ∨ 0 ≤ x)
    (hx : ∀ a db b, op = .relocated a db → t.tracks = some b → family (ty (w.tracks a)) = family (ty (w.tracks b))) :
    (typedStep ty s (w, t) op = none ∧ Universal.step u ty s (w, m) op = none) ∨
    ∃ w' t' m' b, typedStep ty s (w, t) op = some ((w', t'), b) ∧ Universal.step u ty s (w, m) op = some ((w', m'), b) ∧ Rel u T t' m' ∧
      (∀ a, ty (w'.tracks a) = T a) ∧ ∀ a, 0 < (w'.tracks a).clip.sampleRate := by
  have hbt := rel_tracks h
  cases op with
  | init a db =>
    simp only [typedStep, Universal.step, typedInit, Universal.init, initCtx, Option.pure_def, Option.bind_eq_bind]
    cases hck : checks s w (w.tracks a) db with
    | none =>
      left
      cases hf : family (ty (w.tracks a)) with
      | none => exact ⟨rfl, rfl⟩
      | some f => cases f <;> exact ⟨rfl, rfl⟩
    | some x =>
      right
      cases x with
      | false =>
        refine ⟨w, t, m, false, ?_, rfl, h, hT, hr⟩
        cases hf : family (ty (w.tracks a)) with
        | none => rfl
        | some f => cases f <;> rfl
      | true =>
        cases hf : family (ty (w.tracks a)) with
        | none => exact ⟨w, t, m, false, rfl, rfl, h, hT, hr⟩
        | some f =>
          cases f with
          | scalar =>
            obtain ⟨h1, h2⟩ := sim_bind (k := scalarKind) (s := s) (c := t.asScalar) (d := u.scalar m) hr a db
            simp only [Option.bind_some, if_true, Option.map_some, storeScalar]
            cases hb : (Context.bind scalarKind s w (u.scalar m) a db).2 with
            | false =>
              rw [hb] at h1
              rw [h1]
              exact ⟨w, t, m, false, rfl, rfl, h, hT, hr⟩
            | true =>
              rw [hb] at h1
              rw [h1]
              obtain ⟨h3, h4⟩ := h2 h1
              refine ⟨w, _, _, true, rfl, rfl, ⟨?_, ?_⟩, hT, hr⟩
              · simp only [if_true]; rw [u.scalar_write]; exact h3
              · intro b hb
                rw [h3.1, h4] at hb
                injection hb with hb
                rw [← hb, ← hT, hf]
          | transform =>
            obtain ⟨h1, h2⟩ := sim_bind (k := transformKind) (s := s) (c := t.asTransform) (d := u.transform m) hr a db
            simp only [Option.bind_some, if_true, Option.map_some, storeTransform]
            cases hb : (Context.bind transformKind s w (u.transform m) a db).2 with
            | false =>
              rw [hb] at h1
              rw [h1]
              exact ⟨w, t, m, false, rfl, rfl, h, hT, hr⟩
            | true =>
              rw [hb] at h1
              rw [h1]
              obtain ⟨h3, h4⟩ := h2 h1
              refine ⟨w, _, _, true, rfl, rfl, ⟨?_, ?_⟩, hT, hr⟩
              · simp only [if_true]; rw [u.transform_write]; exact h3
              · intro b hb
                rw [h3.1, h4] at hb
                injection hb with hb
                rw [← hb, ← hT, hf]
  | relocated a db =>
    simp only [typedStep, Universal.step, Universal.relocated, Option.pure_def, Option.bind_eq_bind, hbt]
    cases hc : t.tracks with
    | none =>
      right
      refine ⟨w, t, m, false, ?_, rfl, h, hT, hr⟩
      cases t with
      | scalar c =>
        have hc' : c.tracks = none := hc
        cases hf : family (ty (w.tracks a)) with
        | none => simp [typedRelocated, hf, Typed.tracks, hc']
        | some f => cases f <;> simp [typedRelocated, hf, Typed.tracks, Context.relocated, hc']
      | transform c =>
        have hc' : c.tracks = none := hc
        cases hf : family (ty (w.tracks a)) with
        | none => simp [typedRelocated, hf, Typed.tracks, hc']
        | some f => cases f <;> simp [typedRelocated, hf, Typed.tracks, Context.relocated, hc']
    | some b =>
      have hfam := hx a db b rfl hc
      simp only [Option.isNone_some, Bool.false_eq_true, if_false]
      cases t with
      | scalar c =>
        have hc' : c.tracks = some b := hc
        obtain ⟨hs, hfs⟩ := h
        have hf : family (ty (w.tracks a)) = some .scalar := by rw [hfam, hT]; exact hfs b hc'
        simp only [typedRelocated, hf, Context.relocated, hc', Option.isNone_some, Bool.false_eq_true, if_false, Option.bind_eq_bind]
        cases hck : checks s w (w.tracks a) db with
        | none => exact Or.inl ⟨rfl, rfl⟩
        | some x =>
          right
          cases x with
          | false => exact ⟨w, .scalar c, m, false, rfl, rfl, ⟨hs, hfs⟩, hT, hr⟩
          | true =>
            obtain ⟨h1, h2, h3, h4⟩ := sim_rebind (k := scalarKind) (w := w) hs (by rw [hc']; nofun) a db
            simp only [Option.bind_some, if_true, Option.map_some, storeScalar, Option.pure_def]
            cases hb : (Context.rebind scalarKind w (u.scalar m) a db).2 with
            | false =>
              rw [hb] at h1
              rw [h1, (h3 hb).2]
              exact ⟨w, .scalar c, m, false, rfl, rfl, ⟨hs, hfs⟩, hT, hr⟩
            | true =>
              rw [hb] at h1
              rw [h1]
              refine ⟨w, _, _, true, rfl, rfl, ⟨?_, ?_⟩, hT, hr⟩
              · simp only [if_true]; rw [u.scalar_write]; exact h2
              · intro b' hb'
                rw [h2.1, h4 hb] at hb'
                injection hb' with hb'
                rw [← hb', ← hT, hf]
      | transform c =>
        have hc' : c.tracks = some b := hc
        obtain ⟨hs, hfs⟩ := h
        have hf : family (ty (w.tracks a)) = some .transform := by rw [hfam, hT]; exact hfs b hc'
        simp only [typedRelocated, hf, Context.relocated, hc', Option.isNone_some, Bool.false_eq_true, if_false, Option.bind_eq_bind]
        cases hck : checks s w (w.tracks a) db with
        | none => exact Or.inl ⟨rfl, rfl⟩
        | some x =>
          right
          cases x with
          | false => exact ⟨w, .transform c, m, false, rfl, rfl, ⟨hs, hfs⟩, hT, hr⟩
          | true =>
            obtain ⟨h1, h2, h3, h4⟩ := sim_rebind (k := transformKind) (w := w) hs (by rw [hc']; nofun) a db
            simp only [Option.bind_some, if_true, Option.map_some, storeTransform, Option.pure_def]
            cases hb : (Context.rebind transformKind w (u.transform m) a db).2 with
            | false =>
              rw [hb] at h1
              rw [h1, (h3 hb).2]
              exact ⟨w, .transform c, m, false, rfl, rfl, ⟨hs, hfs⟩, hT, hr⟩
            | true =>
              rw [hb] at h1
              rw [h1]
              refine ⟨w, _, _, true, rfl, rfl, ⟨?_, ?_⟩, hT, hr⟩
              · simp only [if_true]; rw [u.transform_write]; exact h2
              · intro b' hb'
                rw [h2.1, h4 hb] at hb'
                injection hb' with hb'
                rw [← hb', ← hT, hf]
  | reset =>
    right
    have h1 : (u.scalar (Universal.reset u m)).tracks = none := by unfold Universal.reset; rw [u.scalar_write]
    cases t with
    | scalar c => exact ⟨w, _, _, true, rfl, rfl, ⟨sim_none rfl h1, nofun⟩, hT, hr⟩
    | transform c => exact ⟨w, _, _, true, rfl, rfl, ⟨sim_none rfl ((u.same_tracks _).trans h1), nofun⟩, hT, hr⟩
  | setLoopingPolicy p =>
    simp only [typedStep, Universal.step, Universal.setLoopingPolicy, hbt]
    cases hc : t.tracks with
    | none => exact Or.inl ⟨rfl, rfl⟩
    | some b =>
      simp only [Option.isNone_some, Bool.false_eq_true, if_false]
      cases t with
      | scalar c =>
        obtain ⟨hs, hfs⟩ := h
        have hf : family (ty (w.tracks b)) = some .scalar := by rw [hT]; exact hfs b hc
        simp only [hf]
        rcases sim_policy (s := s) hr hs p with ⟨h1, h2⟩ | ⟨c', d', h1, h2, h3, h4⟩
        · rw [h1, h2]; exact Or.inl ⟨rfl, rfl⟩
        · rw [h1, h2]
          refine Or.inr ⟨w, _, _, true, rfl, rfl, ⟨?_, ?_⟩, hT, hr⟩
          · rw [u.scalar_write]; exact h3
          · intro a ha
            exact hfs a (by rw [hs.1, ← h4, ← h3.1]; exact ha)
      | transform c =>
        obtain ⟨hs, hfs⟩ := h
        have hf : family (ty (w.tracks b)) = some .transform := by rw [hT]; exact hfs b hc
        simp only [hf]
        rcases sim_policy (s := s) hr hs p with ⟨h1, h2⟩ | ⟨c', d', h1, h2, h3, h4⟩
        · rw [h1, h2]; exact Or.inl ⟨rfl, rfl⟩
        · rw [h1, h2]
          refine Or.inr ⟨w, _, _, true, rfl, rfl, ⟨?_, ?_⟩, hT, hr⟩
          · rw [u.transform_write]; exact h3
          · intro a ha
            exact hfs a (by rw [hs.1, ← h4, ← h3.1]; exact ha)
  | seek x r =>
    simp only [typedStep, Universal.step, Universal.seek, hbt]
    have ht := ht x r rfl
    cases hc : t.tracks with
    | none =>
      refine Or.inr ⟨w, t, m, true, ?_, rfl, h, hT, hr⟩
      cases t with
      | scalar c =>
        have hc' : c.tracks = none := hc
        simp [Context.seek, hc']
      | transform c =>
        have hc' : c.tracks = none := hc
        simp [Context.seek, hc']
    | some b =>
      cases t with
      | scalar c =>
        obtain ⟨hs, hfs⟩ := h
        have hf : family (ty (w.tracks b)) = some .scalar := by rw [hT]; exact hfs b hc
        simp only [hf]
        rcases sim_seek (k := scalarKind) (s := s) (w := w) hs x r ht with ⟨h1, h2⟩ | ⟨c', d', h1, h2, h3, h4⟩
        · rw [h1, h2]; exact Or.inl ⟨rfl, rfl⟩
        · rw [h1, h2]
          refine Or.inr ⟨w, _, _, true, rfl, rfl, ⟨?_, ?_⟩, hT, hr⟩
          · rw [u.scalar_write]; exact h3
          · intro a ha
            exact hfs a (by rw [hs.1, ← h4, ← h3.1]; exact ha)
      | transform c =>
        obtain ⟨hs, hfs⟩ := h
        have hf : family (ty (w.tracks b)) = some .transform := by rw [hT]; exact hfs b hc
        simp only [hf]
        rcases sim_seek (k := transformKind) (s := s) (w := w) hs x r ht with ⟨h1, h2⟩ | ⟨c', d', h1, h2, h3, h4⟩
        · rw [h1, h2]; exact Or.inl ⟨rfl, rfl⟩
        · rw [h1, h2]
          refine Or.inr ⟨w, _, _, true, rfl, rfl, ⟨?_, ?_⟩, hT, hr⟩
          · rw [u.transform_write]; exact h3
          · intro a ha
            exact hfs a (by rw [hs.1, ← h4, ← h3.1]; exact ha)
  | world x =>
    obtain ⟨h1, h2⟩ := hw x rfl
    exact Or.inr ⟨x, t, m, true, rfl, rfl, h, h1, h2⟩

/-- What is seen of the union is what is seen of the context it holds. -/
theorem seen_rel {T : Nat → Nat} {w : World} {t : Typed} {m : M} (hT : ∀ a, ty (w.tracks a) = T a) (h : Rel u T t m) :
    unionSeen ty u w m = typedSeen w t := by
  have hbt := rel_tracks h
  cases t with
  | scalar c =>
    obtain ⟨hs, hfs⟩ := h
    unfold unionSeen typedSeen Universal.isBoundTo Universal.isBoundToDatabase Universal.getLoopingPolicy Universal.observe
    rw [hbt]
    simp only [Typed.tracks]
    cases hc : c.tracks with
    | none =>
      simp only [Context.observe, hc, Option.map_none, Seen.mk.injEq, and_true]
      exact ⟨by funext a; simp [Context.isBoundTo, hc], by funext a; simp [Context.isBoundToDatabase, hc]⟩
    | some b =>
      have hf : family (ty (w.tracks b)) = some .scalar := by rw [hT]; exact hfs b hc
      simp only [hf, Option.map_some, Seen.mk.injEq]
      refine ⟨?_, ?_, ?_, ?_⟩
      · funext a; exact (sim_bound hs a).symm
      · funext a; exact (sim_database hs a).symm
      · rw [(hs.2 (by rw [hc]; nofun)).2.2.2.2.1]
      · rw [sim_observe hs]
  | transform c =>
    obtain ⟨hs, hfs⟩ := h
    unfold unionSeen typedSeen Universal.isBoundTo Universal.isBoundToDatabase Universal.getLoopingPolicy Universal.observe
    rw [hbt]
    simp only [Typed.tracks]
    cases hc : c.tracks with
    | none =>
      simp only [Context.observe, hc, Option.map_none, Seen.mk.injEq, and_true]
      exact ⟨by funext a; simp [Context.isBoundTo, hc], by funext a; simp [Context.isBoundToDatabase, hc]⟩
    | some b =>
      have hf : family (ty (w.tracks b)) = some .transform := by rw [hT]; exact hfs b hc
      simp only [hf, Option.map_some, Seen.mk.injEq]
      refine ⟨?_, ?_, ?_, ?_⟩
      · funext a; exact (sim_bound hs a).symm
      · funext a; exact (sim_database hs a).symm
      · rw [(hs.2 (by rw [hc]; nofun)).2.2.2.2.1]
      · rw [sim_observe hs]

theorem run_rel {T : Nat → Nat} (ops : List Op) (w : World) (t : Typed) (m : M) (hT : ∀ a, ty (w.tracks a) = T a)
    (hr : ∀ a, 0 < (w.tracks a).clip.sampleRate) (h : Rel u T t m)
    (hw : ∀ x, Op.world x ∈ ops → (∀ a, ty (x.tracks a) = T a) ∧ ∀ a, 0 < (x.tracks a).clip.sampleRate)
    (ht : ∀ x r, Op.seek x r ∈ ops → s.clampTimes = true ∨ 0 ≤ x) (hx : NoCrossing ty s ops (w, t)) :
    (Universal.run u ty s ops (w, m)).map (fun r => (r.1, r.2.1, unionSeen ty u r.2.1 r.2.2)) =
      (typedRun ty s ops (w, t)).map fun r => (r.1, r.2.1, typedSeen r.2.1 r.2.2) := by
  induction ops generalizing w t m with
  | nil => simp only [Universal.run, typedRun, Option.map_some, seen_rel hT h]
  | cons op ops ih =>
    obtain ⟨hx1, hx2⟩ := hx
    simp only [Universal.run, typedRun, Option.bind_eq_bind, Option.pure_def]
    rcases step_rel (s := s) hT hr h op (fun x hx => hw x (hx ▸ List.mem_cons_self)) (fun x r hx => ht x r (hx ▸ List.mem_cons_self)) hx1 with
      ⟨h1, h2⟩ | ⟨w', t', m', b, h1, h2, h3, h4, h5⟩
    · rw [h1, h2]; rfl
    · rw [h1, h2]
      have := ih w' t' m' h4 h5 h3 (fun x hx => hw x (List.mem_cons_of_mem _ hx)) (fun x r hx => ht x r (List.mem_cons_of_mem _ hx)) (hx2 _ h1)
      simp only [Option.bind_some, Option.map_bind]
      revert this
      cases Universal.run u ty s ops (w', m') <;> cases typedRun ty s ops (w', t') <;> simp

/-- C78: whatever the history of a new context, what its operations return, what it is bound to, its looping policy and what it
decompresses are those of the scalar and transform contexts of the specification, provided relocated is never called with tracks
of the other kind. `m` is memory that was just reset: its other bytes are arbitrary. -/
theorem C78_universal {M : Type} (u : Storage M) (ty : Tracks → Nat) (s : Settings) (w : World) (m : M) (ops : List Op)
    (htame : Tame ty s w ops) (hx : NoCrossing ty s ops (w, .scalar {})) :
    (Universal.run u ty s ops (w, Universal.reset u m)).map (fun r => (r.1, r.2.1, unionSeen ty u r.2.1 r.2.2)) =
      (typedRun ty s ops (w, .scalar {})).map fun r => (r.1, r.2.1, typedSeen r.2.1 r.2.2) :=
  run_rel (T := fun a => ty (w.tracks a)) ops w _ _ (fun _ => rfl) htame.rate0
    ⟨sim_none rfl (by unfold Universal.reset; rw [u.scalar_write]), nofun⟩
    (fun x hx => ⟨htame.types x hx, htame.rates x hx⟩) htame.times hx

/-- C78, types: float1f to vector4f (0 to 4, track_types.h) are scalar tracks, qvvf (12) are transform tracks, and nothing else is either. -/
theorem C78_types (trackType : Nat) :
    (family trackType = some .scalar ↔ trackType ≤ 4) ∧ (family trackType = some .transform ↔ trackType = 12) := by
  unfold family
  split
  · simp only [true_iff, reduceCtorEq, Option.some.injEq, false_iff]; omega
  · split
    · simp only [true_iff, reduceCtorEq, Option.some.injEq, false_iff]; omega
    · simp only [reduceCtorEq, false_iff]; omega

/-! ### relocated with tracks of the other kind -/

theorem rebind_scalar (w : World) (c : Ctx ScalarSeek) (a : Nat) :
    (Context.rebind scalarKind w c a none).2 = true ↔ c.tracksHash = (w.tracks a).hash := by
  unfold Context.rebind
  by_cases h : c.tracksHash = (w.tracks a).hash <;> simp [h, scalarKind]

theorem rebind_transform (w : World) (c : Ctx TransformSeek) (a : Nat) (db : Option Nat) :
    (Context.rebind transformKind w c a db).2 = true ↔ c.tracksHash = (w.tracks a).hash ∧ c.dbHash = dbHashOf w db := by
  unfold Context.rebind
  by_cases h : c.tracksHash = (w.tracks a).hash <;> by_cases h' : c.dbHash = dbHashOf w db <;> simp [h, h', transformKind]

/-- Finding: a context bound to transform tracks without a database takes scalar tracks as the same tracks that were moved exactly
when their hash is 0, whatever the hash of the transform tracks: the hash is read where the pointer to the database is. -/
theorem C78_relocated_scalar_finding {M : Type} (u : Storage M) (ho : Overlay64 u) (ty : Tracks → Nat) (s : Settings) (w : World) (m : M)
    (c : Ctx TransformSeek) (a b : Nat) (hb : c.tracks = some b) (hd : c.db = none) (hf : family (ty (w.tracks a)) = some .scalar)
    (hc : checks s w (w.tracks a) none = some true) :
    ∃ m' r, Universal.relocated u ty s w (u.writeTransform m c) a none = some (m', r) ∧ (r = true ↔ (w.tracks a).hash = 0) := by
  have hbt : boundTracks u (u.writeTransform m c) = some b := by
    unfold boundTracks; rw [← u.same_tracks, u.transform_write, hb]
  refine ⟨(storeScalar u (u.writeTransform m c) (Context.rebind scalarKind w (u.scalar (u.writeTransform m c)) a none)).1, (Context.rebind scalarKind w (u.scalar (u.writeTransform m c)) a none).2, ?_, ?_⟩
  · simp only [Universal.relocated, hbt, Option.isNone_some, Bool.false_eq_true, if_false, hc, Option.bind_eq_bind, Option.bind_some, if_true, hf]
    rfl
  · rw [rebind_scalar, ho.scalarHash, hd]
    exact eq_comm

/-- Finding: a context bound to scalar tracks and seeked takes transform tracks as the same tracks that were moved exactly when
their hash is the bits of the interpolation factor and the hash of the database the bits of the sample time. -/
theorem C78_relocated_transform_finding {M : Type} (u : Storage M) (ho : Overlay64 u) (ty : Tracks → Nat) (s : Settings) (w : World) (m : M)
    (c : Ctx ScalarSeek) (k0 k1 : BitVec 32) (alpha : ℚ) (hseen : c.seen = some (k0, k1, alpha)) (a b : Nat) (hb : c.tracks = some b)
    (db : Option Nat) (hf : family (ty (w.tracks a)) = some .transform) (hc : checks s w (w.tracks a) db = some true) :
    ∃ m' r, Universal.relocated u ty s w (u.writeScalar m c) a db = some (m', r) ∧
      (r = true ↔ (w.tracks a).hash = toBits alpha ∧ C40.hashOf w db = toBits c.sampleTime) := by
  have hbt : boundTracks u (u.writeScalar m c) = some b := by
    unfold boundTracks; rw [u.scalar_write, hb]
  refine ⟨(storeTransform u (u.writeScalar m c) (Context.rebind transformKind w (u.transform (u.writeScalar m c)) a db)).1, (Context.rebind transformKind w (u.transform (u.writeScalar m c)) a db).2, ?_, ?_⟩
  · simp only [Universal.relocated, hbt, Option.isNone_some, Bool.false_eq_true, if_false, hc, Option.bind_eq_bind, Option.bind_some, if_true, hf]
    rfl
  · rw [rebind_transform, ho.tracksHash m c k0 k1 alpha hseen, ho.dbHash, C40.dbHashOf_eq]
    exact and_congr eq_comm eq_comm

/-! ### Versions -/

/-- C78, versions: with settings for any version, initialize takes the versions 7 (2.0.0) to 10 (2.1.0) and no other; with settings for
one version, that one. What initialize takes, every other function handles. -/
theorem C78_versions (setting version : Nat) :
    (isVersionSupported setting version = true ↔ (setting = 0 ∧ 7 ≤ version ∧ version ≤ 10) ∨ (setting ≠ 0 ∧ version = setting)) ∧
    (isVersionSupported setting version = true → dispatches setting version = true) := by
  unfold isVersionSupported dispatches
  by_cases h : setting = 0
  · simp only [h, if_true, Bool.and_eq_true, decide_eq_true_eq, Bool.or_eq_true, beq_iff_eq, true_and, ne_eq, not_true, false_and, or_false]
    omega
  · simp [h]

/-! ### Examples -/

/-- The 128 bytes, as far as the overlay goes. -/
def storage64 : Storage (Ctx ScalarSeek ⊕ Ctx TransformSeek) where
  scalar
    | .inl c => c
    | .inr c => { tracks := c.tracks, tracksHash := (c.db.map (BitVec.ofNat 32)).getD 0 }
  transform
    | .inl c => { tracks := c.tracks, tracksHash := (c.seen.map fun x => toBits x.2.2).getD 0, dbHash := toBits c.sampleTime }
    | .inr c => c
  writeScalar _ c := .inl c
  writeTransform _ c := .inr c
  scalar_write _ _ := rfl
  transform_write _ _ := rfl
  same_tracks m := by cases m <;> rfl

example : Overlay64 storage64 :=
  ⟨fun m c k0 k1 alpha h => by simp [storage64, h], fun _ _ => rfl, fun _ _ => rfl⟩

/-- Scalar tracks at 0, transform tracks at 1 and 2, scalar tracks whose hash is 0 at 3. -/
def exTracks : Nat → Tracks
  | 0 => { C20.exTracks with hash := 5 }
  | 3 => { C20.exTracks with hash := 0 }
  | _ => C20.exTracks

def exType (t : Tracks) : Nat := if t.hash = 7 then 12 else 3

def exWorld : World := { C20.exBefore with tracks := exTracks }

def exOps : List Op := [.init 0 none, .setLoopingPolicy .wrap, .seek (1 / 10) .none, .init 1 (some 0), .seek (1 / 10) .none, .relocated 2 (some 0),
  .world { C20.exAfter with tracks := exTracks }, .init 0 (some 0), .seek (3 / 20) .none]

/-- A check of NoCrossing. -/
def noCrossing (ty : Tracks → Nat) (s : Settings) : List Op → World × Typed → Bool
  | [], _ => true
  | op :: ops, st =>
    (match op, st.2.tracks with
      | .relocated a _, some b => decide (family (ty (st.1.tracks a)) = family (ty (st.1.tracks b)))
      | _, _ => true) &&
    match typedStep ty s st op with
      | none => true
      | some r => noCrossing ty s ops r.1

theorem noCrossing_sound (ty : Tracks → Nat) (s : Settings) (ops : List Op) (st : World × Typed) (h : noCrossing ty s ops st = true) :
    NoCrossing ty s ops st := by
  induction ops generalizing st with
  | nil => trivial
  | cons op ops ih =>
    simp only [noCrossing, Bool.and_eq_true] at h
    obtain ⟨h1, h2⟩ := h
    refine ⟨fun a db b e hb => ?_, fun r hr => ?_⟩
    · subst e
      rw [hb] at h1
      exact of_decide_eq_true h1
    · rw [hr] at h2
      exact ih _ h2

example : NoCrossing exType C20.exSettings exOps (exWorld, .scalar {}) := noCrossing_sound _ _ _ _ (by decide +kernel)

example : Tame exType C20.exSettings exWorld exOps := by
  have hw : ∀ w, Op.world w ∈ exOps → w.tracks = exTracks := by
    intro w h
    simp only [exOps, List.mem_cons, List.not_mem_nil, or_false, reduceCtorEq, false_or, Op.world.injEq] at h
    rw [h]
  have hr : ∀ a, 0 < (exTracks a).clip.sampleRate := by
    intro a
    unfold exTracks
    split <;> (show (0 : ℚ) < 30; norm_num)
  exact ⟨fun w h a => by rw [hw w h]; rfl, hr, fun w h a => by rw [hw w h]; exact hr a, fun _ _ _ => Or.inl rfl⟩

/-- The key frames of a pose of transforms. -/
def poseFrames : Option Pose → Option (Nat × Nat)
  | some (.transform x) => C20.frames (some x)
  | _ => none

/-- The scalar tracks cannot be bound with a database, so the context stays bound to the transform tracks. -/
example : ((typedRun exType C20.exSettings exOps (exWorld, .scalar {})).map fun r => (r.1, (typedSeen r.2.1 r.2.2).bound 2,
    (typedSeen r.2.1 r.2.2).boundDatabase 0)) = some ([true, true, true, true, true, true, true, false, true], true, true) := by decide +kernel

example : ((typedRun exType C20.exSettings exOps (exWorld, .scalar {})).map fun r => poseFrames (typedSeen r.2.1 r.2.2).pose) = some (some (4, 5)) := by
  decide +kernel

/-- Transform tracks with hash 7, without a database, are exchanged for scalar tracks by relocated. -/
example : ((Universal.run storage64 exType C20.exSettings [.init 1 none, .relocated 3 none] (exWorld, .inl {})).map
    fun r => (r.1, Universal.isBoundTo storage64 exType r.2.1 r.2.2 3)) = some ([true, true], true) := by decide +kernel

end Acl.C78
