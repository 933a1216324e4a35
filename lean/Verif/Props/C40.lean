import Verif.Context.DbContext
import Verif.Props.C20
/-!
C40: which tracks and database a context is bound to, when binding succeeds, and which clips a database context contains.
Model: Verif/Context/Model.lean, Verif/Context/DbContext.lean. Specification: `Binding`, `bindingAfter` below.
-/
namespace Acl.C40
open Acl.Context Acl.Interp
open Acl.Chunks (DbClip clipMetadata)

variable {F : Type}

/-- Specification: what a context is bound to, and the hashes at that time. -/
structure Binding where
  tracks : Nat
  hash : BitVec 32
  db : Option Nat
  dbHash : BitVec 32

/-- Specification: the hash a database context has, 0 without a database context. -/
def hashOf (w : World) : Option Nat → BitVec 32
  | some d => (w.contexts d).hash
  | none => 0

/-- Specification: the last successful initialize or relocated counts, until reset. An event is an operation, what it
returned and the world it ran in. -/
def bindingAfter : List (Op × Bool × World) → Option Binding → Option Binding
  | [], b => b
  | (.init a db, true, w) :: rest, _ => bindingAfter rest (some ⟨a, (w.tracks a).hash, db, hashOf w db⟩)
  | (.relocated a db, true, w) :: rest, _ => bindingAfter rest (some ⟨a, (w.tracks a).hash, db, hashOf w db⟩)
  | (.reset, _, _) :: rest, _ => bindingAfter rest none
  | _ :: rest, b => bindingAfter rest b

/-- A history with what its operations returned. -/
def trace (k : Kind F) (s : Settings) : List Op → World × Ctx F → Option (List (Op × Bool × World) × (World × Ctx F))
  | [], st => some ([], st)
  | op :: ops, st => do
    let r ← step k s st op
    let rest ← trace k s ops r.1
    pure ((op, r.2, st.1) :: rest.1, rest.2)

/-- The context is bound to this. -/
def Matches (k : Kind F) (c : Ctx F) : Option Binding → Prop
  | none => c.tracks = none
  | some b => c.tracks = some b.tracks ∧ c.tracksHash = b.hash ∧ (k.bindsDatabase = true → c.db = b.db ∧ c.dbHash = b.dbHash) ∧
      (k.bindsDatabase = false → b.db = none)

theorem dbHashOf_eq (w : World) (db : Option Nat) : dbHashOf w db = hashOf w db := by
  cases db <;> rfl

theorem bind_more {k : Kind F} {s : Settings} {w : World} {c c' : Ctx F} {a : Nat} {db : Option Nat} (h : Context.bind k s w c a db = (c', true)) :
    c'.dbHash = dbHashOf w db ∧ (k.bindsDatabase = false → db = none) := by
  unfold Context.bind at h
  simp only [] at h
  split at h
  · simp at h
  · rename_i hd
    simp only [Prod.mk.injEq, and_true] at h
    subst h
    refine ⟨rfl, fun hk => ?_⟩
    rw [hk] at hd
    cases db
    · rfl
    · simp at hd

theorem relocated_more {k : Kind F} {s : Settings} {w : World} {c c' : Ctx F} {a : Nat} {db : Option Nat} (h : relocated k s w c a db = some (c', true)) :
    (k.bindsDatabase = true → c'.db = db ∧ c'.dbHash = c.dbHash ∧ c.dbHash = dbHashOf w db) ∧ (k.bindsDatabase = false → db = none) := by
  unfold relocated at h
  split at h
  · simp at h
  simp only [Option.bind_eq_bind, Option.pure_def, Option.bind_eq_some_iff] at h
  obtain ⟨x, -, h⟩ := h
  cases x
  · simp at h
  · simp only [if_true, Option.some.injEq] at h
    unfold rebind at h
    split at h
    · simp at h
    split at h
    · rename_i hk
      split at h
      · simp at h
      · rename_i hd
        refine ⟨fun hk' => by rw [hk'] at hk; simp at hk, fun _ => ?_⟩
        cases db
        · rfl
        · simp at hd
    · rename_i hk
      split at h
      · simp at h
      · rename_i hd
        simp only [Prod.mk.injEq, and_true] at h
        subst h
        exact ⟨fun _ => ⟨rfl, rfl, by simpa using hd⟩, fun hk' => by rw [hk'] at hk; simp at hk⟩

theorem trace_matches (k : Kind F) (s : Settings) (ops : List Op) (st st' : World × Ctx F) (ev : List (Op × Bool × World)) (b : Option Binding)
    (hb : Matches k st.2 b) (h : trace k s ops st = some (ev, st')) : Matches k st'.2 (bindingAfter ev b) := by
  induction ops generalizing st ev b with
  | nil =>
    simp only [trace, Option.some.injEq, Prod.mk.injEq] at h
    obtain ⟨rfl, rfl⟩ := h
    exact hb
  | cons op ops ih =>
    simp only [trace, Option.bind_eq_bind, Option.bind_eq_some_iff, Option.pure_def, Option.some.injEq, Prod.mk.injEq] at h
    obtain ⟨⟨⟨w', c'⟩, ok⟩, hs, ⟨ev', st''⟩, hr, rfl, rfl⟩ := h
    obtain ⟨w, c⟩ := st
    have keep : Matches k c' b → Matches k st''.2 (bindingAfter ev' b) := fun hm => ih _ _ _ hm hr
    cases op with
    | init a db =>
      simp only [step, Option.map_eq_some_iff, Prod.mk.injEq] at hs
      obtain ⟨⟨r1, r2⟩, hi, ⟨rfl, rfl⟩, rfl⟩ := hs
      rcases C20.init_cases hi with ⟨hx, rfl⟩ | ⟨hx, hbind⟩
      · subst hx
        exact keep hb
      · subst hx
        obtain ⟨f1, f2, f3, -⟩ := C20.bind_fields hbind
        obtain ⟨g1, g2⟩ := bind_more hbind
        refine ih (w, r1) ev' _ ?_ hr
        exact ⟨f1, f3, fun _ => ⟨f2, by rw [← dbHashOf_eq]; exact g1⟩, g2⟩
    | relocated a db =>
      simp only [step, Option.map_eq_some_iff, Prod.mk.injEq] at hs
      obtain ⟨⟨r1, r2⟩, hi, ⟨rfl, rfl⟩, rfl⟩ := hs
      rcases C20.relocated_cases hi with ⟨hx, rfl⟩ | ⟨hx, -, h1, h2, -, h4, -⟩
      · subst hx
        exact keep hb
      · subst hx
        obtain ⟨g1, g2⟩ := relocated_more hi
        refine ih (w, r1) ev' _ ?_ hr
        refine ⟨h2, by rw [h4, h1], fun hk => ?_, g2⟩
        obtain ⟨g1, g3, g4⟩ := g1 hk
        exact ⟨g1, by rw [← dbHashOf_eq, g3, g4]⟩
    | reset =>
      simp only [step, Option.some.injEq, Prod.mk.injEq] at hs
      obtain ⟨⟨rfl, rfl⟩, rfl⟩ := hs
      have := ih (w, reset c) ev' none rfl hr
      exact this
    | setLoopingPolicy p =>
      simp only [step, Option.map_eq_some_iff, Prod.mk.injEq] at hs
      obtain ⟨r1, hi, ⟨rfl, rfl⟩, rfl⟩ := hs
      have hk : Matches k r1 b := by
        obtain ⟨h1, h2, h3, -⟩ := C20.policy_cases hi
        have h4 : r1.dbHash = c.dbHash := by
          unfold setLoopingPolicy at hi
          split at hi
          · simp only [Option.some.injEq] at hi; rw [← hi]
          · split at hi
            · cases hi
            · simp only [] at hi
              generalize (if p = Looping.asCompressed then _ else p) = q at hi
              split at hi <;> (simp only [Option.some.injEq] at hi; rw [← hi])
        cases b with
        | none => exact h1.trans hb
        | some b => exact ⟨h1.trans hb.1, h3.trans hb.2.1, fun hk => ⟨h2.trans (hb.2.2.1 hk).1, h4.trans (hb.2.2.1 hk).2⟩, hb.2.2.2⟩
      exact keep hk
    | seek t r =>
      obtain ⟨rfl, hsk⟩ := C20.step_seek hs
      have hk : Matches k c' b := by
        cases hc : c.tracks with
        | none =>
          unfold Context.seek at hsk; rw [hc] at hsk
          simp only [Option.some.injEq] at hsk
          rw [← hsk]; exact hb
        | some a =>
          rcases C20.seek_cases hc hsk with ⟨rfl, -⟩ | ⟨-, -, f, -, rfl⟩
          · exact hb
          · cases b with
            | none => exact hb
            | some b => exact hb
      have : ok = true := by
        simp only [step, Option.map_eq_some_iff, Prod.mk.injEq] at hs
        obtain ⟨_, _, _, rfl⟩ := hs; rfl
      subst this
      exact keep hk
    | world x =>
      simp only [step, Option.some.injEq, Prod.mk.injEq] at hs
      obtain ⟨⟨rfl, rfl⟩, rfl⟩ := hs
      exact keep hb

/-- **C40.** After any history, in any world, is_bound_to(tracks) is true exactly when these are the tracks the context
was last successfully initialized with or relocated to (and not reset since), and their hash is still the same. -/
theorem C40_is_bound_to (k : Kind F) (s : Settings) (ops : List Op) (w0 w : World) (c : Ctx F) (ev : List (Op × Bool × World))
    (h : trace k s ops (w0, {}) = some (ev, (w, c))) (a : Nat) :
    isBoundTo w c a = true ↔ ∃ b, bindingAfter ev none = some b ∧ b.tracks = a ∧ b.hash = (w.tracks a).hash := by
  have hm := trace_matches k s ops _ _ ev none (show Matches k ({} : Ctx F) none from rfl) h
  unfold isBoundTo
  cases hb : bindingAfter ev none with
  | none =>
    rw [hb] at hm
    have hm' : c.tracks = none := hm
    rw [hm']; simp
  | some b =>
    rw [hb] at hm
    obtain ⟨h1, h2, -⟩ := hm
    simp only at h1 h2
    simp only [Bool.and_eq_true, beq_iff_eq, h1, h2, Option.some.injEq]
    constructor
    · rintro ⟨rfl, h⟩; exact ⟨b, rfl, rfl, h⟩
    · rintro ⟨b', rfl, rfl, h⟩; exact ⟨rfl, h⟩

/-- **C40.** is_bound_to(database) is true exactly when the context was last bound with a database context which is (now)
bound to this database, and the hash of the database is the one of then. Scalar contexts never are. -/
theorem C40_is_bound_to_database (k : Kind F) (s : Settings) (ops : List Op) (w0 w : World) (c : Ctx F) (ev : List (Op × Bool × World))
    (h : trace k s ops (w0, {}) = some (ev, (w, c))) (d : Nat) :
    isBoundToDatabase k w c d = true ↔
      ∃ b x, bindingAfter ev none = some b ∧ b.db = some x ∧ (w.contexts x).db = some d ∧ b.dbHash = (w.databases d).hash := by
  have hm := trace_matches k s ops _ _ ev none (show Matches k ({} : Ctx F) none from rfl) h
  unfold isBoundToDatabase
  cases hb : bindingAfter ev none with
  | none =>
    rw [hb] at hm
    have hm' : c.tracks = none := hm
    rw [hm']; simp
  | some b =>
    rw [hb] at hm
    obtain ⟨h1, h2, h3, h4⟩ := hm
    simp only at h1 h2 h3
    rw [h1]
    cases hk : k.bindsDatabase with
    | false =>
      have := h4 hk
      simp only [Option.isNone_some, Bool.false_eq_true, if_false, Bool.not_false, if_true, false_iff]
      rintro ⟨b', x, e, e2, -⟩
      simp only [Option.some.injEq] at e
      subst e
      rw [this] at e2; cases e2
    | true =>
      obtain ⟨g1, g2⟩ := h3 hk
      rw [g1, g2]
      simp only [Option.isNone_some, Bool.false_eq_true, if_false, Bool.not_true]
      cases hdb : b.db with
      | none =>
        simp only [Bool.false_eq_true, false_iff]
        rintro ⟨b', x, e, e2, -⟩
        simp only [Option.some.injEq] at e
        subst e
        rw [hdb] at e2; cases e2
      | some x =>
        simp only [Bool.and_eq_true, beq_iff_eq]
        constructor
        · rintro ⟨e1, e2⟩; exact ⟨b, x, rfl, hdb, e1, e2⟩
        · rintro ⟨b', x', e, e2, e3, e4⟩
          simp only [Option.some.injEq] at e
          subst e
          rw [hdb, Option.some.injEq] at e2
          subst e2
          exact ⟨e3, e4⟩

/-- Specification: these tracks can be bound, with this database context if any. -/
def CanBind (s : Settings) (w : World) (t : Tracks) (db : Option Nat) : Prop :=
  s.skipChecks = true ∨ (t.isValid = true ∧ t.isVersionSupported = true ∧
    ∀ d, db = some d → (w.contexts d).db.isSome = true ∧ contains w d t = some true)

theorem checks_iff {s : Settings} {w : World} {t : Tracks} {db : Option Nat} {x : Bool} (h : checks s w t db = some x) : x = true ↔ CanBind s w t db := by
  unfold CanBind
  cases db with
  | none =>
    simp only [checks, Option.some.injEq] at h
    rw [← h]
    cases s.skipChecks <;> simp
  | some d =>
    simp only [checks] at h
    cases hs : s.skipChecks
    · rw [hs] at h
      simp only [Bool.false_eq_true, if_false] at h
      cases hv : t.isValid
      · rw [hv] at h; simp at h; subst h; simp
      · rw [hv] at h
        simp only [Bool.not_true, Bool.false_eq_true, if_false] at h
        cases hd : (w.contexts d).db with
        | none => rw [hd] at h; simp at h; subst h; simp [hd]
        | some y =>
          rw [hd] at h
          simp only [Option.isNone_some, Bool.false_eq_true, if_false] at h
          cases hver : t.isVersionSupported
          · rw [hver] at h; simp at h; subst h; simp
          · rw [hver] at h
            simp only [Bool.not_true, Bool.false_eq_true, if_false] at h
            simp [h, hd]
    · rw [hs] at h; simp at h; subst h; simp

/-- **C40.** initialize returns true exactly when the tracks are valid, of a supported version and contained in the
(initialized) database, unless safety checks are skipped, and no database is given to a context of scalar tracks. When it
returns false the context is as it was. -/
theorem C40_initialize (k : Kind F) (s : Settings) (w : World) (c c' : Ctx F) (a : Nat) (db : Option Nat) (ok : Bool)
    (h : initCtx k s w c a db = some (c', ok)) :
    (ok = true ↔ CanBind s w (w.tracks a) db ∧ (k.bindsDatabase = true ∨ db = none)) ∧ (ok = false → c' = c) := by
  have hkeep : ok = false → c' = c := by
    intro hf; rcases C20.init_cases h with ⟨-, e⟩ | ⟨e, -⟩
    · exact e
    · rw [hf] at e; cases e
  refine ⟨?_, hkeep⟩
  unfold initCtx at h
  simp only [Option.bind_eq_bind, Option.pure_def, Option.bind_eq_some_iff] at h
  obtain ⟨x, hx, h⟩ := h
  have hc := checks_iff hx
  cases x
  · simp only [Bool.false_eq_true, if_false, Option.some.injEq, Prod.mk.injEq] at h
    rw [← h.2]
    simp only [Bool.false_eq_true, false_iff] at hc ⊢
    exact fun hh => hc hh.1
  · simp only [if_true, Option.some.injEq] at h
    have hcb := hc.1 rfl
    unfold Context.bind at h
    simp only [] at h
    split at h
    · rename_i hd
      simp only [Prod.mk.injEq] at h
      rw [← h.2]
      simp only [Bool.false_eq_true, false_iff, not_and, not_or]
      intro _
      cases db <;> simp_all
    · rename_i hd
      simp only [Prod.mk.injEq] at h
      rw [← h.2]
      simp only [true_iff]
      refine ⟨hcb, ?_⟩
      cases hk : k.bindsDatabase
      · rw [hk] at hd; right; cases db
        · rfl
        · simp at hd
      · exact Or.inl rfl

/-- **C40.** relocated returns true exactly when the context is bound, the tracks (and database) can be bound, and their
hashes are the ones the context remembers. When it returns false the context is as it was. -/
theorem C40_relocated (k : Kind F) (s : Settings) (w : World) (c c' : Ctx F) (a : Nat) (db : Option Nat) (ok : Bool)
    (h : relocated k s w c a db = some (c', ok)) :
    (ok = true ↔ c.tracks.isSome = true ∧ CanBind s w (w.tracks a) db ∧ c.tracksHash = (w.tracks a).hash ∧
      (if k.bindsDatabase = true then c.dbHash = hashOf w db else db = none)) ∧ (ok = false → c' = c) := by
  have hkeep : ok = false → c' = c := by
    intro hf; rcases C20.relocated_cases h with ⟨-, e⟩ | ⟨e, -⟩
    · exact e
    · rw [hf] at e; cases e
  refine ⟨?_, hkeep⟩
  rw [← dbHashOf_eq]
  unfold relocated at h
  cases hc : c.tracks with
  | none => rw [hc] at h; simp at h; simp [h.2]
  | some y =>
  rw [hc] at h
  simp only [Option.isNone_some, Bool.false_eq_true, if_false, Option.bind_eq_bind, Option.pure_def, Option.bind_eq_some_iff] at h
  obtain ⟨x, hx, h⟩ := h
  have hcb := checks_iff hx
  cases x
  · simp only [Bool.false_eq_true, if_false, Option.some.injEq, Prod.mk.injEq] at h
    simp only [Bool.false_eq_true, false_iff] at hcb
    rw [← h.2]; simp [hcb]
  · simp only [if_true, Option.some.injEq] at h
    have hcb' := hcb.1 rfl
    unfold rebind at h
    split at h
    · rename_i hh
      simp only [Prod.mk.injEq] at h
      rw [← h.2]; simp [hh]
    · rename_i hh
      have hh' : c.tracksHash = (w.tracks a).hash := by simpa using hh
      cases hk : k.bindsDatabase
      · rw [hk] at h
        cases db
        · simp at h; rw [h.2]; simp [hcb', hh']
        · simp at h; rw [h.2]; simp
      · rw [hk] at h
        simp only [Bool.not_true, Bool.false_eq_true, if_false] at h
        split at h
        · rename_i hd
          simp only [Prod.mk.injEq] at h
          rw [← h.2]; simp [hd]
        · rename_i hd
          have hd' : c.dbHash = dbHashOf w db := by simpa using hd
          simp only [Prod.mk.injEq] at h
          rw [← h.2]; simp [hcb', hh', hd']

/-! ### database_context::contains -/

theorem load32_congr (m m' : List (BitVec 8)) (p : Nat) (h : ∀ j, j < 4 → m'[p + j]? = m[p + j]?) : load32 m' p = load32 m p := by
  have h0 := h 0 (by omega); have h1 := h 1 (by omega); have h2 := h 2 (by omega); have h3 := h 3 (by omega)
  rw [Nat.add_zero] at h0
  unfold load32
  rw [h0, h1, h2, h3]

theorem store_getElem? {m m' bs : List (BitVec 8)} {o : Nat} (h : store m o bs = some m') (i : Nat) :
    m'[i]? = if o ≤ i ∧ i < o + bs.length then bs[i - o]? else m[i]? := by
  unfold store at h
  split at h
  · rename_i hl
    simp only [Option.some.injEq] at h
    subst h
    have ht : (m.take o).length = o := by rw [List.length_take]; omega
    by_cases h1 : i < o
    · rw [if_neg (by omega), List.append_assoc, List.getElem?_append_left (by omega), List.getElem?_take, if_pos h1]
    · by_cases h2 : i < o + bs.length
      · rw [if_pos ⟨by omega, h2⟩, List.append_assoc, List.getElem?_append_right (by omega), ht, List.getElem?_append_left (by omega)]
      · rw [if_neg (by omega), List.getElem?_append_right (by simp; omega), List.getElem?_drop, List.length_append, ht]
        congr 1; omega
  · cases h

theorem store_length {m m' bs : List (BitVec 8)} {o : Nat} (h : store m o bs = some m') : m'.length = m.length := by
  unfold store at h
  split at h
  · rename_i hl
    simp only [Option.some.injEq] at h
    subst h
    simp; omega
  · cases h

theorem store_some {m bs : List (BitVec 8)} {o : Nat} (h : o + bs.length ≤ m.length) : ∃ m', store m o bs = some m' := by
  unfold store; rw [if_pos h]; exact ⟨_, rfl⟩

theorem load32_store_self {m m' : List (BitVec 8)} {o : Nat} {v : BitVec 32} (h : store m o (bytesLE v) = some m') : load32 m' o = some v := by
  have hl := bytesLE_length32 v
  rw [← load32_bytesLE [] [] v 0 rfl]
  have : ∀ j, j < 4 → m'[o + j]? = (bytesLE v)[j]? := by
    intro j hj
    rw [store_getElem? h, if_pos ⟨by omega, by omega⟩]; congr 1; omega
  unfold load32
  rw [show m'[o]? = (bytesLE v)[0]? from this 0 (by omega), this 1 (by omega), this 2 (by omega), this 3 (by omega)]
  simp

theorem load32_store_other {m m' bs : List (BitVec 8)} {o p : Nat} (h : store m o bs = some m') (hd : p + 4 ≤ o ∨ o + bs.length ≤ p) :
    load32 m' p = load32 m p :=
  load32_congr _ _ _ fun j hj => by rw [store_getElem? h, if_neg (by omega)]

/-- The runtime header of clip `i` starts where those of the clips before end. -/
theorem metadata_get (clips : List DbClip) (base i : Nat) (hi : i < clips.length) :
    (clipMetadata clips base)[i]? = some (clips[i].hash, base + runtimeSize (clips.take i)) := by
  induction clips generalizing base i with
  | nil => simp at hi
  | cons c cs ih =>
    cases i with
    | zero => simp [clipMetadata, runtimeSize]
    | succ i =>
      simp only [clipMetadata, List.getElem?_cons_succ, List.getElem_cons_succ, List.take_succ_cons]
      rw [ih _ _ (by simpa using hi)]
      simp [runtimeSize, Acl.Chunks.runtimeClipHeaderSize, Acl.Chunks.runtimeSegmentHeaderSize]
      omega

theorem metadata_length (clips : List DbClip) (base : Nat) : (clipMetadata clips base).length = clips.length := by
  induction clips generalizing base with
  | nil => rfl
  | cons c cs ih => simp [clipMetadata, ih]

theorem size_take_succ (clips : List DbClip) (i : Nat) (hi : i < clips.length) :
    runtimeSize (clips.take (i + 1)) = runtimeSize (clips.take i) + 8 + 16 * clips[i].numSegments := by
  simp only [runtimeSize, List.take_succ_eq_append_getElem hi, List.length_append, List.map_append, List.sum_append, List.length_singleton,
    List.map_singleton, List.sum_singleton]
  omega

theorem size_take_mono (clips : List DbClip) (i j : Nat) (h : i ≤ j) (hj : j ≤ clips.length) : runtimeSize (clips.take i) ≤ runtimeSize (clips.take j) := by
  induction j with
  | zero => have : i = 0 := by omega
            subst this; exact le_refl _
  | succ j ih =>
    rcases Nat.lt_or_ge i (j + 1) with h' | h'
    · rw [size_take_succ clips j (by omega)]
      have := ih (by omega) (by omega)
      omega
    · have : i = j + 1 := by omega
      subst this; exact le_refl _

theorem size_take_le (clips : List DbClip) (i : Nat) (hi : i < clips.length) :
    runtimeSize (clips.take i) + 8 + 16 * clips[i].numSegments ≤ runtimeSize clips := by
  rw [← size_take_succ clips i hi]
  have := size_take_mono clips (i + 1) clips.length (by omega) (le_refl _)
  rwa [List.take_length] at this

/-- What holds of the runtime headers as long as the context is bound: the hash of every clip is in its header. -/
def Holds (clips : List DbClip) (m : List (BitVec 8)) : Prop :=
  m.length = runtimeSize clips ∧ ∀ i (hi : i < clips.length), load32 m (runtimeSize (clips.take i)) = some clips[i].hash

theorem writeHashes_spec (clips : List DbClip) (n : Nat) (hn : n ≤ clips.length) (m : List (BitVec 8)) (hm : m.length = runtimeSize clips) :
    ∃ m', writeHashes ((clipMetadata clips 0).drop n) m = some m' ∧ m'.length = runtimeSize clips ∧
      (∀ i, i < n → load32 m' (runtimeSize (clips.take i)) = load32 m (runtimeSize (clips.take i))) ∧
      ∀ i (hi : i < clips.length), n ≤ i → load32 m' (runtimeSize (clips.take i)) = some clips[i].hash := by
  induction hk : clips.length - n generalizing n m with
  | zero =>
    have : n = clips.length := by omega
    subst this
    rw [List.drop_eq_nil_of_le (by rw [metadata_length])]
    exact ⟨m, rfl, hm, fun _ _ => rfl, fun i hi h => by omega⟩
  | succ k ih =>
    have hlt : n < clips.length := by omega
    have hd : (clipMetadata clips 0).drop n = (clips[n].hash, runtimeSize (clips.take n)) :: (clipMetadata clips 0).drop (n + 1) := by
      have h1 := metadata_get clips 0 n hlt
      rw [Nat.zero_add] at h1
      rw [List.drop_eq_getElem_cons (by rw [metadata_length]; exact hlt)]
      congr 1
      exact List.getElem?_eq_some_iff.1 h1 |>.2
    have hle := size_take_le clips n hlt
    obtain ⟨m1, hm1⟩ := store_some (m := m) (bs := bytesLE clips[n].hash) (o := runtimeSize (clips.take n)) (by rw [bytesLE_length32]; omega)
    obtain ⟨m', h1, h2, h3, h4⟩ := ih (n + 1) (by omega) m1 (by rw [store_length hm1, hm]) (by omega)
    refine ⟨m', ?_, h2, ?_, ?_⟩
    · rw [hd]; simp only [writeHashes, hm1, Option.bind_eq_bind, Option.bind_some]; exact h1
    · intro i hi
      rw [h3 i (by omega)]
      refine load32_store_other hm1 (Or.inl ?_)
      have h5 := size_take_mono clips (i + 1) n (by omega) (by omega)
      rw [size_take_succ clips i (by omega)] at h5
      omega
    · intro i hi hn'
      rcases Nat.lt_or_ge n i with h | h
      · exact h4 i hi h
      · have : i = n := by omega
        subst this
        rw [h3 i (by omega)]
        exact load32_store_self hm1

theorem init_holds (clips : List DbClip) : ∃ m, initHeaders clips = some m ∧ Holds clips m := by
  obtain ⟨m, h1, h2, -, h4⟩ := writeHashes_spec clips 0 (by omega) (List.replicate (runtimeSize clips) 0#8) (by simp)
  exact ⟨m, h1, h2, fun i hi => h4 i hi (by omega)⟩

/-- Specification: what streaming writes: the metadata of one of the two tiers of a segment of a clip of the database. -/
def Legal (clips : List DbClip) (x : TierWrite) : Prop :=
  ∃ (i : Nat) (hi : i < clips.length), (clipMetadata clips 0)[i]? = some (clips[i].hash, x.clip) ∧ x.segment < clips[i].numSegments ∧ x.tier < 2

theorem bytesLE_length64 (v : BitVec 64) : (bytesLE v).length = 8 := bytesLE_length v

theorem writeTiers_holds (clips : List DbClip) (xs : List TierWrite) (hx : ∀ x ∈ xs, Legal clips x) (m : List (BitVec 8)) (hm : Holds clips m) :
    ∃ m', writeTiers xs m = some m' ∧ Holds clips m' := by
  induction xs generalizing m with
  | nil => exact ⟨m, rfl, hm⟩
  | cons x xs ih =>
    obtain ⟨i, hi, hc, hs, ht⟩ := hx x (by simp)
    rw [metadata_get clips 0 i hi, Nat.zero_add] at hc
    simp only [Option.some.injEq, Prod.mk.injEq, true_and] at hc
    have hle := size_take_le clips i hi
    have hat : x.at = runtimeSize (clips.take i) + 8 + 16 * x.segment + 8 * x.tier := by rw [hc]; rfl
    obtain ⟨m1, hm1⟩ := store_some (m := m) (bs := bytesLE x.value) (o := x.at) (by rw [bytesLE_length64, hm.1, hat]; omega)
    have h1 : Holds clips m1 := by
      refine ⟨by rw [store_length hm1, hm.1], fun j hj => ?_⟩
      rw [← hm.2 j hj]
      refine load32_store_other hm1 ?_
      rw [bytesLE_length64]
      rcases Nat.lt_or_ge i j with h | h
      · right
        have h5 := size_take_mono clips (i + 1) j (by omega) (by omega)
        rw [size_take_succ clips i (by omega)] at h5
        omega
      · left
        have h5 := size_take_mono clips j i (by omega) (by omega)
        omega
    obtain ⟨m', h2, h3⟩ := ih (fun y hy => hx y (by simp [hy])) m1 h1
    exact ⟨m', by simp only [writeTiers, hm1, Option.bind_eq_bind, Option.bind_some]; exact h2, h3⟩

/-- Specification: a database context bound to a database of these clips, after any streaming in and out. -/
def BoundTo (w : World) (x : Nat) (clips : List DbClip) : Prop :=
  ∃ d writes, (w.contexts x).db = some d ∧ (w.databases d).numClips = BitVec.ofNat 32 clips.length ∧
    (w.databases d).numSegments = BitVec.ofNat 32 (clips.map (·.numSegments)).sum ∧
    (∀ y ∈ writes, Legal clips y) ∧ (initHeaders clips).bind (writeTiers writes) = some (w.contexts x).headers

theorem bound_holds {w : World} {x : Nat} {clips : List DbClip} (h : BoundTo w x clips) : Holds clips (w.contexts x).headers := by
  obtain ⟨d, ys, -, -, -, hy, hh⟩ := h
  obtain ⟨m, h1, h2⟩ := init_holds clips
  obtain ⟨m', h3, h4⟩ := writeTiers_holds clips ys hy m h2
  rw [h1, Option.bind_some, h3, Option.some.injEq] at hh
  rwa [← hh]

theorem largest_eq (clips : List DbClip) (hlim : runtimeSize clips < 2 ^ 32) (h1 : 16 ≤ runtimeSize clips) :
    (BitVec.ofNat 32 clips.length * 8#32 + BitVec.ofNat 32 (clips.map (·.numSegments)).sum * 16#32 - 16#32).toNat = runtimeSize clips - 16 := by
  unfold runtimeSize at *
  generalize (clips.map (·.numSegments)).sum = n at *
  generalize clips.length = k at *
  have e1 : (BitVec.ofNat 32 k * 8#32).toNat = 8 * k := by
    rw [BitVec.toNat_mul, BitVec.toNat_ofNat, Nat.mod_eq_of_lt (a := k) (by omega)]
    show k * 8 % 2 ^ 32 = 8 * k
    rw [Nat.mod_eq_of_lt (by omega)]; omega
  have e2 : (BitVec.ofNat 32 n * 16#32).toNat = 16 * n := by
    rw [BitVec.toNat_mul, BitVec.toNat_ofNat, Nat.mod_eq_of_lt (a := n) (by omega)]
    show n * 16 % 2 ^ 32 = 16 * n
    rw [Nat.mod_eq_of_lt (by omega)]; omega
  rw [BitVec.toNat_sub, BitVec.toNat_add, e1, e2]
  show (2 ^ 32 - 16 + (8 * k + 16 * n) % 2 ^ 32) % 2 ^ 32 = _
  rw [Nat.mod_eq_of_lt (a := 8 * k + 16 * n) (by omega)]
  omega

theorem load32_some (m : List (BitVec 8)) (p : Nat) (h : p + 4 ≤ m.length) : ∃ v, load32 m p = some v := by
  unfold load32
  rw [List.getElem?_eq_getElem (by omega), List.getElem?_eq_getElem (by omega), List.getElem?_eq_getElem (by omega), List.getElem?_eq_getElem (by omega)]
  exact ⟨_, rfl⟩

/-- **C40.** Whatever was streamed in and out, contains is true of tracks which point to the entry of a clip of the
database (the offset the database was built with) exactly when their hash is the hash of that clip. -/
theorem C40_contains (w : World) (x : Nat) (clips : List DbClip) (h : BoundTo w x clips) (hlim : runtimeSize clips < 2 ^ 32)
    (hseg : ∀ clip ∈ clips, 1 ≤ clip.numSegments) (t : Tracks) (hdb : t.hasDatabase = true) (clip : BitVec 32 × Nat)
    (hclip : clip ∈ clipMetadata clips 0) (ht : t.clipHeaderOffset.toNat = clip.2) :
    contains w x t = some (decide (t.hash = clip.1)) := by
  obtain ⟨hlen, hh⟩ := bound_holds h
  obtain ⟨d, -, h1, h2, h3, -, -⟩ := h
  obtain ⟨i, hi, rfl⟩ := List.getElem_of_mem hclip
  have hi' : i < clips.length := by rwa [metadata_length] at hi
  have hg := metadata_get clips 0 i hi'
  rw [List.getElem?_eq_getElem hi, Option.some.injEq, Nat.zero_add] at hg
  rw [hg] at ht ⊢
  simp only at ht ⊢
  have hle := size_take_le clips i hi'
  have hs := hseg _ (List.getElem_mem hi')
  unfold contains
  simp only [h1, hdb, h2, h3, Bool.not_true, Bool.false_eq_true, if_false]
  rw [if_neg, if_neg, ht, hh i hi']
  · simp only [Option.bind_eq_bind, Option.bind_some, Option.pure_def, Option.some.injEq]
    rw [Bool.eq_iff_iff, beq_iff_eq, decide_eq_true_iff]
    exact eq_comm
  · rw [gt_iff_lt, BitVec.lt_def, largest_eq clips hlim (by omega), ht]; omega
  · intro e
    rw [e] at ht
    have : (0xFFFFFFFF#32).toNat = 4294967295 := rfl
    omega

/-- **C40.** contains never reads outside of the runtime headers, whatever the tracks say, and is false of tracks which
are not bound to a database, or whose entry would be past the end. -/
theorem C40_contains_safe (w : World) (x : Nat) (clips : List DbClip) (h : BoundTo w x clips) (hlim : runtimeSize clips < 2 ^ 32)
    (hne : clips ≠ []) (hseg : ∀ clip ∈ clips, 1 ≤ clip.numSegments) (t : Tracks) :
    (∃ b, contains w x t = some b) ∧ (t.hasDatabase = false → contains w x t = some false) ∧
    (runtimeSize clips < t.clipHeaderOffset.toNat + 16 → contains w x t = some false) := by
  obtain ⟨hlen, hh⟩ := bound_holds h
  obtain ⟨d, -, h1, h2, h3, -, -⟩ := h
  have hpos : 16 ≤ runtimeSize clips := by
    have h0 : 0 < clips.length := List.length_pos_iff.2 hne
    have := size_take_le clips 0 h0
    have hs := hseg _ (List.getElem_mem h0)
    omega
  have hlt : ∀ o : BitVec 32, (BitVec.ofNat 32 clips.length * 8#32 + BitVec.ofNat 32 (clips.map (·.numSegments)).sum * 16#32 - 16#32 < o) ↔
      runtimeSize clips - 16 < o.toNat := fun o => by
    rw [BitVec.lt_def, largest_eq clips hlim hpos]
  unfold contains
  simp only [h1, h2, h3, gt_iff_lt, hlt]
  refine ⟨?_, ?_, ?_⟩
  · cases t.hasDatabase
    · exact ⟨_, rfl⟩
    · simp only [Bool.not_true, Bool.false_eq_true, if_false]
      split
      · exact ⟨_, rfl⟩
      · split
        · exact ⟨_, rfl⟩
        · rename_i hn
          obtain ⟨v, hv⟩ := load32_some (w.contexts x).headers t.clipHeaderOffset.toNat (by omega)
          rw [hv]; exact ⟨_, rfl⟩
  · intro e; rw [e]; rfl
  · intro e
    cases t.hasDatabase
    · rfl
    · simp only [Bool.not_true, Bool.false_eq_true, if_false]
      split
      · rfl
      · rw [if_pos (by omega)]

/-! ### A database of two clips, with 2 and 1 segments; a medium importance tier is streamed in -/

def exClips : List DbClip := [⟨0xAAAA1111#32, 2, fun _ => []⟩, ⟨0xBBBB2222#32, 1, fun _ => []⟩]

def exWrites : List TierWrite := [⟨0, 1, 0, 0x0000010000000003#64⟩, ⟨40, 0, 1, 0x0000020000000005#64⟩]

def exHeaders : List (BitVec 8) := ((initHeaders exClips).bind (writeTiers exWrites)).getD []

def exWorld : World where
  tracks i := if i = 0 then { C20.exTracks with hash := 0xBBBB2222#32, clipHeaderOffset := 40#32 }
    else { C20.exTracks with hash := 0, clipHeaderOffset := 8#32 }
  databases _ := ⟨0xDDDD4444#32, true, true, 2#32, 3#32⟩
  contexts _ := ⟨some 0, 0xDDDD4444#32, none, none, exHeaders⟩

example : BoundTo exWorld 0 exClips := by
  refine ⟨0, exWrites, rfl, rfl, rfl, ?_, ?_⟩
  · intro y hy
    simp only [exWrites, List.mem_cons, List.not_mem_nil, or_false] at hy
    rcases hy with rfl | rfl
    · exact ⟨0, by decide, rfl, by decide, by decide⟩
    · exact ⟨1, by decide, rfl, by decide, by decide⟩
  · show _ = some exHeaders
    have : ((initHeaders exClips).bind (writeTiers exWrites)).isSome = true := by decide +kernel
    unfold exHeaders
    cases h : (initHeaders exClips).bind (writeTiers exWrites) with
    | none => rw [h] at this; cases this
    | some m => rfl

example : contains exWorld 0 (exWorld.tracks 0) = some true := by decide +kernel

/-- Finding: the offset stored in the tracks is only checked against the end. Tracks of another database whose offset falls
on a segment header with no data streamed in, and whose hash is 0, are said to be contained: clip_hash is not read there. -/
theorem C40_foreign_finding :
    contains exWorld 0 (exWorld.tracks 1) = some true ∧ ∀ clip ∈ clipMetadata exClips 0, clip.1 ≠ (exWorld.tracks 1).hash := by
  constructor
  · decide +kernel
  · intro c hc
    simp only [exClips, clipMetadata, List.mem_cons, List.not_mem_nil, or_false] at hc
    rcases hc with rfl | rfl <;> decide

/-- A database context bound to a database without clips. -/
def exEmptyWorld : World where
  tracks _ := { C20.exTracks with clipHeaderOffset := 64#32 }
  databases _ := ⟨0xDDDD4444#32, true, true, 0#32, 0#32⟩
  contexts _ := ⟨some 0, 0xDDDD4444#32, none, none, []⟩

/-- Finding: with a database without clips the largest offset wraps around (0 - 16), and contains reads outside of the
runtime headers. -/
theorem C40_empty_finding : BoundTo exEmptyWorld 0 [] ∧ contains exEmptyWorld 0 (exEmptyWorld.tracks 0) = none := by
  refine ⟨⟨0, [], rfl, rfl, rfl, by simp, rfl⟩, ?_⟩
  decide +kernel

/-- The other theorems are about real histories: bound to tracks and database, then relocated, then asked. -/
example : ((trace transformKind C20.exSettings [.init 0 (some 0), .relocated 1 (some 0)] (C20.exBefore, {})).map fun r =>
    (isBoundTo r.2.1 r.2.2 1, isBoundTo r.2.1 r.2.2 0, isBoundToDatabase transformKind r.2.1 r.2.2 0)) = some (true, false, true) := by
  decide +kernel

end Acl.C40
