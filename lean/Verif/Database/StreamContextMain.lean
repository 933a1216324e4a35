import Verif.Database.StreamContextFinish
import Verif.Props.C25
/-
Histories of a database context with streamers.
-/
namespace Acl.DbStream
open Acl.Streaming Acl.Streaming.Spec Acl.Runtime Acl.DbBuild Acl.Transform Acl.Seek.Spec

variable {db : List (BitVec 8)} {bulk : Nat → List (BitVec 8)} {streamerOf : Tier → Nat} {L : Ledger} {a : AState} {events : List Runtime.Event}
  {checks : Bool} {s s' : DbState}

theorem Called.streamed {cfg : Cfg} {op : Streaming.Op} {book' : Streaming.State} {out : Option (Result × Option Dispatch)} {a' : AState} {sent : Option Sent}
    {ev : List Runtime.Event} (h : Called db bulk cfg s L a events op book' out a' sent ev) {h' : List (BitVec 8)}
    (hh : headersAfter checks db s op out = some h') (hs : streamed false db events = some s.headers) : streamed false db (events ++ ev) = some h' := by
  rw [h.headers] at hh
  split at hh
  · rename_i he
    rw [he, List.append_nil, hs, hh]
  · rw [streamed_append, hs, Option.bind_some]
    cases checks with
    | false => exact hh
    | true => exact applyEvents_release hh

/-- One call. -/
theorem call_inv (hc : Chunked db bulk) (hI : Core db bulk (cfgOf db streamerOf) s.book s.memory L a events) (hs : streamed false db events = some s.headers)
    {op : Streaming.Op} (hop : OpOk op) (hp : Promise bulk (cfgOf db streamerOf) s L (.call op)) {sent : Option Sent}
    (h : dbStep checks db (cfgOf db streamerOf) s (.call op) = some (s', sent)) :
    ∃ a' out ev, Streaming.step (cfgOf db streamerOf) s.book op = some (s'.book, out) ∧ s'.memory = s.memory ∧
      Called db bulk (cfgOf db streamerOf) s L a events op s'.book out a' sent ev ∧ streamed false db (events ++ ev) = some s'.headers := by
  simp only [dbStep, Option.bind_eq_some_iff, Option.map_eq_some_iff] at h
  obtain ⟨⟨book', out⟩, h1, headers, h2, m, h3, h4⟩ := h
  obtain ⟨a', sent', ev, hcall⟩ := hI.call hc hop h1 hp
  have hsent : m = sent' := by
    have := hcall.sentIs
    rw [h3, Option.some.injEq] at this
    exact this
  rw [Prod.mk.injEq] at h4
  obtain ⟨rfl, rfl⟩ := h4
  subst hsent
  exact ⟨a', out, ev, h1, rfl, hcall, hcall.streamed h2 hs⟩

/-- A whole history; what comes after it. -/
theorem run_inv_append (hc : Chunked db bulk) : ∀ (ops ops' : List DbOp) (s : DbState) (L : Ledger) (a : AState) (events : List Runtime.Event),
    Core db bulk (cfgOf db streamerOf) s.book s.memory L a events → streamed false db events = some s.headers →
    (∀ op ∈ calls ops, OpOk op) → Honors checks db bulk (cfgOf db streamerOf) s L (ops ++ ops') → ∀ s', dbRun checks db (cfgOf db streamerOf) s ops = some s' →
    ∃ a' L' events' ds, Streaming.run (cfgOf db streamerOf) s.book (calls ops) = some (s'.book, ds) ∧ Run (cfgOf db streamerOf) a (calls ops) a' ds ∧
      Core db bulk (cfgOf db streamerOf) s'.book s'.memory L' a' events' ∧ streamed false db events' = some s'.headers ∧
      Honors checks db bulk (cfgOf db streamerOf) s' L' ops' := by
  intro ops
  induction ops with
  | nil =>
    intro ops' s L a events hI hs _ hh s' h
    rw [dbRun, Option.some.injEq] at h
    subst h
    exact ⟨a, L, events, [], rfl, .nil a, hI, hs, hh⟩
  | cons op ops ih =>
    intro ops' s L a events hI hs hops hh s' h
    rw [dbRun, Option.bind_eq_some_iff] at h
    obtain ⟨⟨s1, sent⟩, h1, h2⟩ := h
    obtain ⟨hp, hh'⟩ := hh
    have hh1 := hh' s1 sent h1
    cases op with
    | write t mem =>
      rw [dbStep, Option.some.injEq, Prod.mk.injEq] at h1
      obtain ⟨rfl, rfl⟩ := h1
      exact ih ops' { s with memory := fun u => if u = t then mem else s.memory u } L a events (hI.write hp) hs hops hh1 s' h2
    | call o =>
      obtain ⟨a1, out, ev, e1, e2, e3, e4⟩ := call_inv hc hI hs (hops o (by simp [calls])) hp h1
      have hcore := e3.core
      rw [← e2] at hcore
      obtain ⟨a2, L2, ev2, ds, g1, g2, g3, g4, g5⟩ := ih ops' s1 _ a1 _ hcore e4 (fun x hx => hops x (by
        unfold calls at hx ⊢
        rw [List.filterMap_cons]
        dsimp only
        exact List.mem_cons_of_mem _ hx)) hh1 s' h2
      have hcalls : calls (DbOp.call o :: ops) = o :: calls ops := rfl
      have hR := Run.cons e3.step g2
      rw [← hcalls] at hR
      refine ⟨a2, L2, ev2, _, ?_, hR, g3, g4, g5⟩
      rw [hcalls, Streaming.run, e1]
      simp only [Option.bind_eq_bind, Option.bind_some, g1]
      rfl

/-- A whole history. -/
theorem run_inv (hc : Chunked db bulk) (ops : List DbOp) (s : DbState) (L : Ledger) (a : AState) (events : List Runtime.Event)
    (hI : Core db bulk (cfgOf db streamerOf) s.book s.memory L a events) (hs : streamed false db events = some s.headers)
    (hops : ∀ op ∈ calls ops, OpOk op) (hh : Honors checks db bulk (cfgOf db streamerOf) s L ops) (s' : DbState)
    (h : dbRun checks db (cfgOf db streamerOf) s ops = some s') :
    ∃ a' L' events' ds, Streaming.run (cfgOf db streamerOf) s.book (calls ops) = some (s'.book, ds) ∧ Run (cfgOf db streamerOf) a (calls ops) a' ds ∧
      Core db bulk (cfgOf db streamerOf) s'.book s'.memory L' a' events' ∧ streamed false db events' = some s'.headers := by
  obtain ⟨a', L', ev', ds, g1, g2, g3, g4, -⟩ := run_inv_append hc ops [] s L a events hI hs hops (by rw [List.append_nil]; exact hh) s' h
  exact ⟨a', L', ev', ds, g1, g2, g3, g4⟩

theorem available_congr {place : Place} (hpl : ∀ k n t i, place k n = some (t, i) → t < 2) {l l' : Nat → Nat → Bool} (h : ∀ t, t < 2 → ∀ i, l t i = l' t i) (k n : Nat) :
    Available place l k n ↔ Available place l' k n := by
  constructor
  · rintro (h1 | ⟨t, i, h1, h2⟩)
    · exact .inl h1
    · exact .inr ⟨t, i, h1, by rw [← h t (hpl _ _ _ _ h1)]; exact h2⟩
  · rintro (h1 | ⟨t, i, h1, h2⟩)
    · exact .inl h1
    · exact .inr ⟨t, i, h1, by rw [h t (hpl _ _ _ _ h1)]; exact h2⟩

/-- What the decoder gets. -/
theorem Core.samples (hc : Chunked db bulk) {xs : List Input} {outs : List (List (BitVec 8))} {place : Place} (hd : Decodes xs outs db bulk place)
    (hpl : ∀ k n t i, place k n = some (t, i) → t < 2)
    (hI : Core db bulk (cfgOf db streamerOf) s.book s.memory L a events) (hs : streamed false db events = some s.headers) :
    Samples xs outs place (usable a) s.headers (bulkData s 0) (bulkData s 1) := by
  obtain ⟨headers, h1, -, h3⟩ := hd events hI.legal
  rw [hs, Option.some.injEq] at h1
  subst h1
  have hres : ∀ t, t < 2 → Resident db (bulk t) (loadedBy events) t (bulkData s t) := by
    intro t ht i hi
    rw [hI.loaded t ht] at hi
    have hreg := hI.rel.reg (tierOf t) i
    have hb := hI.rel.bulk (tierOf t) i (by rw [hreg]; exact hi)
    have hk := hI.hasChunk hc ht hi
    refine ⟨s.memory t, ?_, hk.2, hk.1⟩
    unfold bulkData
    rw [if_pos hb]
  have hav := fun k n => available_congr hpl hI.loaded k n
  intro k x m' hx hm α remapAlpha wrapping kf0 kf1 hkf alpha perTrack rounding
  obtain ⟨ctx, n0, n1, g1, g2, g3, g4⟩ := h3 k x m' hx hm _ _ (hres 0 (by decide)) (hres 1 (by decide)) α remapAlpha wrapping kf0 kf1 hkf alpha perTrack rounding
  refine ⟨ctx, n0, n1, g1, ⟨g2.1, (hav _ _).1 g2.2.1, fun j j1 j2 hj => g2.2.2 j j1 j2 ((hav _ _).2 hj)⟩,
    ⟨g3.1, (hav _ _).1 g3.2.1, fun j j1 j2 hj => g3.2.2 j j1 j2 ((hav _ _).2 hj)⟩, g4⟩

/-! ### Nothing fails -/

/-- The specification state is determined by the context. -/
theorem rel_unique {cfg : Cfg} {s : Streaming.State} {a b : AState} (ha : Rel cfg s a) (hb : Rel cfg s b) : a = b := by
  have hl : a.loaded = b.loaded := by
    funext t i
    rw [← ha.bitL, ← hb.bitL]
  have hsome : ∀ {a b : AState}, Rel cfg s a → Rel cfg s b → ∀ t p, a.pending t = some p → b.pending t = some p := by
    intro a b ha hb t p hp
    obtain ⟨i, r, h1, h2, h3, h4⟩ := ha.pendOk t p hp
    have := (hb.slotOk _ i r h1 (by rw [h2]; exact ha.notHigh t p hp)).2.2
    rw [h2] at this
    rw [this, h4]
  have hp : a.pending = b.pending := by
    funext t
    cases h1 : a.pending t with
    | some p => exact (hsome ha hb t p h1).symm
    | none =>
      cases h2 : b.pending t with
      | none => rfl
      | some p =>
        have := hsome hb ha t p h2
        rw [h1] at this
        simp at this
  cases a; cases b
  simp only at hl hp
  rw [hl, hp]

theorem loadedBy_false (h : Legal db bulk events) {t : Nat} (ht : 2 ≤ t) (i : Nat) : loadedBy events t i = false := by
  have : ∀ (ev : List Runtime.Event) (l : Nat → Nat → Bool), (∀ e ∈ ev, e.tier < 2) → loadedAfter ev l t i = l t i := by
    intro ev
    induction ev with
    | nil => intro l _; rfl
    | cons e rest ih =>
      intro l h
      rw [loadedAfter, ih _ (fun x hx => h x (List.mem_cons_of_mem _ hx)), if_neg]
      rintro ⟨h1, -⟩
      have := h e (by simp)
      omega
  exact this events _ fun e he => (h e he).1

/-- A call succeeds if the bookkeeping does; with the asserts compiled in, when chunks are only streamed in that are not there. -/
theorem call_total (hc : Chunked db bulk) {xs : List Input} {outs : List (List (BitVec 8))} {place : Place} (hd : Decodes xs outs db bulk place)
    (hI : Core db bulk (cfgOf db streamerOf) s.book s.memory L a events) (hs : streamed false db events = some s.headers)
    (halt : checks = true → Alternates events fun _ _ => false)
    {op : Streaming.Op} (hop : OpOk op) (hp : Promise bulk (cfgOf db streamerOf) s L (.call op)) (hfr : checks = true → FreshRequest (cfgOf db streamerOf) a op)
    {book' : Streaming.State} {out : Option (Result × Option Dispatch)} (hstep : Streaming.step (cfgOf db streamerOf) s.book op = some (book', out)) :
    ∃ s' sent a' ev, dbStep checks db (cfgOf db streamerOf) s (.call op) = some (s', sent) ∧ s'.book = book' ∧ s'.memory = s.memory ∧
      Called db bulk (cfgOf db streamerOf) s L a events op s'.book out a' sent ev ∧ streamed false db (events ++ ev) = some s'.headers ∧
      (checks = true → Alternates (events ++ ev) fun _ _ => false) := by
  obtain ⟨a', sent, ev, hcall⟩ := hI.call hc hop hstep hp
  have halt' : checks = true → Alternates (events ++ ev) fun _ _ => false := by
    intro h
    rw [alternates_append]
    exact ⟨halt h, hcall.alternates (hfr h)⟩
  obtain ⟨h', g1, g2, -⟩ := hd (events ++ ev) hcall.core.legal
  have hh : headersAfter checks db s op out = some h' := by
    rw [hcall.headers]
    split
    · rename_i he
      rw [he, List.append_nil, hs] at g1
      exact g1
    · rw [streamed_append, hs, Option.bind_some] at g1
      cases hch : checks with
      | false => exact g1
      | true =>
        have ht := g2 (halt' hch)
        obtain ⟨h0, k1, k2, -⟩ := hd events hI.legal
        rw [hs, Option.some.injEq] at k1
        subst k1
        rw [streamed_append, k2 (halt hch), Option.bind_some] at ht
        exact ht
  refine ⟨{ s with book := book', headers := h' }, sent, a', ev, ?_, rfl, rfl, hcall, g1, halt'⟩
  rw [dbStep, hstep, Option.bind_some]
  dsimp only
  rw [hh, Option.bind_some, hcall.sentIs]
  rfl

theorem run_total (hc : Chunked db bulk) {xs : List Input} {outs : List (List (BitVec 8))} {place : Place} (hd : Decodes xs outs db bulk place) :
    ∀ (ops : List DbOp) (s : DbState) (L : Ledger) (a : AState) (events : List Runtime.Event),
    Core db bulk (cfgOf db streamerOf) s.book s.memory L a events → streamed false db events = some s.headers →
    (∀ op ∈ calls ops, OpOk op) → Honors false db bulk (cfgOf db streamerOf) s L ops →
    (Streaming.run (cfgOf db streamerOf) s.book (calls ops)).isSome → (dbRun false db (cfgOf db streamerOf) s ops).isSome := by
  intro ops
  induction ops with
  | nil => intro s L a events hI hs _ _ _; rfl
  | cons op ops ih =>
    intro s L a events hI hs hops hh hrun
    obtain ⟨hp, hh'⟩ := hh
    rw [dbRun]
    cases op with
    | write t mem =>
      exact ih _ L a events (hI.write hp) hs hops (hh' _ _ rfl) hrun
    | call o =>
      have hcalls : calls (DbOp.call o :: ops) = o :: calls ops := rfl
      rw [hcalls, Streaming.run] at hrun
      cases hst : Streaming.step (cfgOf db streamerOf) s.book o with
      | none => rw [hst] at hrun; simp at hrun
      | some x =>
        obtain ⟨book', out⟩ := x
        rw [hst] at hrun
        simp only [Option.bind_eq_bind, Option.bind_some] at hrun
        obtain ⟨s1, sent, a1, ev, h1, h2, h3, h4, h5, -⟩ := call_total (checks := false) hc hd hI hs (fun h => by simp at h) (hops o (by rw [hcalls]; simp)) hp
          (fun h => by simp at h) hst
        have hcore := h4.core
        rw [← h3] at hcore
        rw [h1, Option.bind_some]
        refine ih s1 _ a1 _ hcore h5 (fun x hx => hops x (by rw [hcalls]; simp [hx])) (hh' _ _ h1) ?_
        rw [h2]
        cases hr : Streaming.run (cfgOf db streamerOf) book' (calls ops) with
        | none => rw [hr] at hrun; simp at hrun
        | some y => rfl

theorem fresh_of_prefix {cfg : Cfg} (P : C25.Prefix cfg a) (op : Streaming.Op) : FreshRequest cfg a op := by
  cases op with
  | complete k id =>
    intro t p hp _ _ hact i hi
    obtain ⟨m, -, h2, h3⟩ := P t
    rw [covers_iff] at hi
    rcases h3 p hp with h | h
    · rw [h2]; simp; omega
    · rw [hact] at h; simp at h
  | _ => exact trivial

/-- With the asserts compiled in. -/
theorem run_checked (hc : Chunked db bulk) {xs : List Input} {outs : List (List (BitVec 8))} {place : Place} (hd : Decodes xs outs db bulk place) :
    ∀ (ops : List DbOp) (s : DbState) (L : Ledger) (a : AState) (events : List Runtime.Event),
    Core db bulk (cfgOf db streamerOf) s.book s.memory L a events → streamed false db events = some s.headers → (Alternates events fun _ _ => false) →
    C25.Prefix (cfgOf db streamerOf) a →
    (∀ op ∈ calls ops, OpOk op) → Honors checks db bulk (cfgOf db streamerOf) s L ops →
    C25.WholeTiers (cfgOf db streamerOf) s.book (calls ops) → (dbRun checks db (cfgOf db streamerOf) s ops).isSome := by
  intro ops
  induction ops with
  | nil => intro s L a events hI hs _ _ _ _ _; rfl
  | cons op ops ih =>
    intro s L a events hI hs halt hP hops hh hw
    obtain ⟨hp, hh'⟩ := hh
    rw [dbRun]
    cases op with
    | write t mem =>
      exact ih _ L a events (hI.write hp) hs halt hP hops (hh' _ _ rfl) hw
    | call o =>
      have hcalls : calls (DbOp.call o :: ops) = o :: calls ops := rfl
      rw [hcalls, C25.WholeTiers] at hw
      obtain ⟨hw1, hw2⟩ := hw
      have hop := hops o (by rw [hcalls]; simp)
      obtain ⟨book', out, a2, e1, e2, e3⟩ := C25.prefix_step hI.rel (small_chunks hc streamerOf) hP o hop hw1
      obtain ⟨s1, sent, a1, ev, h1, h2, h3, h4, h5, h6⟩ := call_total (checks := true) hc hd hI hs (fun _ => halt) hop hp (fun _ => fresh_of_prefix hP o) e1
      have hx : ∃ s2 sent2, dbStep checks db (cfgOf db streamerOf) s (.call o) = some (s2, sent2) ∧ s2 = s1 ∧ sent2 = sent := by
        cases checks with
        | true => exact ⟨s1, sent, h1, rfl, rfl⟩
        | false =>
          obtain ⟨s2, sent2, a3, ev3, k1, k2, k3, k4, k5, -⟩ := call_total (checks := false) hc hd hI hs (fun h => by simp at h) hop hp (fun h => by simp at h) e1
          refine ⟨s2, sent2, k1, ?_, ?_⟩
          · simp only [dbStep, e1, Option.bind_some, Option.bind_eq_some_iff, Option.map_eq_some_iff, Prod.mk.injEq] at h1 k1
            obtain ⟨x1, x2, x3, x4, x5, -⟩ := h1
            obtain ⟨y1, y2, y3, y4, y5, -⟩ := k1
            have : x1 = y1 := by
              rw [h4.headers] at x2 y2
              by_cases hev : ev = []
              · rw [if_pos hev, Option.some.injEq] at x2 y2
                rw [← x2, ← y2]
              · rw [if_neg hev] at x2 y2
                have := applyEvents_release x2
                rw [y2, Option.some.injEq] at this
                exact this.symm
            rw [← x5, ← y5, this]
          · have := h4.sentIs
            rw [k4.sentIs, Option.some.injEq] at this
            exact this
      obtain ⟨_, _, hx, rfl, rfl⟩ := hx
      have hcore := h4.core
      rw [← h3] at hcore
      have ha : a1 = a2 := rel_unique hcore.rel (by rw [h2]; exact e2)
      rw [hx, Option.bind_some]
      refine ih _ _ a1 _ hcore h5 (h6 rfl) (by rw [ha]; exact e3) (fun x hx => hops x (by rw [hcalls]; simp [hx])) (hh' _ _ hx) ?_
      rw [h2]
      exact hw2 _ _ e1

end Acl.DbStream
