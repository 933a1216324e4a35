import Verif.Database.StreamContextMain
import Verif.Database.TimelineSpec
/-
What other threads see of a context while chunks are streamed in.
-/
namespace Acl.DbStream
open Acl.Streaming Acl.Streaming.Spec Acl.Runtime Acl.DbBuild Acl.Transform Acl.Seek.Spec

variable {db : List (BitVec 8)} {bulk : Nat → List (BitVec 8)} {streamerOf : Tier → Nat} {L : Ledger} {a : AState} {events : List Runtime.Event}
  {checks : Bool} {s s' : DbState} {before : Nat → Nat → Bool}

/-- A moment at which the chunks of `now` may have been registered: they are all in memory. -/
def Good (db : List (BitVec 8)) (bulk : Nat → List (BitVec 8)) (before now : Nat → Nat → Bool) (x : Shared) : Prop :=
  Moment db bulk before now x.headers ∧ ∀ t, t < 2 → ∀ i, now t i = true →
    x.pointer t = true ∧ HasChunk db (bulk t) t i (x.memory t) ∧ (bulk t).length ≤ (x.memory t).length

/-- Moments one after the other, from `first` to `last`. -/
inductive Timeline (db : List (BitVec 8)) (bulk : Nat → List (BitVec 8)) (before : Nat → Nat → Bool) :
    (Nat → Nat → Bool) → List Shared → (Nat → Nat → Bool) → Prop
  | nil {first last : Nat → Nat → Bool} : (∀ t i, t < 2 → first t i = true → last t i = true) → Timeline db bulk before first [] last
  | cons {first now last : Nat → Nat → Bool} {x : Shared} {l : List Shared} : (∀ t i, t < 2 → first t i = true → now t i = true) → Good db bulk before now x →
      Timeline db bulk before now l last → Timeline db bulk before first (x :: l) last

theorem Timeline.weaken {first first' last : Nat → Nat → Bool} {l : List Shared} (hw : ∀ t i, t < 2 → first' t i = true → first t i = true)
    (h : Timeline db bulk before first l last) : Timeline db bulk before first' l last := by
  cases h with
  | nil h => exact .nil fun t i ht hf => h t i ht (hw t i ht hf)
  | cons h1 h2 h3 => exact .cons (fun t i ht hf => h1 t i ht (hw t i ht hf)) h2 h3

theorem Timeline.append {first mid last : Nat → Nat → Bool} {l l' : List Shared} (h : Timeline db bulk before first l mid)
    (h' : Timeline db bulk before mid l' last) : Timeline db bulk before first (l ++ l') last := by
  induction h with
  | nil h => exact h'.weaken h
  | cons h1 h2 h3 ih => exact .cons h1 h2 (ih h')

/-- Moments of a list one by one. -/
theorem Timeline.of_all {first last : Nat → Nat → Bool} {l : List Shared} (h : ∀ x ∈ l, Good db bulk before last x)
    (hw : ∀ t i, t < 2 → first t i = true → last t i = true) : Timeline db bulk before first l last := by
  induction l generalizing first with
  | nil => exact .nil hw
  | cons x l ih => exact .cons hw (h x (by simp)) (ih (fun y hy => h y (by simp [hy])) fun _ _ _ h => h)

/-- What is registered at each moment. -/
theorem Timeline.now {first last : Nat → Nat → Bool} {l : List Shared} (h : Timeline db bulk before first l last) :
    ∃ now : Nat → Nat → Nat → Bool, ∀ (j : Nat) x, l[j]? = some x → Good db bulk before (now j) x ∧ (∀ t i, t < 2 → first t i = true → now j t i = true) ∧
      (∀ t i, t < 2 → now j t i = true → last t i = true) ∧ ∀ j', j ≤ j' → j' < l.length → ∀ t i, t < 2 → now j t i = true → now j' t i = true := by
  induction h with
  | nil h => exact ⟨fun _ _ _ => false, fun j x hx => by simp at hx⟩
  | @cons first n last x l h1 h2 h3 ih =>
    obtain ⟨now, hn⟩ := ih
    have hlast : ∀ t i, t < 2 → n t i = true → last t i = true := by
      intro t i ht hi
      cases h3 with
      | nil h => exact h t i ht hi
      | cons e1 e2 e3 =>
        obtain ⟨-, y2, y3, -⟩ := hn 0 _ rfl
        exact y3 t i ht (y2 t i ht hi)
    refine ⟨fun j => match j with | 0 => n | j + 1 => now j, fun j y hy => ?_⟩
    cases j with
    | zero =>
      rw [List.getElem?_cons_zero, Option.some.injEq] at hy
      subst hy
      refine ⟨h2, h1, hlast, fun j' _ hj' t i ht hi => ?_⟩
      cases j' with
      | zero => exact hi
      | succ j' =>
        have hj2 : j' < l.length := by simpa using hj'
        exact (hn j' _ (List.getElem?_eq_getElem hj2)).2.1 t i ht hi
    | succ j =>
      rw [List.getElem?_cons_succ] at hy
      obtain ⟨y1, y2, y3, y4⟩ := hn j y hy
      refine ⟨y1, fun t i ht hf => y2 t i ht (h1 t i ht hf), y3, fun j' hj hj' t i ht hi => ?_⟩
      cases j' with
      | zero => omega
      | succ j' => exact y4 j' (by omega) (by simpa using hj') t i ht hi

theorem loadedAfter_adds : ∀ (ev : List Runtime.Event) (l : Nat → Nat → Bool), (∀ e ∈ ev, e.add = true) → ∀ t i, l t i = true → loadedAfter ev l t i = true := by
  intro ev
  induction ev with
  | nil => intro l _ t i h; exact h
  | cons e rest ih =>
    intro l hadd t i h
    rw [loadedAfter]
    refine ih _ (fun x hx => hadd x (by simp [hx])) t i ?_
    split
    · exact hadd e (by simp)
    · exact h

theorem loadedBy_adds {ev : List Runtime.Event} (hadd : ∀ e ∈ ev, e.add = true) {t i : Nat} (h : loadedBy events t i = true) : loadedBy (events ++ ev) t i = true := by
  rw [loadedBy_append]
  exact loadedAfter_adds ev _ hadd t i h

/-- The state after an operation. -/
theorem Core.good (hc : Chunked db bulk) (hI : Core db bulk (cfgOf db streamerOf) s.book s.memory L a events) (hs : streamed false db events = some s.headers)
    (hb : ∀ t i, t < 2 → before t i = true → loadedBy events t i = true) : Good db bulk before (loadedBy events) (sharedOf s) := by
  refine ⟨⟨events, s.headers, hI.legal, hs, hb, fun t i h => h, .inl rfl⟩, fun t ht i hi => ?_⟩
  rw [hI.loaded t ht] at hi
  have hreg := hI.rel.reg (tierOf t) i
  have hk := hI.hasChunk hc ht hi
  exact ⟨hI.rel.bulk (tierOf t) i (by rw [hreg]; exact hi), hk.1, hk.2⟩

/-- The moments of a request that is completed. -/
theorem events_timeline {pointer : Nat → Bool} {memory : Nat → List (BitVec 8)} : ∀ (ev : List Runtime.Event) (events : List Runtime.Event) (h : List (BitVec 8)),
    (∀ e ∈ ev, e.add = true) → Legal db bulk (events ++ ev) → streamed false db events = some h →
    (∀ t i, t < 2 → before t i = true → loadedBy events t i = true) →
    (∀ t, t < 2 → ∀ i, loadedBy (events ++ ev) t i = true → pointer t = true ∧ HasChunk db (bulk t) t i (memory t) ∧ (bulk t).length ≤ (memory t).length) →
    Timeline db bulk before (loadedBy events) ((eventMoments db ev h).map fun x => ⟨x, pointer, memory⟩) (loadedBy (events ++ ev)) := by
  intro ev
  induction ev with
  | nil =>
    intro events h _ _ _ _ _
    rw [List.append_nil]
    exact .nil fun _ _ _ h => h
  | cons e rest ih =>
    intro events h hadd hl hs hb hg
    have hassoc : events ++ e :: rest = (events ++ [e]) ++ rest := by simp
    have hadd' : ∀ x ∈ rest, x.add = true := fun x hx => hadd x (by simp [hx])
    have hadd1 : ∀ x ∈ [e], x.add = true := fun x hx => hadd x (by simp at hx; simp [hx])
    rw [eventMoments, List.map_append]
    rw [hassoc] at hl hg ⊢
    refine Timeline.append (mid := loadedBy (events ++ [e])) (.of_all ?_ fun t i _ h => loadedBy_adds hadd1 h) ?_
    · intro x hx
      rw [List.mem_map] at hx
      obtain ⟨y, hy, rfl⟩ := hx
      refine ⟨⟨events, h, fun x hx => hl x (by simp [hx]), hs, hb, fun t i h => loadedBy_adds hadd1 h, .inr ⟨e, hadd e (by simp), ?_, ?_, hy⟩⟩, ?_⟩
      · intro x hx
        rw [List.mem_singleton] at hx
        subst hx
        exact hl x (by simp)
      · rw [loadedBy_append, loadedAfter, loadedAfter, if_pos ⟨rfl, rfl⟩]
        exact hadd e (by simp)
      · intro t ht i hi
        exact hg t ht i (loadedBy_adds hadd' hi)
    · cases h1 : applyEvents false db [e] h with
      | none => exact .nil fun t i _ h => loadedBy_adds hadd' h
      | some h' =>
        refine ih (events ++ [e]) h' hadd' hl ?_ (fun t i ht hi => loadedBy_adds hadd1 (hb t i ht hi)) hg
        rw [streamed_append, hs, Option.bind_some, h1]

theorem opEvents_add {op : Streaming.Op} (hop : ∀ t n, op ≠ .streamOut t n) (out : Option (Result × Option Dispatch)) : ∀ e ∈ opEvents s op out, e.add = true := by
  intro e he
  have main : ∀ t first count mem, e ∈ chunkEvents true t first count mem → e.add = true := by
    intro t first count mem h
    unfold chunkEvents at h
    obtain ⟨j, -, rfl⟩ := List.mem_map.1 h
    rfl
  cases op with
  | streamIn t n => simp [opEvents] at he
  | cancel k id => simp [opEvents] at he
  | streamOut t n => exact absurd rfl (hop t n)
  | complete k id =>
    unfold opEvents at he
    dsimp only at he
    cases hr : requestOf s.book k id with
    | none => rw [hr] at he; simp at he
    | some r =>
      rw [hr] at he
      dsimp only at he
      split at he
      · exact main _ _ _ _ he
      · simp at he

/-- A history in which nothing is asked to be streamed out. -/
theorem run_timeline (hc : Chunked db bulk) : ∀ (ops : List DbOp) (s : DbState) (L : Ledger) (a : AState) (events : List Runtime.Event),
    Core db bulk (cfgOf db streamerOf) s.book s.memory L a events → streamed false db events = some s.headers →
    (∀ op ∈ calls ops, OpOk op) → OnlyIn ops → (∀ t i, t < 2 → before t i = true → loadedBy events t i = true) →
    Honors checks db bulk (cfgOf db streamerOf) s L ops → ∀ s', dbRun checks db (cfgOf db streamerOf) s ops = some s' →
    ∃ a' L' events' ds, Run (cfgOf db streamerOf) a (calls ops) a' ds ∧
      Core db bulk (cfgOf db streamerOf) s'.book s'.memory L' a' events' ∧ streamed false db events' = some s'.headers ∧
      Timeline db bulk before (loadedBy events) (trace checks db (cfgOf db streamerOf) s ops) (loadedBy events') := by
  intro ops
  induction ops with
  | nil =>
    intro s L a events hI hs _ _ hb _ s' h
    rw [dbRun, Option.some.injEq] at h
    subst h
    refine ⟨a, L, events, [], .nil a, hI, hs, ?_⟩
    rw [trace]
    exact .cons (fun _ _ _ h => h) (hI.good hc hs hb) (.nil fun _ _ _ h => h)
  | cons op ops ih =>
    intro s L a events hI hs hops hin hb hh s' h
    rw [dbRun, Option.bind_eq_some_iff] at h
    obtain ⟨⟨s1, sent⟩, h1, h2⟩ := h
    obtain ⟨hp, hh'⟩ := hh
    have hh1 := hh' s1 sent h1
    rw [trace, h1, Option.map_some, Option.getD_some]
    cases op with
    | write t mem =>
      have h1' := h1
      rw [dbStep, Option.some.injEq, Prod.mk.injEq] at h1
      obtain ⟨rfl, rfl⟩ := h1
      obtain ⟨a', L', ev', ds, g1, g2, g3, g4⟩ := ih { s with memory := fun u => if u = t then mem else s.memory u } L a events (hI.write hp) hs hops hin hb hh1 s' h2
      refine ⟨a', L', ev', ds, g1, g2, g3, .cons (fun _ _ _ h => h) (hI.good hc hs hb) ?_⟩
      refine .append (.of_all (first := loadedBy events) (last := loadedBy events) ?_ fun _ _ _ h => h) g4
      intro x hx
      rw [moments, List.mem_singleton] at hx
      subst hx
      exact Core.good (s := { s with memory := fun u => if u = t then mem else s.memory u }) hc (hI.write hp) hs hb
    | call o =>
      obtain ⟨a1, out, ev, e1, e2, e3, e4⟩ := call_inv hc hI hs (hops o (by simp [calls])) hp h1
      have hcore := e3.core
      rw [← e2] at hcore
      have hcalls : calls (DbOp.call o :: ops) = o :: calls ops := rfl
      have hadd : ∀ e ∈ ev, e.add = true := by
        rw [e3.eventsAre]
        exact opEvents_add (hin o (by rw [hcalls]; simp)) out
      obtain ⟨a2, L2, ev2, ds, g1, g2, g3, g4⟩ := ih s1 _ a1 _ hcore e4 (fun x hx => hops x (by rw [hcalls]; simp [hx])) (fun x hx => hin x (by rw [hcalls]; simp [hx]))
        (fun t i ht hi => loadedBy_adds hadd (hb t i ht hi)) hh1 s' h2
      have hR := Run.cons e3.step g1
      rw [← hcalls] at hR
      have hgood := hcore.good hc e4 fun t i ht hi => loadedBy_adds hadd (hb t i ht hi)
      refine ⟨a2, L2, ev2, _, hR, g2, g3, .cons (fun _ _ _ h => h) (hI.good hc hs hb) (.append (mid := loadedBy (events ++ ev)) ?_ g4)⟩
      have hm : moments db (cfgOf db streamerOf) s s1 (.call o) = (eventMoments db ev s.headers).map (fun h => ⟨h, (sharedOf s1).pointer, s.memory⟩) ++ [sharedOf s1] := by
        rw [moments, e1, e3.eventsAre]
        rfl
      rw [hm]
      refine .append (mid := loadedBy (events ++ ev)) (events_timeline ev events s.headers hadd e3.core.legal hs hb fun t ht i hi => ?_)
        (.cons (fun _ _ _ h => h) hgood (.nil fun _ _ _ h => h))
      have := hgood.2 t ht i hi
      refine ⟨this.1, ?_⟩
      have h2 := this.2
      unfold sharedOf at h2
      dsimp only at h2
      rw [e2] at h2
      exact h2

end Acl.DbStream
