import Verif.Database.StreamContextRun
/-
The invariant of a database context with streamers: the end of a request.
-/
namespace Acl.DbStream
open Acl.Streaming Acl.Streaming.Spec Acl.Runtime Acl.DbBuild Acl.Transform Acl.Seek.Spec

variable {db : List (BitVec 8)} {bulk : Nat → List (BitVec 8)} {streamerOf : Tier → Nat} {book book' : Streaming.State} {memory : Nat → List (BitVec 8)}
  {L : Ledger} {a : AState} {events : List Runtime.Event}

/-- The streamer finds the request in flight by its identifier. -/
theorem Core.finds_some {cfg : Cfg} (hI : Core db bulk cfg book memory L a events) {t : Nat} (ht : t < 2) {k id : Nat} {p : Pending}
    (hp : a.pending (tierOf t) = some p) (hk : cfg.streamerOf (tierOf t) = k) (hid : p.id = id) :
    ∃ m, L.finds cfg k id t = some m ∧ m.action = p.action ∧ Ranges db t p.first p.count m := by
  have := hI.flight t ht
  rw [hp] at this
  obtain ⟨m, m1, m2, m3, m4⟩ := this
  refine ⟨m, ?_, m2, m4⟩
  unfold Ledger.finds
  rw [m1, Option.bind_some, if_pos ⟨hk, by rw [m3, hid]⟩]

/-- And only that one. -/
theorem Core.finds_none {cfg : Cfg} (hI : Core db bulk cfg book memory L a events) {t : Nat} (ht : t < 2) {k id : Nat}
    (h : ∀ p, a.pending (tierOf t) = some p → ¬ (cfg.streamerOf (tierOf t) = k ∧ p.id = id)) : L.finds cfg k id t = none := by
  have hf := hI.flight t ht
  unfold Ledger.finds
  cases hp : a.pending (tierOf t) with
  | none => rw [hp] at hf; rw [show L.inFlight t = none from hf]; rfl
  | some p =>
    rw [hp] at hf
    obtain ⟨m, m1, -, m3, -⟩ := hf
    rw [m1, Option.bind_some, if_neg]
    rintro ⟨h1, h2⟩
    exact h p hp ⟨h1, by rw [← m3, h2]⟩

/-- The chunks registered when a request ends. -/
def finishEvents (memory : Nat → List (BitVec 8)) (success : Bool) : Option Request → List Runtime.Event
  | none => []
  | some r => if success = true ∧ r.action = .streamIn then chunkEvents true (tierIndex r.tier) r.first r.count (memory (tierIndex r.tier)) else []

set_option maxHeartbeats 400000 in
theorem Core.finish (hI : Core db bulk (cfgOf db streamerOf) book memory L a events) (hc : Chunked db bulk) {k id : Nat} (hid : id < 2 ^ 64) (success : Bool)
    (R' : Rel (cfgOf db streamerOf) book' (afterFinish (cfgOf db streamerOf) a k id success)) {L' : Ledger}
    (hk1 : ∀ t q, L'.keep t q = true → L.keep t q = true ∨
      (success = true ∧ ∃ m, L.finds (cfgOf db streamerOf) k id t = some m ∧ m.action = .streamIn ∧ m.has q = true))
    (hk2 : ∀ t q, L.keep t q = true → L'.keep t q = true)
    (hk3 : success = true → ∀ t m, L.finds (cfgOf db streamerOf) k id t = some m → m.action = .streamIn → ∀ q, m.has q = true → L'.keep t q = true)
    (hf : ∀ t, L'.inFlight t = if (L.finds (cfgOf db streamerOf) k id t).isSome then none else L.inFlight t)
    (hp : success = true → ∀ t, t < 2 → ∀ m, L.finds (cfgOf db streamerOf) k id t = some m → m.action = .streamIn →
      (bulk t).length ≤ (memory t).length ∧ ∀ q, m.has q = true → (memory t)[q]? = (bulk t)[q]?) :
    Core db bulk (cfgOf db streamerOf) book' memory L' (afterFinish (cfgOf db streamerOf) a k id success)
      (events ++ finishEvents memory success (requestOf book k id)) := by
  have hmem : ∀ t, t < 2 → ∀ q, L'.keep t q = true → (memory t)[q]? = (bulk t)[q]? ∧ (bulk t).length ≤ (memory t).length := by
    intro t ht q hq
    rcases hk1 t q hq with h | ⟨hs, m, m1, m2, m3⟩
    · exact hI.memory t ht q h
    · have := hp hs t ht m m1 m2
      exact ⟨this.2 q m3, this.1⟩
  cases hr : requestOf book k id with
  | none =>
    have hno : ∀ t p, a.pending t = some p → ¬ ((cfgOf db streamerOf).streamerOf t = k ∧ p.id = id) := by
      rintro t p h ⟨h1, h2⟩
      obtain ⟨r, h3, -⟩ := requestOf_pending hI.rel hid h h1 h2
      rw [hr] at h3
      simp at h3
    rw [afterFinish_none a k id success hno] at R' ⊢
    show Core db bulk _ book' memory L' a (events ++ [])
    rw [List.append_nil]
    refine ⟨R', hI.legal, hI.loaded, fun t ht => ?_, fun t ht i hi e he q q1 q2 => hk2 _ _ (hI.kept t ht i hi e he q q1 q2), hmem⟩
    rw [hf, hI.finds_none ht (hno (tierOf t))]
    exact hI.flight t ht
  | some r =>
    obtain ⟨r1, r2, r3⟩ := requestOf_some hI.rel hid hr
    have hti := tierIndex_lt r1
    have hto := tierOf_tierIndex r1
    obtain ⟨g1, g2⟩ := hI.rel.range _ _ r3
    dsimp only at g1 g2
    obtain ⟨m, m1, m2, m3⟩ := hI.finds_some hti (k := k) (id := id) (p := ⟨r.action, r.first, r.count, id⟩) (by rw [hto]; exact r3) (by rw [hto]; exact r2) rfl
    dsimp only at m2 m3
    have hother : ∀ t, t ≠ r.tier → ∀ p, a.pending t = some p → ¬ ((cfgOf db streamerOf).streamerOf t = k ∧ p.id = id) := by
      rintro t hne p h ⟨h1, h2⟩
      obtain ⟨r', h3, h4, -⟩ := requestOf_pending hI.rel hid h h1 h2
      rw [hr, Option.some.injEq] at h3
      subst h3
      exact hne h4.symm
    have hpend : ∀ t, (afterFinish (cfgOf db streamerOf) a k id success).pending t = if t = r.tier then none else a.pending t := by
      intro t
      unfold afterFinish
      dsimp only
      by_cases ht : t = r.tier
      · subst ht
        rw [if_pos rfl, r3]
        dsimp only
        rw [if_pos ⟨r2, rfl⟩]
      · rw [if_neg ht]
        cases hp' : a.pending t with
        | none => rfl
        | some p => dsimp only; rw [if_neg (hother t ht p hp')]
    have hload : ∀ t, (afterFinish (cfgOf db streamerOf) a k id success).loaded t =
        if t = r.tier then applyRequest (a.loaded t) ⟨r.action, r.first, r.count, id⟩ success else a.loaded t := by
      intro t
      unfold afterFinish
      dsimp only
      by_cases ht : t = r.tier
      · subst ht
        rw [if_pos rfl, r3]
        dsimp only
        rw [if_pos ⟨r2, rfl⟩]
      · rw [if_neg ht]
        cases hp' : a.pending t with
        | none => rfl
        | some p => dsimp only; rw [if_neg (hother t ht p hp')]
    have huse : ∀ u, u < 2 → ∀ i, usable (afterFinish (cfgOf db streamerOf) a k id success) u i =
        if u = tierIndex r.tier ∧ (success = true ∧ r.action = .streamIn) ∧ r.first ≤ i ∧ i < r.first + r.count then true else usable a u i := by
      intro u hu i
      by_cases hut : tierOf u = r.tier
      · have hux : u = tierIndex r.tier := by rw [← hut, tierIndex_tierOf hu]
        rw [usable_none (by rw [hpend, if_pos hut]), hload, if_pos hut]
        unfold applyRequest
        dsimp only
        have hcov := covers_iff ⟨r.action, r.first, r.count, id⟩ i
        dsimp only at hcov
        cases hact : r.action with
        | streamIn =>
          rw [usable_in (p := ⟨r.action, r.first, r.count, id⟩) (by rw [hut]; exact r3) hact]
          rw [hact] at hcov
          dsimp only
          by_cases hin : r.first ≤ i ∧ i < r.first + r.count
          · rw [if_pos (hcov.2 hin)]
            cases success with
            | true => rw [if_pos ⟨hux, ⟨rfl, rfl⟩, hin⟩]; rfl
            | false => rw [if_neg (fun h => by simp at h)]; rfl
          · rw [if_neg (fun h => hin (hcov.1 h)), if_neg (fun h => hin h.2.2)]
        | streamOut =>
          rw [usable_out (p := ⟨r.action, r.first, r.count, id⟩) (by rw [hut]; exact r3) hact, hact]
          cases hcv : Pending.covers ⟨Action.streamOut, r.first, r.count, id⟩ i <;> simp
      · have hpe := hpend (tierOf u)
        have hlo := hload (tierOf u)
        rw [if_neg hut] at hpe hlo
        rw [if_neg]
        · unfold usable
          rw [hpe, hlo]
        · rintro ⟨rfl, -⟩
          exact hut hto
    have hflight : ∀ u, u < 2 → FlightIs db u ((afterFinish (cfgOf db streamerOf) a k id success).pending (tierOf u)) (L'.inFlight u) := by
      intro u hu
      rw [hpend, hf]
      by_cases hut : tierOf u = r.tier
      · have hux : u = tierIndex r.tier := by rw [← hut, tierIndex_tierOf hu]
        rw [if_pos hut, hux, m1]
        rfl
      · rw [if_neg hut, hI.finds_none hu (hother _ hut)]
        exact hI.flight u hu
    obtain ⟨max, -, hch⟩ := hc
    obtain ⟨-, n, hn, -, hdesc⟩ := hch _ hti
    have hnum : (cfgOf db streamerOf).numChunks r.tier = n.toNat := by rw [← hto]; exact numChunks_eq hn
    rw [hnum] at g2
    have hkept : ∀ u, u < 2 → ∀ i, usable (afterFinish (cfgOf db streamerOf) a k id success) u i = true → ∀ e,
        DbBuffer.getChunkDescription db (tierOf u) i = some e → ∀ q, e.2.toNat ≤ q → q < e.2.toNat + e.1.toNat → L'.keep u q = true := by
      intro u hu i hi e he q q1 q2
      rw [huse u hu] at hi
      split at hi
      · rename_i hx
        obtain ⟨rfl, ⟨hs, hact⟩, i1, i2⟩ := hx
        have := m3.inside i i1 i2 e he
        refine hk3 hs _ m m1 (by rw [m2, hact]) q ?_
        unfold Sent.has
        simp
        omega
      · exact hk2 _ _ (hI.kept u hu i hi e he q q1 q2)
    show Core db bulk _ book' memory L' _ (events ++ if success = true ∧ r.action = .streamIn then
      chunkEvents true (tierIndex r.tier) r.first r.count (memory (tierIndex r.tier)) else [])
    by_cases hsi : success = true ∧ r.action = .streamIn
    · rw [if_pos hsi]
      have hp' := hp hsi.1 _ hti m m1 (by rw [m2, hsi.2])
      refine ⟨R', legal_append hI.legal (legal_chunks hti fun i i1 i2 => ?_), fun u hu i => ?_, hflight, hkept, hmem⟩
      · obtain ⟨e, e1, -, -, -, e5⟩ := hdesc i (by omega)
        have := m3.inside i i1 i2 e e1
        refine ⟨n, e, hn, by omega, e1, fun q q1 q2 => hp'.2 q ?_⟩
        unfold Sent.has
        simp
        omega
      · rw [loadedBy_append, loadedAfter_chunks, huse u hu, hI.loaded u hu]
        by_cases hx : u = tierIndex r.tier ∧ r.first ≤ i ∧ i < r.first + r.count
        · rw [if_pos hx, if_pos ⟨hx.1, hsi, hx.2⟩]
        · rw [if_neg hx, if_neg (fun h => hx ⟨h.1, h.2.2⟩)]
    · rw [if_neg hsi, List.append_nil]
      refine ⟨R', hI.legal, fun u hu i => ?_, hflight, hkept, hmem⟩
      rw [huse u hu, if_neg (fun h => hsi h.2.1), hI.loaded u hu]

theorem complete_called {s : DbState} (hI : Core db bulk (cfgOf db streamerOf) s.book s.memory L a events) (hc : Chunked db bulk) {k id : Nat} (hid : id < 2 ^ 64)
    {out : Option (Result × Option Dispatch)} {a' : AState} (hs : Step (cfgOf db streamerOf) a (.complete k id) a' out) (R' : Rel (cfgOf db streamerOf) book' a')
    (hp : Promise bulk (cfgOf db streamerOf) s L (.call (.complete k id))) :
    ∃ sent ev, Called db bulk (cfgOf db streamerOf) s L a events (.complete k id) book' out a' sent ev := by
  have hs0 := hs
  cases hs
  refine ⟨none, finishEvents s.memory true (requestOf s.book k id), ⟨hs0, rfl, fun checks => ?_, ?_, fun hfr => ?_, ?_⟩⟩
  · show (match requestOf s.book k id with
      | some r => if r.action = Action.streamIn then applyEvents checks db (chunkEvents true (tierIndex r.tier) r.first r.count (s.memory (tierIndex r.tier))) s.headers
        else some s.headers
      | none => some s.headers) = _
    cases hr : requestOf s.book k id with
    | none => rfl
    | some r =>
      obtain ⟨r1, r2, r3⟩ := requestOf_some hI.rel hid hr
      have := (hI.rel.range _ _ r3).1
      dsimp only at this ⊢
      have hfe : finishEvents s.memory true (some r) = if true = true ∧ r.action = .streamIn then
        chunkEvents true (tierIndex r.tier) r.first r.count (s.memory (tierIndex r.tier)) else [] := rfl
      by_cases hact : r.action = .streamIn
      · rw [if_pos ⟨rfl, hact⟩] at hfe
        rw [if_pos hact, hfe, if_neg (chunkEvents_ne this)]
      · rw [if_neg (fun h => hact h.2)] at hfe
        rw [if_neg hact, if_pos hfe]
  · show _ = (match requestOf s.book k id with
      | some r => if r.action = Action.streamIn then chunkEvents true (tierIndex r.tier) r.first r.count (s.memory (tierIndex r.tier)) else []
      | none => [])
    cases hr : requestOf s.book k id with
    | none => rfl
    | some r =>
      unfold finishEvents
      simp
  · cases hr : requestOf s.book k id with
    | none => exact trivial
    | some r =>
      obtain ⟨r1, r2, r3⟩ := requestOf_some hI.rel hid hr
      unfold finishEvents
      dsimp only
      split
      · rename_i hact
        refine alternates_chunks _ _ _ _ _ _ fun i i1 i2 => ?_
        rw [hI.loaded _ (tierIndex_lt r1), usable_in (p := ⟨r.action, r.first, r.count, id⟩) (by rw [tierOf_tierIndex r1]; exact r3) hact.2,
          tierOf_tierIndex r1]
        have := hfr _ _ r3 r2 rfl hact.2 i ((covers_iff _ i).2 ⟨i1, i2⟩)
        rw [this]
        rfl
      · exact trivial
  · refine hI.finish hc hid true R' (fun t q hq => ?_) (fun t q hq => ?_) (fun _ t m hm hact q hq => ?_) (fun t => rfl) (fun _ => hp)
    · simp only [Ledger.step] at hq
      cases hm : L.finds (cfgOf db streamerOf) k id t with
      | none => rw [hm] at hq; exact .inl hq
      | some m =>
        rw [hm] at hq
        dsimp only at hq
        split at hq
        · rename_i h; exact .inr ⟨rfl, m, rfl, h.1, h.2⟩
        · exact .inl hq
    · simp only [Ledger.step]
      cases hm : L.finds (cfgOf db streamerOf) k id t with
      | none => exact hq
      | some m => dsimp only; split <;> first | rfl | exact hq
    · simp only [Ledger.step]
      rw [hm]
      dsimp only
      rw [if_pos ⟨hact, hq⟩]

theorem cancel_called {s : DbState} (hI : Core db bulk (cfgOf db streamerOf) s.book s.memory L a events) (hc : Chunked db bulk) {k id : Nat} (hid : id < 2 ^ 64)
    {out : Option (Result × Option Dispatch)} {a' : AState} (hs : Step (cfgOf db streamerOf) a (.cancel k id) a' out) (R' : Rel (cfgOf db streamerOf) book' a')
    (hp : Promise bulk (cfgOf db streamerOf) s L (.call (.cancel k id))) :
    ∃ sent ev, Called db bulk (cfgOf db streamerOf) s L a events (.cancel k id) book' out a' sent ev := by
  have hs0 := hs
  cases hs
  have hev : finishEvents s.memory false (requestOf s.book k id) = [] := by
    cases hr : requestOf s.book k id with
    | none => rfl
    | some r => unfold finishEvents; dsimp only; rw [if_neg (fun h => by simp at h)]
  refine ⟨none, finishEvents s.memory false (requestOf s.book k id), ⟨hs0, rfl, fun checks => ?_, hev, fun _ => by rw [hev]; exact trivial, ?_⟩⟩
  · rw [if_pos hev]
    show (match requestOf s.book k id with
      | some r => if checks && r.action == Action.streamOut then none else some s.headers
      | none => some s.headers) = _
    cases hr : requestOf s.book k id with
    | none => rfl
    | some r =>
      obtain ⟨r1, r2, r3⟩ := requestOf_some hI.rel hid hr
      have hti := tierIndex_lt r1
      have hto := tierOf_tierIndex r1
      obtain ⟨m, m1, m2, m3⟩ := hI.finds_some hti (k := k) (id := id) (p := ⟨r.action, r.first, r.count, id⟩) (by rw [hto]; exact r3) (by rw [hto]; exact r2) rfl
      have := hp _ hti m m1
      rw [m2] at this
      dsimp only at this ⊢
      rw [this, if_neg]
      cases checks <;> decide
  · exact hI.finish hc hid false R' (fun t q hq => .inl hq) (fun t q hq => hq) (fun h => by simp at h) (fun t => rfl) (fun h => by simp at h)

/-- A call keeps the invariant. -/
theorem Core.call {s : DbState} (hI : Core db bulk (cfgOf db streamerOf) s.book s.memory L a events) (hc : Chunked db bulk) {op : Streaming.Op} (hop : OpOk op)
    {out : Option (Result × Option Dispatch)} (hs : Streaming.step (cfgOf db streamerOf) s.book op = some (book', out))
    (hp : Promise bulk (cfgOf db streamerOf) s L (.call op)) :
    ∃ a' sent ev, Called db bulk (cfgOf db streamerOf) s L a events op book' out a' sent ev := by
  obtain ⟨a', h1, R'⟩ := step_refines hI.rel (small_chunks hc streamerOf) op hop book' out hs
  refine ⟨a', ?_⟩
  cases op with
  | streamIn t n => exact streamIn_called hI hc h1 R'
  | streamOut t n => exact streamOut_called hI hc h1 R'
  | complete k id => exact complete_called hI hc hop h1 R' hp
  | cancel k id => exact cancel_called hI hc hop h1 R' hp

/-- So does what the streamer writes. -/
theorem Core.write {s : DbState} {cfg : Cfg} (hI : Core db bulk cfg s.book s.memory L a events) {t : Nat} {mem : List (BitVec 8)}
    (hp : Promise bulk cfg s L (.write t mem)) :
    Core db bulk cfg s.book (fun u => if u = t then mem else s.memory u) L a events := by
  refine ⟨hI.rel, hI.legal, hI.loaded, hI.flight, hI.kept, fun u hu q hq => ?_⟩
  by_cases h : u = t
  · subst h
    rw [if_pos rfl]
    exact hp hu q hq
  · rw [if_neg h]
    exact hI.memory u hu q hq

theorem Core.init (db : List (BitVec 8)) (bulk : Nat → List (BitVec 8)) (streamerOf : Tier → Nat) {requests : Nat → List Request} (hf : FreshRequests requests)
    (memory : Nat → List (BitVec 8)) :
    Core db bulk (cfgOf db streamerOf) (Streaming.init (cfgOf db streamerOf) requests) memory Ledger.empty AState.empty [] := by
  refine ⟨rel_init _ requests hf, fun e he => by simp at he, fun t ht i => rfl, fun t ht => rfl, fun t ht i hi => ?_, fun t ht q hq => ?_⟩
  · simp [usable, AState.empty] at hi
  · simp [Ledger.empty] at hq

end Acl.DbStream
