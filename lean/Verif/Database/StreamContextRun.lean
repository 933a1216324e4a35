import Verif.Database.StreamContextLemmas
/-
The invariant of a database context with streamers.
-/
namespace Acl.DbStream
open Acl.Streaming Acl.Streaming.Spec Acl.Runtime Acl.DbBuild Acl.Transform Acl.Seek.Spec

/-- The request in flight for a tier and what the streamer knows of it. -/
def FlightIs (db : List (BitVec 8)) (t : Nat) : Option Pending → Option Sent → Prop
  | none, m => m = none
  | some p, m => ∃ x, m = some x ∧ x.action = p.action ∧ x.id = p.id ∧ Ranges db t p.first p.count x

/-- `events` are the chunks registered and unregistered so far. -/
structure Core (db : List (BitVec 8)) (bulk : Nat → List (BitVec 8)) (cfg : Cfg) (book : Streaming.State) (memory : Nat → List (BitVec 8)) (L : Ledger)
    (a : AState) (events : List Runtime.Event) : Prop where
  rel : Rel cfg book a
  legal : Legal db bulk events
  loaded : ∀ t, t < 2 → ∀ i, loadedBy events t i = usable a t i
  flight : ∀ t, t < 2 → FlightIs db t (a.pending (tierOf t)) (L.inFlight t)
  kept : ∀ t, t < 2 → ∀ i, usable a t i = true → ∀ e, DbBuffer.getChunkDescription db (tierOf t) i = some e →
    ∀ q, e.2.toNat ≤ q → q < e.2.toNat + e.1.toNat → L.keep t q = true
  memory : ∀ t, t < 2 → ∀ q, L.keep t q = true → (memory t)[q]? = (bulk t)[q]? ∧ (bulk t).length ≤ (memory t).length

variable {db : List (BitVec 8)} {bulk : Nat → List (BitVec 8)} {streamerOf : Tier → Nat} {book book' : Streaming.State} {memory : Nat → List (BitVec 8)}
  {L : Ledger} {a : AState} {events : List Runtime.Event}

/-- A chunk the decoder can use is in memory. -/
theorem Core.hasChunk (hI : Core db bulk (cfgOf db streamerOf) book memory L a events) (hc : Chunked db bulk) {t : Nat} (ht : t < 2) {i : Nat}
    (hu : usable a t i = true) : HasChunk db (bulk t) t i (memory t) ∧ (bulk t).length ≤ (memory t).length := by
  obtain ⟨max, -, h2⟩ := hc
  obtain ⟨-, n, hn, -, hch⟩ := h2 t ht
  have hi : i < n.toNat := by
    by_contra hge
    have := hI.rel.tailL (tierOf t) i (by rw [numChunks_eq hn]; omega)
    unfold usable at hu
    rw [this] at hu
    simp at hu
  obtain ⟨e, e1, e2, e3, e4, e5⟩ := hch i hi
  have hk := hI.kept t ht i hu e e1
  refine ⟨⟨n, e, hn, hi, e1, fun q q1 q2 => (hI.memory t ht q (hk q q1 q2)).1⟩, ?_⟩
  exact (hI.memory t ht e.2.toNat (hk _ (Nat.le_refl _) (by omega))).2

theorem usable_none {t : Nat} (h : a.pending (tierOf t) = none) (i : Nat) : usable a t i = a.loaded (tierOf t) i := by
  unfold usable; rw [h]; simp

theorem usable_in {t : Nat} {p : Pending} (h : a.pending (tierOf t) = some p) (hp : p.action = .streamIn) (i : Nat) :
    usable a t i = a.loaded (tierOf t) i := by
  unfold usable; rw [h]; simp [hp]

theorem usable_out {t : Nat} {p : Pending} (h : a.pending (tierOf t) = some p) (hp : p.action = .streamOut) (i : Nat) :
    usable a t i = (a.loaded (tierOf t) i && !p.covers i) := by
  unfold usable; rw [h]; simp [hp]

/-- A chunk of a request to stream in is not there yet: what the asserts of the code ask for. -/
def FreshRequest (cfg : Cfg) (a : AState) : Streaming.Op → Prop
  | .complete k id => ∀ t p, a.pending t = some p → cfg.streamerOf t = k → p.id = id → p.action = .streamIn → ∀ i, p.covers i = true → a.loaded t i = false
  | _ => True

/-- What a call does. -/
structure Called (db : List (BitVec 8)) (bulk : Nat → List (BitVec 8)) (cfg : Cfg) (s : DbState) (L : Ledger) (a : AState) (events : List Runtime.Event)
    (op : Streaming.Op) (book' : Streaming.State) (out : Option (Result × Option Dispatch)) (a' : AState) (sent : Option Sent) (ev : List Runtime.Event) : Prop where
  step : Step cfg a op a' out
  sentIs : sentAfter db out = some sent
  headers : ∀ checks, headersAfter checks db s op out = if ev = [] then some s.headers else applyEvents checks db ev s.headers
  eventsAre : ev = opEvents s op out
  alternates : FreshRequest cfg a op → Alternates ev (loadedBy events)
  core : Core db bulk cfg book' s.memory (L.step cfg (.call op) sent) a' (events ++ ev)

theorem legal_append {x y : List Runtime.Event} (h1 : Legal db bulk x) (h2 : Legal db bulk y) : Legal db bulk (x ++ y) := by
  intro e he
  rcases List.mem_append.1 he with h | h
  · exact h1 e h
  · exact h2 e h

theorem legal_chunks {add : Bool} {t first count : Nat} {mem : List (BitVec 8)} (ht : t < 2)
    (h : ∀ i, first ≤ i → i < first + count → HasChunk db (bulk t) t i mem) : Legal db bulk (chunkEvents add t first count mem) := by
  intro e he
  unfold chunkEvents at he
  obtain ⟨j, hj, rfl⟩ := List.mem_map.1 he
  rw [List.mem_range] at hj
  exact ⟨ht, h (first + j) (by omega) (by omega)⟩

theorem chunkEvents_ne {add : Bool} {t first count : Nat} {mem : List (BitVec 8)} (h : 1 ≤ count) : chunkEvents add t first count mem ≠ [] := by
  intro hc
  have := congrArg List.length hc
  unfold chunkEvents at this
  rw [List.length_map, List.length_range] at this
  simp at this
  omega

/-- Nothing is sent and nothing changes. -/
theorem Core.same {s : DbState} (hI : Core db bulk (cfgOf db streamerOf) s.book s.memory L a events) {book' : Streaming.State} (R' : Rel (cfgOf db streamerOf) book' a) :
    Core db bulk (cfgOf db streamerOf) book' s.memory L a (events ++ []) := by
  rw [List.append_nil]
  exact ⟨R', hI.legal, hI.loaded, hI.flight, hI.kept, hI.memory⟩

theorem streamIn_called {s : DbState} (hI : Core db bulk (cfgOf db streamerOf) s.book s.memory L a events) (hc : Chunked db bulk) {t : Tier} {n : Nat}
    {out : Option (Result × Option Dispatch)} {a' : AState} (hs : Step (cfgOf db streamerOf) a (.streamIn t n) a' out) (R' : Rel (cfgOf db streamerOf) book' a') :
    ∃ sent ev, Called db bulk (cfgOf db streamerOf) s L a events (.streamIn t n) book' out a' sent ev := by
  have hs0 := hs
  cases hs with
  | streamIn hss =>
  rename_i r d
  cases hss with
  | invalid h => exact ⟨none, [], ⟨hs0, rfl, fun _ => rfl, rfl, fun _ => trivial, hI.same R'⟩⟩
  | busy h1 h2 => exact ⟨none, [], ⟨hs0, rfl, fun _ => rfl, rfl, fun _ => trivial, hI.same R'⟩⟩
  | noFree h1 h2 => exact ⟨none, [], ⟨hs0, rfl, fun _ => rfl, rfl, fun _ => trivial, hI.same R'⟩⟩
  | done h1 h2 => exact ⟨none, [], ⟨hs0, rfl, fun _ => rfl, rfl, fun _ => trivial, hI.same R'⟩⟩
  | dispatched first count id flag ht hp h3 h4 h5 h6 h7 =>
    obtain ⟨m, m1, m2, m3, m4, m5, m6, -⟩ := sent_ok hc streamerOf (d := ⟨.streamIn, t, first, count, id, flag⟩) ht h3 h4
    dsimp only at m2 m3 m4 m5 m6
    have hstep : L.step (cfgOf db streamerOf) (.call (.streamIn t n)) (some m) =
        { keep := fun t q => if t = tierIndex m.tier ∧ m.action = .streamOut ∧ m.has q = true then false else L.keep t q
          inFlight := fun t => if t = tierIndex m.tier then some m else L.inFlight t } := rfl
    have hkeep : ∀ u q, (L.step (cfgOf db streamerOf) (.call (.streamIn t n)) (some m)).keep u q = L.keep u q := by
      intro u q
      rw [hstep]
      dsimp only
      rw [if_neg]
      rintro ⟨-, h, -⟩
      rw [m2] at h
      exact absurd h (by decide)
    have huse : ∀ u, u < 2 → ∀ i, usable { a with pending := fun u => if u = t then some ⟨.streamIn, first, count, id⟩ else a.pending u } u i = usable a u i := by
      intro u hu i
      by_cases hut : tierOf u = t
      · rw [usable_in (p := ⟨.streamIn, first, count, id⟩) (by dsimp only; rw [if_pos hut]) rfl, usable_none (by rw [hut]; exact hp)]
      · unfold usable
        dsimp only
        rw [if_neg hut]
    refine ⟨some m, [], ⟨hs0, by show (sentOf db _).map some = _; rw [m1]; rfl, fun _ => rfl, rfl, fun _ => trivial, ?_⟩⟩
    rw [List.append_nil]
    refine ⟨R', hI.legal, fun u hu i => by rw [huse u hu, hI.loaded u hu], fun u hu => ?_, fun u hu i hi e he q q1 q2 => ?_, fun u hu q hq => ?_⟩
    · rw [hstep]
      dsimp only
      rw [m3]
      by_cases hut : tierOf u = t
      · have hux : u = tierIndex t := by rw [← hut, tierIndex_tierOf hu]
        rw [if_pos hut, if_pos hux]
        exact ⟨m, rfl, m2, m4, by rw [hux]; exact m6⟩
      · rw [if_neg hut, if_neg]
        · exact hI.flight u hu
        · rintro rfl
          exact hut (tierOf_tierIndex ht)
    · rw [hkeep]
      rw [huse u hu] at hi
      exact hI.kept u hu i hi e he q q1 q2
    · rw [hkeep] at hq
      exact hI.memory u hu q hq

theorem streamOut_called {s : DbState} (hI : Core db bulk (cfgOf db streamerOf) s.book s.memory L a events) (hc : Chunked db bulk) {t : Tier} {n : Nat}
    {out : Option (Result × Option Dispatch)} {a' : AState} (hs : Step (cfgOf db streamerOf) a (.streamOut t n) a' out) (R' : Rel (cfgOf db streamerOf) book' a') :
    ∃ sent ev, Called db bulk (cfgOf db streamerOf) s L a events (.streamOut t n) book' out a' sent ev := by
  have hs0 := hs
  cases hs with
  | streamOut hss =>
  rename_i r d
  cases hss with
  | invalid h => exact ⟨none, [], ⟨hs0, rfl, fun _ => rfl, rfl, fun _ => trivial, hI.same R'⟩⟩
  | busy h1 h2 => exact ⟨none, [], ⟨hs0, rfl, fun _ => rfl, rfl, fun _ => trivial, hI.same R'⟩⟩
  | noFree h1 h2 => exact ⟨none, [], ⟨hs0, rfl, fun _ => rfl, rfl, fun _ => trivial, hI.same R'⟩⟩
  | done h1 h2 => exact ⟨none, [], ⟨hs0, rfl, fun _ => rfl, rfl, fun _ => trivial, hI.same R'⟩⟩
  | dispatched first count id flag ht hp h3 h4 h5 h6 h7 =>
    obtain ⟨m, m1, m2, m3, m4, m5, m6, -⟩ := sent_ok hc streamerOf (d := ⟨.streamOut, t, first, count, id, flag⟩) ht h3 h4
    dsimp only at m2 m3 m4 m5 m6
    have hti := tierIndex_lt ht
    have hto := tierOf_tierIndex ht
    have hstep : L.step (cfgOf db streamerOf) (.call (.streamOut t n)) (some m) =
        { keep := fun t q => if t = tierIndex m.tier ∧ m.action = .streamOut ∧ m.has q = true then false else L.keep t q
          inFlight := fun t => if t = tierIndex m.tier then some m else L.inFlight t } := rfl
    have hold : ∀ i, first ≤ i → i < first + count → usable a (tierIndex t) i = true := by
      intro i i1 i2
      rw [usable_none (by rw [hto]; exact hp), hto]
      exact h7 rfl i i1 i2
    have huse : ∀ u, u < 2 → ∀ i, usable { a with pending := fun u => if u = t then some ⟨.streamOut, first, count, id⟩ else a.pending u } u i =
        if u = tierIndex t ∧ first ≤ i ∧ i < first + count then false else usable a u i := by
      intro u hu i
      by_cases hut : tierOf u = t
      · have hux : u = tierIndex t := by rw [← hut, tierIndex_tierOf hu]
        rw [usable_out (p := ⟨.streamOut, first, count, id⟩) (by dsimp only; rw [if_pos hut]) rfl, usable_none (by rw [hut]; exact hp)]
        dsimp only
        by_cases hin : first ≤ i ∧ i < first + count
        · rw [if_pos ⟨hux, hin⟩, (covers_iff _ i).2 hin]; simp
        · rw [if_neg (fun hx => hin hx.2)]
          have : Pending.covers ⟨.streamOut, first, count, id⟩ i = false := by
            rw [← Bool.not_eq_true, covers_iff]; exact hin
          rw [this]; simp
      · rw [if_neg]
        · unfold usable
          dsimp only
          rw [if_neg hut]
        · rintro ⟨rfl, -⟩
          exact hut hto
    refine ⟨some m, chunkEvents false (tierIndex t) first count (s.memory (tierIndex t)), ⟨hs0, by show (sentOf db _).map some = _; rw [m1]; rfl, ?_, rfl, ?_, ?_⟩⟩
    · intro checks
      rw [if_neg (chunkEvents_ne h3)]
      rfl
    · intro _
      refine alternates_chunks _ _ _ _ _ _ fun i i1 i2 => ?_
      rw [hI.loaded _ hti, hold i i1 i2]
      rfl
    · refine ⟨R', legal_append hI.legal (legal_chunks hti fun i i1 i2 => (hI.hasChunk hc hti (hold i i1 i2)).1), fun u hu i => ?_, fun u hu => ?_,
        fun u hu i hi e he q q1 q2 => ?_, fun u hu q hq => ?_⟩
      · rw [loadedBy_append, loadedAfter_chunks, huse u hu, hI.loaded u hu]
      · rw [hstep]
        dsimp only
        rw [m3]
        by_cases hut : tierOf u = t
        · have hux : u = tierIndex t := by rw [← hut, tierIndex_tierOf hu]
          rw [if_pos hut, if_pos hux]
          exact ⟨m, rfl, m2, m4, by rw [hux]; exact m6⟩
        · rw [if_neg hut, if_neg]
          · exact hI.flight u hu
          · rintro rfl
            exact hut hto
      · rw [huse u hu] at hi
        split at hi
        · simp at hi
        · rename_i hout
          have hk := hI.kept u hu i hi e he q q1 q2
          rw [hstep]
          dsimp only
          rw [m3, if_neg, hk]
          rintro ⟨rfl, -, hhas⟩
          obtain ⟨⟨n', e', g1, g2, g3, -⟩, -⟩ := hI.hasChunk hc hu hi
          have := m6.outside i (fun hx => hout ⟨rfl, hx⟩) n' g1 g2 e he
          unfold Sent.has at hhas
          simp at hhas
          omega
      · rw [hstep] at hq
        dsimp only at hq
        split at hq
        · simp at hq
        · exact hI.memory u hu q hq

end Acl.DbStream
