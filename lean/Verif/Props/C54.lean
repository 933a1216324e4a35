import Verif.Database.StreamContextMain
import Verif.Props.C52
/-
C54: the streaming API of a database context and the decoder, together.
A context is initialized with streamers (initialize(allocator, database, medium streamer, low streamer)). After any history of
stream_in, stream_out, complete and cancel, interleaved with whatever the streamers write in their memory, the clips of the
database decode from the nearest key frames that are in memory: those of the clip itself, and those of the chunks that are
loaded and not being streamed out. All a streamer has to do is in `Promise`.
-/
namespace Acl.C54
open Acl.Streaming Acl.Streaming.Spec Acl.Runtime Acl.DbBuild Acl.Transform Acl.Seek.Spec Acl.DbStream Acl.Tiers

variable {xs : List Input} {outs : List (List (BitVec 8))} {db : List (BitVec 8)} {bulk : Nat → List (BitVec 8)} {place : Place}

/-- `C54_samples`, with the chunks that were registered and unregistered. -/
theorem run_samples (hc : Chunked db bulk) (hd : Decodes xs outs db bulk place) (hpl : ∀ k n t i, place k n = some (t, i) → t < 2)
    (streamerOf : Tier → Nat) (requests : Nat → List Request) (hf : FreshRequests requests) (memory : Nat → List (BitVec 8)) (checks : Bool)
    (ops : List DbOp) (hops : ∀ op ∈ calls ops, OpOk op) (s0 s : DbState) (h0 : dbInit db streamerOf requests memory = some s0)
    (hh : Honors checks db bulk (cfgOf db streamerOf) s0 Ledger.empty ops) (h : dbRun checks db (cfgOf db streamerOf) s0 ops = some s) :
    ∃ a ds events, Legal db bulk events ∧ streamed false db events = some s.headers ∧ Streaming.run (cfgOf db streamerOf) (Streaming.init (cfgOf db streamerOf) requests) (calls ops) = some (s.book, ds) ∧
      Run (cfgOf db streamerOf) AState.empty (calls ops) a ds ∧ C24.Observes (cfgOf db streamerOf) s.book a ∧
      Samples xs outs place (usable a) s.headers (bulkData s 0) (bulkData s 1) := by
  unfold dbInit at h0
  rw [Option.map_eq_some_iff] at h0
  obtain ⟨hd0, e1, rfl⟩ := h0
  have hs0 : streamed false db [] = some hd0 := by
    obtain ⟨h', g1, -⟩ := hd [] (fun e he => by simp at he)
    have : streamed false db [] = (openHeaders db).bind (applyEvents false db []) := rfl
    rw [e1, Option.bind_some] at this
    rw [this] at g1 ⊢
    rw [g1]
    unfold applyEvents at g1
    simp only [Option.bind_eq_some_iff] at g1
    obtain ⟨b, -, c, -, g⟩ := g1
    exact g.symm
  obtain ⟨a, L, events, ds, g1, g2, g3, g4⟩ := run_inv hc ops _ _ _ _ (Core.init db bulk streamerOf hf memory) hs0 hops hh s h
  exact ⟨a, ds, events, g3.legal, g4, g1, g2, C24.observes_of_rel (small_chunks hc streamerOf) g3.rel, g3.samples hc hd hpl g4⟩

/-- `run` of the bookkeeping (C24) and `dbRun` agree, the user observes what C24 says, and the clips decode from the key frames
that are in memory. `checks`: whether the asserts of the code are compiled in. -/
theorem C54_samples (hc : Chunked db bulk) (hd : Decodes xs outs db bulk place) (hpl : ∀ k n t i, place k n = some (t, i) → t < 2)
    (streamerOf : Tier → Nat) (requests : Nat → List Request) (hf : FreshRequests requests) (memory : Nat → List (BitVec 8)) (checks : Bool)
    (ops : List DbOp) (hops : ∀ op ∈ calls ops, OpOk op) (s0 s : DbState) (h0 : dbInit db streamerOf requests memory = some s0)
    (hh : Honors checks db bulk (cfgOf db streamerOf) s0 Ledger.empty ops) (h : dbRun checks db (cfgOf db streamerOf) s0 ops = some s) :
    ∃ a ds, Streaming.run (cfgOf db streamerOf) (Streaming.init (cfgOf db streamerOf) requests) (calls ops) = some (s.book, ds) ∧
      Run (cfgOf db streamerOf) AState.empty (calls ops) a ds ∧ C24.Observes (cfgOf db streamerOf) s.book a ∧
      Samples xs outs place (usable a) s.headers (bulkData s 0) (bulkData s 1) := by
  obtain ⟨a, ds, -, -, -, g⟩ := run_samples hc hd hpl streamerOf requests hf memory checks ops hops s0 s h0 hh h
  exact ⟨a, ds, g⟩

/-- Without asserts nothing fails, as long as the bookkeeping does not (see C24, C25 for when it does not). -/
theorem C54_total (hc : Chunked db bulk) (hd : Decodes xs outs db bulk place)
    (streamerOf : Tier → Nat) (requests : Nat → List Request) (hf : FreshRequests requests) (memory : Nat → List (BitVec 8)) :
    ∃ s0, dbInit db streamerOf requests memory = some s0 ∧ ∀ ops : List DbOp, (∀ op ∈ calls ops, OpOk op) →
      Honors false db bulk (cfgOf db streamerOf) s0 Ledger.empty ops →
      (Streaming.run (cfgOf db streamerOf) (Streaming.init (cfgOf db streamerOf) requests) (calls ops)).isSome →
      ∃ s, dbRun false db (cfgOf db streamerOf) s0 ops = some s := by
  obtain ⟨h', g1, -⟩ := hd [] (fun e he => by simp at he)
  have hst : streamed false db [] = (openHeaders db).bind (applyEvents false db []) := rfl
  cases e1 : openHeaders db with
  | none => rw [hst, e1] at g1; simp at g1
  | some hd0 =>
    refine ⟨⟨Streaming.init (cfgOf db streamerOf) requests, hd0, memory⟩, by unfold dbInit; rw [e1]; rfl, fun ops hops hh hrun => ?_⟩
    have hs0 : streamed false db [] = some hd0 := by
      rw [hst, e1, Option.bind_some] at g1 ⊢
      rw [g1]
      unfold applyEvents at g1
      simp only [Option.bind_eq_some_iff] at g1
      obtain ⟨b, -, c, -, g⟩ := g1
      exact g.symm
    exact Option.isSome_iff_exists.1 (run_total hc hd ops _ _ _ _ (Core.init db bulk streamerOf hf memory) hs0 hops hh hrun)

/-- With the asserts compiled in nothing fails either, if tiers are streamed out whole (see `C54_loads_again` for what can happen
otherwise). -/
theorem C54_asserts (hc : Chunked db bulk) (hd : Decodes xs outs db bulk place)
    (streamerOf : Tier → Nat) (requests : Nat → List Request) (hf : FreshRequests requests) (memory : Nat → List (BitVec 8)) (checks : Bool)
    (ops : List DbOp) (hops : ∀ op ∈ calls ops, OpOk op) (s0 : DbState) (h0 : dbInit db streamerOf requests memory = some s0)
    (hh : Honors checks db bulk (cfgOf db streamerOf) s0 Ledger.empty ops)
    (hw : C25.WholeTiers (cfgOf db streamerOf) (Streaming.init (cfgOf db streamerOf) requests) (calls ops)) :
    ∃ s, dbRun checks db (cfgOf db streamerOf) s0 ops = some s := by
  unfold dbInit at h0
  rw [Option.map_eq_some_iff] at h0
  obtain ⟨hd0, e1, rfl⟩ := h0
  have hs0 : streamed false db [] = some hd0 := by
    obtain ⟨h', g1, -⟩ := hd [] (fun e he => by simp at he)
    have : streamed false db [] = (openHeaders db).bind (applyEvents false db []) := rfl
    rw [e1, Option.bind_some] at this
    rw [this] at g1 ⊢
    rw [g1]
    unfold applyEvents at g1
    simp only [Option.bind_eq_some_iff] at g1
    obtain ⟨b, -, c, -, g⟩ := g1
    exact g.symm
  have hP : C25.Prefix (cfgOf db streamerOf) AState.empty := fun t => ⟨0, Nat.zero_le _, fun i => by simp [AState.empty], fun p hp => by simp [AState.empty] at hp⟩
  exact Option.isSome_iff_exists.1 (run_checked hc hd ops _ _ _ _ (Core.init db bulk streamerOf hf memory) hs0 trivial hP hops hh hw)

/-- What a streamer is asked for is a non empty range of the bulk data of its tier. -/
theorem C54_requests (hc : Chunked db bulk) (hd : Decodes xs outs db bulk place) (hpl : ∀ k n t i, place k n = some (t, i) → t < 2)
    (streamerOf : Tier → Nat) (requests : Nat → List Request) (hf : FreshRequests requests) (memory : Nat → List (BitVec 8)) (checks : Bool)
    (ops : List DbOp) (hops : ∀ op ∈ calls ops, OpOk op) (s0 s s' : DbState) (h0 : dbInit db streamerOf requests memory = some s0)
    (hh : Honors checks db bulk (cfgOf db streamerOf) s0 Ledger.empty ops) (h : dbRun checks db (cfgOf db streamerOf) s0 ops = some s)
    (op : Streaming.Op) (t : Tier) (n : Nat) (hop : op = .streamIn t n ∨ op = .streamOut t n) (m : Sent)
    (hm : dbStep checks db (cfgOf db streamerOf) s (.call op) = some (s', some m)) :
    t ≠ .highest ∧ m.tier = t ∧ (m.action = .streamIn ↔ op = .streamIn t n) ∧ 0 < m.size ∧ m.offset + m.size ≤ (bulk (tierIndex t)).length := by
  obtain ⟨a, ds, g1, g2, -, -⟩ := C54_samples hc hd hpl streamerOf requests hf memory checks ops hops s0 s h0 hh h
  obtain ⟨a', -, R⟩ := run_refines (small_chunks hc streamerOf) (calls ops) hops _ _ (rel_init _ requests hf) _ _ g1
  simp only [dbStep, Option.bind_eq_some_iff, Option.map_eq_some_iff, Prod.mk.injEq] at hm
  obtain ⟨⟨book', out⟩, h1, headers, h2, x, h3, -, rfl⟩ := hm
  have hok : OpOk op := by rcases hop with rfl | rfl <;> exact trivial
  obtain ⟨a'', hstep, -⟩ := step_refines R (small_chunks hc streamerOf) op hok book' out h1
  have main : ∀ {act : Action} {r : Result} {d : Option Dispatch} {a''}, StreamStep (cfgOf db streamerOf) a' act t n a'' r d →
      sentAfter db (some (r, d)) = some (some m) →
      t ≠ .highest ∧ m.tier = t ∧ m.action = act ∧ 0 < m.size ∧ m.offset + m.size ≤ (bulk (tierIndex t)).length := by
    intro act r d a'' hs hx
    cases hs with
    | invalid h => simp [sentAfter] at hx
    | busy h1 h2 => simp [sentAfter] at hx
    | noFree h1 h2 => simp [sentAfter] at hx
    | done h1 h2 => simp [sentAfter] at hx
    | dispatched first count id flag ht hp k3 k4 k5 k6 k7 =>
      obtain ⟨m', m1, m2, m3, m4, m5, m6, m7⟩ := sent_ok hc streamerOf (d := ⟨act, t, first, count, id, flag⟩) ht k3 k4
      have : sentAfter db (some (Result.dispatched, some ⟨act, t, first, count, id, flag⟩)) = (sentOf db ⟨act, t, first, count, id, flag⟩).map some := rfl
      rw [this, m1, Option.map_some, Option.some.injEq, Option.some.injEq] at hx
      subst hx
      exact ⟨ht, m3, m2, m7.1, m7.2⟩
  rcases hop with rfl | rfl
  · cases hstep with
    | streamIn hs =>
      obtain ⟨k1, k2, k3, k4⟩ := main hs h3
      exact ⟨k1, k2, ⟨fun _ => rfl, fun _ => k3⟩, k4⟩
  · cases hstep with
    | streamOut hs =>
      obtain ⟨k1, k2, k3, k4⟩ := main hs h3
      exact ⟨k1, k2, ⟨fun hc => (by rw [k3] at hc; simp at hc), fun hc => (by simp at hc)⟩, k4⟩

/-- From the clips: build_database, split_database_bulk_data, a context on the split database with streamers which hold the two
bulk data. -/
theorem C54_split {E : Type} [LinearOrder E] [OrderTop E] [Zero E] (value : BitVec 32 → E) (sort : List (Frame E) → List (Frame E)) (hsort : ∀ l, SortedFrames l (sort l))
    (metrics : Nat → List (SegmentMetric E)) (xs : List Input) (hne : xs ≠ []) (hx : ∀ (k : Nat) x, xs[k]? = some x → InputOk value (metrics k) x)
    (max wantLow wantMedium : Nat) (hfit : Fits xs max) (hmod : max % 4096 = 0) (hheaders : headersSize xs < 2 ^ 32) :
    ∃ outs content, buildContent value sort wantLow wantMedium max (xs.map (·.m)) = some (outs, content) ∧
      ((∀ m' ∈ outs, m'.length < 2 ^ 32) → databaseSize content < 2 ^ 32 →
        ∃ db place db' medium low, buildDatabase value sort wantLow wantMedium max (xs.map (·.m)) = some (some (outs, db)) ∧
          Placement xs wantLow wantMedium db place ∧ DbBuffer.split db = some (some (db', medium, low)) ∧
          ∀ (streamerOf : Tier → Nat) (requests : Nat → List Request), FreshRequests requests → ∀ (memory : Nat → List (BitVec 8)) (checks : Bool),
          ∃ s0, dbInit db' streamerOf requests memory = some s0 ∧ ∀ (ops : List DbOp), (∀ op ∈ calls ops, OpOk op) →
            Honors checks db' (fun t => if t = 0 then medium else low) (cfgOf db' streamerOf) s0 Ledger.empty ops →
            ∀ s, dbRun checks db' (cfgOf db' streamerOf) s0 ops = some s →
            ∃ a ds, Run (cfgOf db' streamerOf) AState.empty (calls ops) a ds ∧ C24.Observes (cfgOf db' streamerOf) s.book a ∧
              Samples xs outs place (usable a) s.headers (bulkData s 0) (bulkData s 1)) := by
  obtain ⟨outs, content, h1, -, h2⟩ := C52.C52_round_trip value sort hsort metrics xs hne hx max wantLow wantMedium hfit hmod hheaders
  refine ⟨outs, content, h1, fun hout hsize => ?_⟩
  obtain ⟨db, place, g1, -, -, g4, -, -, -, -, ⟨db', medium, low, g5, g6, g7, -⟩, -⟩ := h2 hout hsize
  refine ⟨db, place, db', medium, low, g1, g4, g5, fun streamerOf requests hf memory checks => ?_⟩
  have hpl : ∀ k n t i, place k n = some (t, i) → t < 2 := fun k n t i h => (g4.chunk k n t i h).1
  obtain ⟨s0, k1, -⟩ := C54_total g6 g7 streamerOf requests hf memory
  refine ⟨s0, k1, fun ops hops hh s hs => ?_⟩
  obtain ⟨a, ds, -, e2, e3, e4⟩ := C54_samples g6 g7 hpl streamerOf requests hf memory checks ops hops s0 s k1 hh hs
  exact ⟨a, ds, e2, e3, e4⟩

/-! ### Streamers which keep their promises -/

/-- Whatever the calls, as long as nothing is cancelled, a streamer which has the bulk data in memory and leaves it there keeps its
promises: the hypothesis `Honors` can be met by any such history. -/
theorem C54_honest_streamer (checks : Bool) (db : List (BitVec 8)) (bulk : Nat → List (BitVec 8)) (cfg : Cfg) (s : DbState) (L : Ledger) (ops : List Streaming.Op)
    (hops : ∀ op ∈ ops, ∀ k id, op ≠ .cancel k id) :
    Honors checks db bulk cfg s L (.write 0 (bulk 0) :: .write 1 (bulk 1) :: ops.map .call) := by
  have main : ∀ (ops : List Streaming.Op) (s : DbState) (L : Ledger), (∀ op ∈ ops, ∀ k id, op ≠ .cancel k id) → (∀ t, t < 2 → s.memory t = bulk t) →
      Honors checks db bulk cfg s L (ops.map .call) := by
    intro ops
    induction ops with
    | nil => intro s L _ _; exact trivial
    | cons op ops ih =>
      intro s L hops hm
      refine ⟨?_, fun s' sent h => ih s' _ (fun o ho => hops o (List.mem_cons_of_mem _ ho)) fun t ht => ?_⟩
      · cases op with
        | streamIn t n => exact trivial
        | streamOut t n => exact trivial
        | complete k id => intro t ht m _ _; rw [hm t ht]; exact ⟨Nat.le_refl _, fun q _ => rfl⟩
        | cancel k id => exact absurd rfl (hops _ (by simp) k id)
      · simp only [dbStep, Option.bind_eq_some_iff, Option.map_eq_some_iff, Prod.mk.injEq] at h
        obtain ⟨x, -, y, -, z, -, h4, -⟩ := h
        rw [← h4]
        exact hm t ht
  refine ⟨fun _ q _ => ⟨rfl, Nat.le_refl _⟩, fun s1 sent1 h1 => ⟨fun _ q _ => ⟨rfl, Nat.le_refl _⟩, fun s2 sent2 h2 => main ops s2 _ hops fun t ht => ?_⟩⟩
  rw [dbStep, Option.some.injEq, Prod.mk.injEq] at h1 h2
  rw [← h2.1, ← h1.1]
  rcases (show t = 0 ∨ t = 1 by omega) with rfl | rfl
  · rfl
  · rfl

/-! ### Chunks can be streamed in twice -/

/-- 64 chunks are streamed in, 40 of them out; the next stream_in asks for all 64 chunks, of which 24 are still loaded. When it is
completed these are registered again: the asserts "Tier metadata should not be initialized" (database_streamer.impl.h:108-116)
fail. Without asserts it does no harm: `C54_samples` holds of this history too. -/
theorem C54_loads_again :
    ∃ s ds, Streaming.run (C24.exCfg 64) (Streaming.init (C24.exCfg 64) C24.exReq)
        [.streamIn .medium 64, .complete 0 0, .streamOut .medium 40, .complete 0 (2 ^ 32 + 1), .streamIn .medium 64] = some (s, ds) ∧
      ds.getLast? = some ⟨.streamIn, .medium, 0, 64, 2 ^ 33, false⟩ ∧
      (List.range 64).map (bitsetTest (s.tier .medium).loaded) = (List.range 64).map fun i => some (decide (40 ≤ i)) := by
  refine ⟨_, _, rfl, ?_, ?_⟩ <;> decide +kernel

/-! ### An example -/
section Example
open C52

/-- The database of C52, split, with streamers which have the bulk data in memory. The one chunk of the medium tier is streamed in,
then that of the low tier; then the low tier is streamed out. Key frames 1 and 2 of the first clip are asked for: key frame 1 is in
the low tier. The asserts are compiled in, and none of them fails. -/
example : ((buildDatabase exValue exSort 1 1 4096 [exInput.m, exInput.m]).bind fun r => r.bind fun (outs, db) =>
    (DbBuffer.split db).bind fun x => x.bind fun (db', medium, low) =>
    (dbInit db' (fun _ => 0) C24.exReq (fun _ => [])).bind fun s0 =>
    let run := fun (ops : List Streaming.Op) =>
      (dbRun true db' (cfgOf db' fun _ => 0) s0 (.write 0 medium :: .write 1 low :: ops.map .call)).bind fun s =>
      (outs[0]?).bind fun m =>
      (seekDbContext (fun (_ : Nat × Nat × Nat) k n0 n1 => (k, n0, n1)) m s.headers (bulkData s 0) (bulkData s 1) false 1 2 (0, 0, 0) false .none).map (·.2)
    (run []).bind fun a => (run [.streamIn .medium 1]).bind fun b => (run [.streamIn .medium 1, .complete 0 0]).bind fun c =>
    (run [.streamIn .medium 1, .complete 0 0, .streamIn .lowest 5, .complete 0 (2 ^ 32 + 1)]).bind fun d =>
    (run [.streamIn .medium 1, .complete 0 0, .streamIn .lowest 5, .complete 0 (2 ^ 32 + 1), .streamOut .lowest 1]).map fun e => [a, b, c, d, e]) =
    some [(1, 0, 2), (1, 0, 2), (1, 0, 2), (1, 1, 2), (1, 0, 2)] := by
  decide +kernel

end Example

end Acl.C54
