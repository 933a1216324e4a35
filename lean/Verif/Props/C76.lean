import Verif.Database.StreamersMain
import Verif.Props.C54
/-
C76: a database context with the streamers the library ships.
A tier has a null streamer, whose bulk data is in memory, or a debug streamer, which copies the chunks when they are streamed in and
overwrites them when they are streamed out. A user makes any calls of stream_in and stream_out. Nothing is asked of the streamers:
what C54 assumes of a streamer is proved of these two.
-/
namespace Acl.C76
open Acl.Streaming Acl.Streaming.Spec Acl.Runtime Acl.DbBuild Acl.Transform Acl.Seek.Spec Acl.DbStream Acl.Tiers

variable {xs : List Input} {outs : List (List (BitVec 8))} {db : List (BitVec 8)} {bulk : Nat → List (BitVec 8)} {place : Place}

/-- What a user can see of the chunks that are loaded: nothing is ever being streamed when a call has returned. -/
structure Sees (db : List (BitVec 8)) (s : LibState) (loaded : Tier → Nat → Bool) : Prop where
  streaming : ∀ t, isStreaming (cfgOf db ownStreamer) s.db.book t = some false
  streamedIn : ∀ t, t ≠ .highest → ∃ b, isStreamedIn (cfgOf db ownStreamer) s.db.book t = some b ∧
    (b = true ↔ ∀ i, i < (cfgOf db ownStreamer).numChunks t → loaded t i = true)
  chunks : ∀ t i, i < (cfgOf db ownStreamer).numChunks t → bitsetTest (s.db.book.tier t).loaded i = some (loaded t i)

theorem sees_of_inv (hc : Chunked db bulk) {kinds : Nat → StreamerKind} {s : LibState} {L : Ledger} {a : AState} {events : List Runtime.Event}
    (hI : LibInv db bulk kinds s L a events) : Sees db s a.loaded := by
  have ho := C24.observes_of_rel (small_chunks hc ownStreamer) hI.core.rel
  refine ⟨fun t => ?_, ho.streamedIn, ho.loaded⟩
  by_cases ht : t = .highest
  · subst ht; rfl
  · rw [ho.streaming t ht, hI.idle]; rfl

/-- After any calls the clips decode from the nearest key frames that are in the clip or in chunks that are loaded, and each call
changed the chunks of one block, or nothing. -/
theorem C76_samples (hc : Chunked db bulk) (hd : Decodes xs outs db bulk place) (hpl : ∀ k n t i, place k n = some (t, i) → t < 2)
    (kinds : Nat → StreamerKind) (checks : Bool) (ops : List UserOp) (s0 s : LibState) (h0 : libInit db kinds bulk = some s0)
    (h : userRun checks db kinds bulk s0 ops = some s) :
    ∃ loaded, UserHistory (cfgOf db ownStreamer).numChunks (fun _ _ => false) ops loaded ∧ Sees db s loaded ∧
      Samples xs outs place (fun t i => loaded (tierOf t) i) s.db.headers (bulkData s.db 0) (bulkData s.db 1) := by
  obtain ⟨s0', e1, hI0⟩ := libInit_inv hd kinds
  rw [h0, Option.some.injEq] at e1
  subst e1
  obtain ⟨L, a, events, hI, hh⟩ := userRun_inv hc hd ops s0 _ _ _ hI0 s h
  refine ⟨a.loaded, hh, sees_of_inv hc hI, ?_⟩
  have hu : usable a = fun t i => a.loaded (tierOf t) i := by
    funext t i
    exact usable_none (hI.idle _) i
  rw [← hu]
  exact hI.core.samples hc hd hpl hI.headers

/-- What a call returns and does, after any calls. It is never refused because something is being streamed or because a streamer has
no request left. -/
theorem C76_results (hc : Chunked db bulk) (hd : Decodes xs outs db bulk place)
    (kinds : Nat → StreamerKind) (checks : Bool) (ops : List UserOp) (s0 s s' : LibState) (h0 : libInit db kinds bulk = some s0)
    (h : userRun checks db kinds bulk s0 ops = some s) (op : UserOp) (h' : userStep checks db kinds bulk s op = some s') :
    ∃ loaded loaded' r, Sees db s loaded ∧ resultOf db s op = some r ∧ UserSpec (cfgOf db ownStreamer).numChunks loaded op r loaded' ∧ Sees db s' loaded' ∧
      r ≠ .streamingInProgress ∧ r ≠ .noFreeStreamingRequests := by
  obtain ⟨s0', e1, hI0⟩ := libInit_inv hd kinds
  rw [h0, Option.some.injEq] at e1
  subst e1
  obtain ⟨L, a, events, hI, -⟩ := userRun_inv hc hd ops s0 _ _ _ hI0 s h
  obtain ⟨L', a', events', r, hI', k2, k3⟩ := user_inv hc hd hI h'
  refine ⟨a.loaded, a'.loaded, r, sees_of_inv hc hI, k2, k3, sees_of_inv hc hI', ?_, ?_⟩
  · rintro rfl
    generalize a'.loaded = l at k3
    cases k3
  · rintro rfl
    generalize a'.loaded = l at k3
    cases k3

/-- The memory of the streamers, after any calls. A null streamer allocates nothing and leaves the bulk data as it is. A debug
streamer has a copy of the bulk data as long as a chunk is loaded: the bytes of the chunks that are loaded, 0xCD elsewhere. -/
theorem C76_memory (hc : Chunked db bulk) (hd : Decodes xs outs db bulk place)
    (kinds : Nat → StreamerKind) (checks : Bool) (ops : List UserOp) (s0 s : LibState) (h0 : libInit db kinds bulk = some s0)
    (h : userRun checks db kinds bulk s0 ops = some s) :
    ∃ loaded, Sees db s loaded ∧ ∀ t, t < 2 →
      (∀ mem, bulkData s.db t = some mem ↔ mem = s.db.memory t ∧ ∃ i, loaded (tierOf t) i = true) ∧
      (kinds t = .null → s.allocated t = false ∧ s.db.memory t = bulk t) ∧
      (kinds t = .debug → (s.allocated t = true ↔ ∃ i, loaded (tierOf t) i = true) ∧ (s.allocated t = false → s.db.memory t = []) ∧
        (s.allocated t = true → (s.db.memory t).length = (bulk t).length ∧ ∀ q, q < (bulk t).length →
          ((∃ i, loaded (tierOf t) i = true ∧ InChunk db t i q) → (s.db.memory t)[q]? = (bulk t)[q]?) ∧
          ((¬ ∃ i, loaded (tierOf t) i = true ∧ InChunk db t i q) → (s.db.memory t)[q]? = some 0xCD#8))) := by
  obtain ⟨s0', e1, hI0⟩ := libInit_inv hd kinds
  rw [h0, Option.some.injEq] at e1
  subst e1
  obtain ⟨L, a, events, hI, -⟩ := userRun_inv hc hd ops s0 _ _ _ hI0 s h
  refine ⟨a.loaded, sees_of_inv hc hI, fun t ht => ⟨fun mem => ?_, fun hk => ?_, fun hk => ?_⟩⟩
  · rw [← hI.pointer t ht]
    unfold bulkData
    split
    · rename_i hb
      rw [Option.some.injEq]
      exact ⟨fun e => ⟨e.symm, hb⟩, fun e => e.1.symm⟩
    · rename_i hb
      exact ⟨fun e => by simp at e, fun e => absurd e.2 hb⟩
  · exact ⟨(hI.null t ht hk).2, (hI.null t ht hk).1⟩
  · obtain ⟨y1, y2, y3⟩ := hI.debug t ht hk
    refine ⟨by rw [y1]; exact hI.pointer t ht, y2, fun hal => ⟨(y3 hal).1, fun q hq => ⟨?_, fun hn => ?_⟩⟩⟩
    · rintro ⟨i, hi, e, e1, e2, e3⟩
      have hu : usable a t i = true := by rw [usable_none (hI.idle _)]; exact hi
      exact (hI.core.memory t ht q (hI.core.kept t ht i hu e e1 q e2 e3)).1
    · refine (y3 hal).2 q hq ?_
      cases hkq : L.keep t q with
      | false => rfl
      | true => exact absurd (hI.keepIn t ht q hkq) hn

/-- The streamers never fail: no assert of theirs, no write through a null pointer, no copy that leaks. After any calls, a call succeeds
if the bookkeeping of the context does; stream_in always does. -/
theorem C76_total (hc : Chunked db bulk) (hd : Decodes xs outs db bulk place)
    (kinds : Nat → StreamerKind) (checks : Bool) (ops : List UserOp) (s0 s : LibState) (h0 : libInit db kinds bulk = some s0)
    (h : userRun checks db kinds bulk s0 ops = some s) (op : UserOp) :
    ((userStep false db kinds bulk s op).isSome ↔ (Streaming.step (cfgOf db ownStreamer) s.db.book op.call).isSome) ∧
    (op.action = .streamIn → (userStep false db kinds bulk s op).isSome) := by
  obtain ⟨s0', e1, hI0⟩ := libInit_inv hd kinds
  rw [h0, Option.some.injEq] at e1
  subst e1
  obtain ⟨L, a, events, hI, -⟩ := userRun_inv hc hd ops s0 _ _ _ hI0 s h
  have main : (userStep false db kinds bulk s op).isSome ↔ (Streaming.step (cfgOf db ownStreamer) s.db.book op.call).isSome := by
    cases hst : Streaming.step (cfgOf db ownStreamer) s.db.book op.call with
    | none =>
      have hn : dbStep false db (cfgOf db ownStreamer) s.db (.call op.call) = none := by
        rw [dbStep, hst]
        rfl
      unfold userStep
      rw [hn]
      simp
    | some x =>
      obtain ⟨s2, L', a', events', r, k1, -⟩ := user_total (checks := false) hc hd hI op (fun h => by simp at h) hst
      rw [k1]
      simp
  refine ⟨main, fun ha => main.2 ?_⟩
  cases op with
  | streamIn t n =>
    obtain ⟨s', r, d, a', e, -⟩ := streamIn_refines hI.core.rel (small_chunks hc ownStreamer) t n
    show ((streamIn _ _ _ _).map _).isSome
    rw [e]
    rfl
  | streamOut t n => simp [UserOp.action] at ha

/-- A user who streams in at least one chunk at a time and only streams out whole tiers that are streamed in. -/
def WholeUse (checks : Bool) (db : List (BitVec 8)) (kinds : Nat → StreamerKind) (bulk : Nat → List (BitVec 8)) : LibState → List UserOp → Prop
  | _, [] => True
  | s, op :: ops => (match op with
      | .streamIn _ n => 1 ≤ n
      | .streamOut t n => isStreamedIn (cfgOf db ownStreamer) s.db.book t = some true ∧ (cfgOf db ownStreamer).numChunks t ≤ n) ∧
    ∀ s', userStep checks db kinds bulk s op = some s' → WholeUse checks db kinds bulk s' ops

theorem whole_inv (hc : Chunked db bulk) (hd : Decodes xs outs db bulk place) (kinds : Nat → StreamerKind) (checks : Bool) :
    ∀ (ops : List UserOp) (s : LibState) (L : Ledger) (a : AState) (events : List Runtime.Event), LibInv db bulk kinds s L a events →
    (Alternates events fun _ _ => false) → C25.Prefix (cfgOf db ownStreamer) a → WholeUse checks db kinds bulk s ops →
    ∃ s' L' a' events', userRun checks db kinds bulk s ops = some s' ∧ LibInv db bulk kinds s' L' a' events' ∧ C25.Prefix (cfgOf db ownStreamer) a' := by
  intro ops
  induction ops with
  | nil => intro s L a events hI _ hp _; exact ⟨s, L, a, events, rfl, hI, hp⟩
  | cons op ops ih =>
    intro s L a events hI halt hp hw
    obtain ⟨hw1, hw2⟩ := hw
    have hwhole : C25.Whole (cfgOf db ownStreamer) s.db.book op.call := by cases op <;> exact hw1
    obtain ⟨book', out, a1, e1, -, -⟩ := C25.prefix_step hI.core.rel (small_chunks hc ownStreamer) hp op.call (userOp_ok op) hwhole
    obtain ⟨s1, L1, a1, ev1, r, k1, k2, -, -, k5, -⟩ := user_total (checks := true) hc hd hI op (fun _ => ⟨halt, hp, hwhole⟩) e1
    have hk : userStep checks db kinds bulk s op = some s1 := by
      cases checks with
      | true => exact k1
      | false => exact userStep_release k1
    obtain ⟨s2, L2, a2, ev2, g1, g2, g3⟩ := ih s1 L1 a1 ev1 k2 (k5 rfl).1 (k5 rfl).2 (hw2 s1 hk)
    exact ⟨s2, L2, a2, ev2, by rw [userRun, hk, Option.bind_some]; exact g1, g2, g3⟩

theorem prefix_empty (db : List (BitVec 8)) : C25.Prefix (cfgOf db ownStreamer) AState.empty :=
  fun _ => ⟨0, Nat.zero_le _, fun i => by simp [AState.empty], fun p hp => by simp [AState.empty] at hp⟩

/-- Such a user never meets a failure, even with the asserts of the library compiled in; and when stream_in reports `done` the tier is
streamed in. -/
theorem C76_whole (hc : Chunked db bulk) (hd : Decodes xs outs db bulk place) (kinds : Nat → StreamerKind) (checks : Bool) :
    ∃ s0, libInit db kinds bulk = some s0 ∧ ∀ ops, WholeUse checks db kinds bulk s0 ops →
      ∃ s, userRun checks db kinds bulk s0 ops = some s ∧ ∀ t, t ≠ .highest → ∀ n, 1 ≤ n →
        (resultOf db s (.streamIn t n) = some .done ↔ isStreamedIn (cfgOf db ownStreamer) s.db.book t = some true) ∧
        (isStreamedIn (cfgOf db ownStreamer) s.db.book t = some false → (cfgOf db ownStreamer).numChunks t ≤ n →
          ∃ s', userStep checks db kinds bulk s (.streamIn t n) = some s' ∧ isStreamedIn (cfgOf db ownStreamer) s'.db.book t = some true) := by
  obtain ⟨s0, h0, hI0⟩ := libInit_inv hd kinds
  refine ⟨s0, h0, fun ops hw => ?_⟩
  have hN := small_chunks hc ownStreamer
  obtain ⟨s, L, a, events, g1, g2, g3⟩ := whole_inv hc hd kinds checks ops s0 _ _ _ hI0 trivial (prefix_empty db) hw
  refine ⟨s, g1, fun t ht n hn => ?_⟩
  obtain ⟨b, b1, b2⟩ := isStreamedIn_eq g2.core.rel hN t ht
  obtain ⟨mm, m1, m2, -⟩ := g3 t
  have hb : b = true ↔ mm = (cfgOf db ownStreamer).numChunks t := by
    rw [b2]
    constructor
    · intro h
      by_contra hne
      have := h mm (by omega)
      rw [m2] at this
      simp at this
    · intro h i hi
      rw [m2]
      simp
      omega
  have hres : ∀ s1 r d, streamIn (cfgOf db ownStreamer) s.db.book t n = some (s1, r, d) → resultOf db s (.streamIn t n) = some r := by
    intro s1 r d e
    unfold resultOf
    have : Streaming.step (cfgOf db ownStreamer) s.db.book (UserOp.streamIn t n).call = some (s1, some (r, d)) := by
      show (streamIn _ _ _ _).map _ = _
      rw [e]
      rfl
    rw [this]
    rfl
  have hcases := C25.streamIn_cases g2.core.rel hN t n ht (g2.idle t) hn
  have hfirst : ∀ first, findFirstPending (s.db.book.tier t).loaded 0 = some first → first = mm := fun first h => C25.pending_prefix g2.core.rel t mm first m2 h
  have hnone : findFirstPending (s.db.book.tier t).loaded 0 = none → mm = (cfgOf db ownStreamer).numChunks t := by
    intro hno
    by_contra hne
    have hlen := g2.core.rel.lenL t
    have hle := bitsetSize_le ((cfgOf db ownStreamer).numChunks t)
    have h31 := findFirstPending_none _ _ hno (mm / 32) (by omega)
    rw [g2.core.rel.bitL, m2] at h31
    simp at h31
    omega
  have hdone : resultOf db s (.streamIn t n) = some .done ↔ mm = (cfgOf db ownStreamer).numChunks t := by
    rcases hcases with ⟨c1, c2⟩ | ⟨first, c1, -, c3⟩
    · exact ⟨fun _ => hnone c1, fun _ => hres _ _ _ c2⟩
    · rw [hfirst first c1] at c3
      rcases c3 with ⟨c3, c4⟩ | ⟨c3, c4⟩
      · exact ⟨fun _ => c3, fun _ => hres _ _ _ c4⟩
      · refine ⟨fun hr => ?_, fun h => by omega⟩
        exfalso
        rcases c4 with c4 | ⟨s1, d, c4, -⟩
        · rw [hres _ _ _ c4] at hr; simp at hr
        · rw [hres _ _ _ c4] at hr; simp at hr
  refine ⟨?_, fun hnot hall => ?_⟩
  · rw [b1, Option.some.injEq, hb]
    exact hdone
  · rw [b1, Option.some.injEq] at hnot
    have hlt : mm < (cfgOf db ownStreamer).numChunks t := by
      by_contra hge
      have := hb.2 (by omega)
      rw [hnot] at this
      simp at this
    obtain ⟨s', L', a', events', k1, k2, k3⟩ := whole_inv hc hd kinds checks (ops ++ [.streamIn t n]) s0 _ _ _ hI0 trivial (prefix_empty db) (by
      have : ∀ (ops : List UserOp) (s0 s : LibState), WholeUse checks db kinds bulk s0 ops → WholeUse checks db kinds bulk s0 (ops ++ [.streamIn t n]) := by
        intro ops
        induction ops with
        | nil => intro _ _ _; exact ⟨hn, fun _ _ => trivial⟩
        | cons op ops ih => intro s0 s hw; exact ⟨hw.1, fun s' hs' => ih s' s (hw.2 s' hs')⟩
      exact this ops s0 s hw)
    have happ : ∀ (ops : List UserOp) (s0 s : LibState), userRun checks db kinds bulk s0 ops = some s →
        userRun checks db kinds bulk s0 (ops ++ [.streamIn t n]) = userStep checks db kinds bulk s (.streamIn t n) := by
      intro ops
      induction ops with
      | nil =>
        intro s0 s h
        rw [userRun, Option.some.injEq] at h
        subst h
        rw [List.nil_append, userRun]
        cases userStep checks db kinds bulk s0 (.streamIn t n) <;> rfl
      | cons op ops ih =>
        intro s0 s h
        rw [userRun, Option.bind_eq_some_iff] at h
        obtain ⟨s1, h1, h2⟩ := h
        rw [List.cons_append, userRun, h1, Option.bind_some]
        exact ih s1 s h2
    rw [happ ops s0 s g1] at k1
    refine ⟨s', k1, ?_⟩
    obtain ⟨mm', n1, n2, -⟩ := k3 t
    -- the block that was streamed in
    have hst : ∃ s1 d, streamIn (cfgOf db ownStreamer) s.db.book t n = some (s1, .dispatched, some d) ∧ d.first = mm ∧ d.count = min n ((cfgOf db ownStreamer).numChunks t - mm) := by
      rcases hcases with ⟨c1, -⟩ | ⟨first, c1, -, c3⟩
      · have := hnone c1; omega
      · have hfm := hfirst first c1
        rcases c3 with ⟨c3, -⟩ | ⟨-, c4⟩
        · omega
        · rcases c4 with c4 | ⟨s1, d, c4, c5, c6⟩
          · exact absurd rfl (streamIn_book g2.core.rel hN g2.idle c4).2.1
          · exact ⟨s1, d, c4, by rw [c5, hfm], by rw [c6, hfm]⟩
    obtain ⟨s1, d, c4, c5, c6⟩ := hst
    have hstep : Streaming.step (cfgOf db ownStreamer) s.db.book (UserOp.streamIn t n).call = some (s1, some (.dispatched, some d)) := by
      show (streamIn _ _ _ _).map _ = _
      rw [c4]
      rfl
    obtain ⟨s2, L2, a2, ev2, r, q1, q2, -, q4, -, q6⟩ := user_total (checks := false) hc hd g2 (.streamIn t n) (fun h => by simp at h) hstep
    rw [userStep_release k1, Option.some.injEq] at q1
    subst q1
    have hdt : d.tier = t ∧ d.action = .streamIn := by
      obtain ⟨s3, r3, d3, a3, e1, e2, -⟩ := streamIn_refines g2.core.rel hN t n
      rw [c4, Option.some.injEq, Prod.mk.injEq, Prod.mk.injEq] at e1
      obtain ⟨-, rfl, rfl⟩ := e1
      cases e2
      exact ⟨rfl, rfl⟩
    obtain ⟨b', b1', b2'⟩ := isStreamedIn_eq q2.core.rel hN t ht
    rw [b1', Option.some.injEq, b2']
    intro i hi
    rw [q6 _ _ rfl]
    split
    · rw [hdt.2]; rfl
    · rename_i hx
      rw [hdt.1, c5, c6] at hx
      rw [m2, decide_eq_true_eq]
      by_contra hge
      exact hx ⟨rfl, by omega, by rw [Nat.min_eq_right (by omega)]; omega⟩

/-- From the clips: build_database, split_database_bulk_data, a context on the split database with streamers of the library which
have the two bulk data. -/
theorem C76_split {E : Type} [LinearOrder E] [OrderTop E] [Zero E] (value : BitVec 32 → E) (sort : List (Frame E) → List (Frame E)) (hsort : ∀ l, SortedFrames l (sort l))
    (metrics : Nat → List (SegmentMetric E)) (xs : List Input) (hne : xs ≠ []) (hx : ∀ (k : Nat) x, xs[k]? = some x → InputOk value (metrics k) x)
    (max wantLow wantMedium : Nat) (hfit : Fits xs max) (hmod : max % 4096 = 0) (hheaders : headersSize xs < 2 ^ 32) :
    ∃ outs content, buildContent value sort wantLow wantMedium max (xs.map (·.m)) = some (outs, content) ∧
      ((∀ m' ∈ outs, m'.length < 2 ^ 32) → databaseSize content < 2 ^ 32 →
        ∃ db place db' medium low, buildDatabase value sort wantLow wantMedium max (xs.map (·.m)) = some (some (outs, db)) ∧
          Placement xs wantLow wantMedium db place ∧ DbBuffer.split db = some (some (db', medium, low)) ∧
          ∀ (kinds : Nat → StreamerKind) (checks : Bool), ∃ s0, libInit db' kinds (fun t => if t = 0 then medium else low) = some s0 ∧ ∀ (ops : List UserOp),
            ∀ s, userRun checks db' kinds (fun t => if t = 0 then medium else low) s0 ops = some s →
            ∃ loaded, UserHistory (cfgOf db' ownStreamer).numChunks (fun _ _ => false) ops loaded ∧ Sees db' s loaded ∧
              Samples xs outs place (fun t i => loaded (tierOf t) i) s.db.headers (bulkData s.db 0) (bulkData s.db 1)) := by
  obtain ⟨outs, content, h1, -, h2⟩ := C52.C52_round_trip value sort hsort metrics xs hne hx max wantLow wantMedium hfit hmod hheaders
  refine ⟨outs, content, h1, fun hout hsize => ?_⟩
  obtain ⟨db, place, g1, -, -, g4, -, -, -, -, ⟨db', medium, low, g5, g6, g7, -⟩, -⟩ := h2 hout hsize
  refine ⟨db, place, db', medium, low, g1, g4, g5, fun kinds checks => ?_⟩
  have hpl : ∀ k n t i, place k n = some (t, i) → t < 2 := fun k n t i h => (g4.chunk k n t i h).1
  obtain ⟨s0, k1, -⟩ := libInit_inv g7 kinds
  exact ⟨s0, k1, fun ops s hs => C76_samples g6 g7 hpl kinds checks ops s0 s k1 hs⟩

/-! ### An example -/
section Example
open C52

/-- The database of C52, split, with a debug streamer for the medium tier and a null streamer for the low tier. The medium tier is
streamed in, then the low tier, then the medium tier is streamed out: the key frames that are used for key frames 1 and 2 of the first
clip (key frame 1 is in the low tier), whether the debug streamer has allocated its copy, whether it has the size of the bulk data, whether the null streamer has
allocated anything, and whether stream_in has nothing to do for the medium tier. The
asserts are compiled in, and none of them fails. -/
example : ((buildDatabase exValue exSort 1 1 4096 [exInput.m, exInput.m]).bind fun r => r.bind fun (outs, db) =>
    (DbBuffer.split db).bind fun x => x.bind fun (db', medium, low) =>
    let kinds : Nat → StreamerKind := fun t => if t = 0 then .debug else .null
    let bulk := fun t => if t = 0 then medium else low
    (libInit db' kinds bulk).bind fun s0 =>
    let run := fun (ops : List UserOp) =>
      (userRun true db' kinds bulk s0 ops).bind fun s =>
      (outs[0]?).bind fun m =>
      (seekDbContext (fun (_ : Nat × Nat × Nat) k n0 n1 => (k, n0, n1)) m s.db.headers (bulkData s.db 0) (bulkData s.db 1) false 1 2 (0, 0, 0) false .none).map fun y =>
        (y.2, [s.allocated 0, decide ((s.db.memory 0).length = medium.length), s.allocated 1, decide (resultOf db' s (.streamIn .medium 3) = some .done)])
    (run []).bind fun a => (run [.streamIn .medium 1]).bind fun b =>
    (run [.streamIn .medium 1, .streamIn .lowest 5]).bind fun c =>
    (run [.streamIn .medium 1, .streamIn .lowest 5, .streamOut .medium 1]).map fun d => [a, b, c, d]) =
    some [((1, 0, 2), [false, false, false, false]), ((1, 0, 2), [true, true, false, true]),
      ((1, 1, 2), [true, true, false, true]), ((1, 1, 2), [false, false, false, false])] := by
  decide +kernel

end Example

end Acl.C76
