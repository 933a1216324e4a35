import Verif.Database.StreamingRefine
/-!
C24: a streaming request covers one contiguous in range block of chunks, and completing it changes exactly
those chunks. The specification is the small machine of Verif/Database/StreamingSpec.lean: per tier a set of
loaded chunks and at most one request in flight.
-/
namespace Acl.C24
open Acl.Streaming Acl.Streaming.Spec

/-- What the API lets a user observe agrees with the specification state: `is_streaming`,
`is_streamed_in`, and the chunks whose key frames the decoder can use. -/
structure Observes (cfg : Cfg) (s : State) (a : AState) : Prop where
  streaming : ∀ t, t ≠ .highest → isStreaming cfg s t = some (a.pending t).isSome
  streamedIn : ∀ t, t ≠ .highest → ∃ b, isStreamedIn cfg s t = some b ∧
    (b = true ↔ ∀ i, i < cfg.numChunks t → a.loaded t i = true)
  loaded : ∀ t i, i < cfg.numChunks t → bitsetTest (s.tier t).loaded i = some (a.loaded t i)
  /-- the decoder uses exactly the loaded chunks that are not being streamed out -/
  usable : ∀ t i, (s.tier t).registered i = true ↔
    a.loaded t i = true ∧ ¬ ∃ p, a.pending t = some p ∧ p.action = .streamOut ∧ p.covers i = true
  /-- and their bulk data is still there -/
  present : ∀ t i, (s.tier t).registered i = true → (s.tier t).bulk = true

theorem observes_of_rel {cfg : Cfg} {s : State} {a : AState} (hN : SmallChunks cfg) (R : Rel cfg s a) :
    Observes cfg s a where
  streaming t ht := isStreaming_eq R hN t ht
  streamedIn t ht := isStreamedIn_eq R hN t ht
  loaded t i hi := by
    have := R.lenL t
    have := bitsetSize_le (cfg.numChunks t)
    rw [bitsetTest_eq _ _ (by omega), R.bitL]
  usable t i := by
    rw [R.reg t i]
    cases hp : a.pending t with
    | none => simp
    | some p =>
      cases hact : p.action
      · have hne : (Action.streamIn == Action.streamOut) = false := by decide
        simp [hact, hne]
      · simp [hact]
  present t i := R.bulk t i

/-- Whatever the history of `stream_in`, `stream_out`, `complete` and `cancel` calls on any number of
streamers, the context behaves as the specification: each request is one contiguous non empty block inside
the tier, nothing is issued while a request is in flight, completing changes exactly the chunks of the
request, and the queries answer accordingly. -/
theorem C24_refines_specification (cfg : Cfg) (requests : Nat → List Request) (hN : SmallChunks cfg)
    (hf : FreshRequests requests) (ops : List Op) (hops : ∀ op ∈ ops, OpOk op) (s : State) (ds : List Dispatch)
    (h : run cfg (init cfg requests) ops = some (s, ds)) :
    ∃ a, Run cfg AState.empty ops a ds ∧ Observes cfg s a := by
  obtain ⟨a, hr, R⟩ := run_refines hN ops hops _ _ (rel_init cfg requests hf) s ds h
  exact ⟨a, hr, observes_of_rel hN R⟩

/-- Every request sent to a streamer is a non empty contiguous range of chunks of its tier, never of the
highest tier. -/
theorem C24_requests_in_range (cfg : Cfg) (requests : Nat → List Request) (hN : SmallChunks cfg)
    (hf : FreshRequests requests) (ops : List Op) (hops : ∀ op ∈ ops, OpOk op) (s : State) (ds : List Dispatch)
    (h : run cfg (init cfg requests) ops = some (s, ds)) :
    ∀ d ∈ ds, d.tier ≠ .highest ∧ 1 ≤ d.count ∧ d.first + d.count ≤ cfg.numChunks d.tier := by
  obtain ⟨a, hr, -⟩ := run_refines hN ops hops _ _ (rel_init cfg requests hf) s ds h
  have stream : ∀ {a act t n a' r d}, StreamStep cfg a act t n a' r (some d) →
      d.tier ≠ .highest ∧ 1 ≤ d.count ∧ d.first + d.count ≤ cfg.numChunks d.tier := by
    intro a act t n a' r d hs
    cases hs with
    | dispatched first count id flag h1 h2 h3 h4 h5 h6 h7 => exact ⟨h1, h3, h4⟩
  clear h hops
  generalize AState.empty = a0 at hr
  induction hr with
  | nil a => simp
  | cons hs _ ih =>
    intro d hd
    rw [List.mem_append] at hd
    rcases hd with hd | hd
    · cases hs with
      | streamIn hs => rename_i t n r dd; cases dd with
        | none => simp at hd
        | some d' => simp at hd; subst hd; exact stream hs
      | streamOut hs => rename_i t n r dd; cases dd with
        | none => simp at hd
        | some d' => simp at hd; subst hd; exact stream hs
      | complete => simp at hd
      | cancel => simp at hd
    · exact ih d hd

/-- `stream_in` has no undefined behaviour after any history. -/
theorem C24_stream_in_total (cfg : Cfg) (requests : Nat → List Request) (hN : SmallChunks cfg)
    (hf : FreshRequests requests) (ops : List Op) (hops : ∀ op ∈ ops, OpOk op) (s : State) (ds : List Dispatch)
    (h : run cfg (init cfg requests) ops = some (s, ds)) (t : Tier) (n : Nat) :
    (streamIn cfg s t n).isSome := by
  obtain ⟨a, _, R⟩ := run_refines hN ops hops _ _ (rel_init cfg requests hf) s ds h
  obtain ⟨s', r, d, a', e, _, _⟩ := streamIn_refines R hN t n
  simp [e]

/-- While a request is in flight for a tier, `stream_in` and `stream_out` on that tier are refused and
change nothing at all. -/
theorem C24_no_second_request (cfg : Cfg) (s : State) (t : Tier) (n : Nat) (ht : t ≠ .highest)
    (h : isStreaming cfg s t = some true) :
    streamIn cfg s t n = some (s, .streamingInProgress, none) ∧
    streamOut cfg s t n = some (s, .streamingInProgress, none) := by
  constructor
  · unfold streamIn; simp [ht, h]
  · unfold streamOut; simp [ht, h]

/-- The streamer is told it may free the bulk data only when no chunk the decoder can still use remains. -/
theorem C24_deallocation_safe (cfg : Cfg) (requests : Nat → List Request) (hN : SmallChunks cfg)
    (hf : FreshRequests requests) (ops : List Op) (hops : ∀ op ∈ ops, OpOk op) (s : State) (ds : List Dispatch)
    (h : run cfg (init cfg requests) ops = some (s, ds)) (t : Tier) (n : Nat) (s' : State) (r : Result)
    (d : Dispatch) (ho : streamOut cfg s t n = some (s', r, some d)) (hflag : d.bulkFlag = true) :
    ∀ i, (s'.tier t).registered i = false := by
  obtain ⟨a, _, R⟩ := run_refines hN ops hops _ _ (rel_init cfg requests hf) s ds h
  obtain ⟨a', _, R'⟩ := streamOut_refines R hN t n s' r (some d) ho
  have hb : (s'.tier t).bulk = false := by
    unfold streamOut at ho
    by_cases ht : t = .highest
    · simp [ht] at ho
    · rw [isStreaming_eq R hN t ht] at ho
      simp only [if_neg ht, Option.bind_eq_bind, Option.bind_some, Option.pure_def] at ho
      cases hp : a.pending t with
      | some p => simp [hp] at ho
      | none =>
        simp only [hp, Option.isSome_none, Bool.false_eq_true, if_false] at ho
        cases hfl : findFirstLoaded (s.tier t).loaded 0 with
        | none => simp [hfl] at ho
        | some first =>
          simp only [hfl] at ho
          generalize numStreaming first n (cfg.numChunks t) = count at ho
          by_cases hc : count = 0
          · simp [hc] at ho
          · rw [if_neg hc] at ho
            cases hbr : buildRequest (s.streamer (cfg.streamerOf t)) .streamOut t first count with
            | none => rw [hbr] at ho; simp at ho
            | some x =>
              obtain ⟨id, st'⟩ := x
              rw [hbr] at ho
              simp only [Option.bind_some] at ho
              generalize invalidRequestId = inv at ho
              by_cases hid : id = inv
              · simp [hid] at ho
              · rw [if_neg hid] at ho
                cases hsr : bitsetSetRange (s.tier t).streaming first count true with
                | none => rw [hsr] at ho; simp at ho
                | some m =>
                  rw [hsr] at ho
                  simp only [Option.bind_some] at ho
                  cases hct : bitsetCount (s.tier t).loaded (bitsetSize (cfg.numChunks t)) with
                  | none => rw [hct] at ho; simp at ho
                  | some c =>
                    rw [hct] at ho
                    simp only [Option.bind_some] at ho
                    cases hu : unregister { (s.tier t) with streaming := m } first count with
                    | none => rw [hu] at ho; simp at ho
                    | some ts =>
                      rw [hu] at ho
                      simp only [Option.bind_some, Option.some.injEq, Prod.mk.injEq] at ho
                      obtain ⟨rfl, rfl, rfl⟩ := ho
                      simp only [updTier, if_true]
                      simp only at hflag
                      rw [hflag]; rfl
  intro i
  cases hri : (s'.tier t).registered i with
  | false => rfl
  | true => rw [R'.bulk t i hri] at hb; simp at hb

/-- The configuration used by the examples: `n` chunks in each tier, one streamer with two requests. -/
def exCfg (n : Nat) : Cfg := ⟨fun _ => n, fun _ => 0⟩
def exReq : Nat → List Request := fun _ => [{}, {}]

theorem ex_fresh : FreshRequests exReq := by
  intro k
  refine ⟨by simp [exReq], by simp [exReq], ?_⟩
  intro r hr
  simp [exReq] at hr
  rw [hr]

/-- the observable part of an outcome: dispatches and which of the first `n` chunks are loaded -/
def summary (n : Nat) (t : Tier) (x : Option (State × List Dispatch)) : Option (List Dispatch × List (Option Bool)) :=
  x.map (fun (s, ds) => (ds, (List.range n).map (bitsetTest (s.tier t).loaded)))

/-- Hypotheses are met by a real history: two partial requests, one cancelled, one completed. -/
example : summary 3 .medium (run (exCfg 3) (init (exCfg 3) exReq)
    [.streamIn .medium 2, .complete 0 0, .streamIn .medium 5, .cancel 0 (2^32 + 1)]) =
    some ([⟨.streamIn, .medium, 0, 2, 0, true⟩, ⟨.streamIn, .medium, 2, 1, 2^32 + 1, false⟩],
      [some true, some true, some false]) := by decide

/-- The bound "at most the requested count" needs a request of at least one chunk: asking for zero chunks
of an empty tier streams the whole tier. -/
theorem C24_zero_count_streams_all :
    (streamIn (exCfg 3) (init (exCfg 3) exReq) .lowest 0).map (fun x => x.2) =
      some (.dispatched, some ⟨.streamIn, .lowest, 0, 3, 0, true⟩) := by decide

end Acl.C24
