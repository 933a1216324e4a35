import Verif.Props.C24
/-!
C26: streaming request identifiers are not confused. `sentTo` is what a streamer observes.
-/
namespace Acl.C26
open Acl.Streaming Acl.Streaming.Spec

/-- The requests sent to streamer `k`, in order. -/
def sentTo (cfg : Cfg) (k : Nat) (ds : List Dispatch) : List Dispatch :=
  ds.filter (fun d => cfg.streamerOf d.tier == k)

/-- Streamer `k` has handed out `c` requests and owns `R` slots. -/
def Counts (s : State) (k R c : Nat) : Prop :=
  (s.streamer k).requests.length = R ∧ (s.streamer k).next = c % R ∧ (s.streamer k).gen = c % 2 ^ 32

/-- Effect of a stream request on the streamers. -/
def StreamerStep (cfg : Cfg) (s : State) (t : Tier) (s' : State) (d : Option Dispatch) : Prop :=
  (d = none ∧ s'.streamer = s.streamer) ∨
  ∃ dd st', d = some dd ∧ dd.tier = t ∧
    dd.id = makeRequestId (s.streamer (cfg.streamerOf t)).next (s.streamer (cfg.streamerOf t)).gen ∧
    st'.requests.length = (s.streamer (cfg.streamerOf t)).requests.length ∧
    st'.next = ((s.streamer (cfg.streamerOf t)).next + 1) % (s.streamer (cfg.streamerOf t)).requests.length ∧
    st'.gen = ((s.streamer (cfg.streamerOf t)).gen + 1) % 2 ^ 32 ∧
    s'.streamer = updStreamer s.streamer (cfg.streamerOf t) st'

theorem streamIn_streamer {cfg : Cfg} {s : State} {a : AState} (Rl : Rel cfg s a) {t n s' r d}
    (h : streamIn cfg s t n = some (s', r, d)) : StreamerStep cfg s t s' d := by
  unfold streamIn at h
  by_cases ht : t = .highest
  · simp [ht] at h; obtain ⟨rfl, _, rfl⟩ := h; exact Or.inl ⟨rfl, rfl⟩
  · cases hs : isStreaming cfg s t with
    | none => rw [hs] at h; simp [ht] at h
    | some b =>
      rw [hs] at h
      simp only [if_neg ht, Option.bind_eq_bind, Option.bind_some, Option.pure_def] at h
      cases b with
      | true => simp at h; obtain ⟨rfl, _, rfl⟩ := h; exact Or.inl ⟨rfl, rfl⟩
      | false =>
        simp only [Bool.false_eq_true, if_false] at h
        cases hf : findFirstPending (s.tier t).loaded 0 with
        | none => simp [hf] at h; obtain ⟨rfl, _, rfl⟩ := h; exact Or.inl ⟨rfl, rfl⟩
        | some first =>
          simp only [hf] at h
          generalize numStreaming first n (cfg.numChunks t) = count at h
          by_cases hc : count = 0
          · simp [hc] at h; obtain ⟨rfl, _, rfl⟩ := h; exact Or.inl ⟨rfl, rfl⟩
          · rw [if_neg hc] at h
            obtain ⟨hs1, hs2, hs3⟩ := Rl.slots (cfg.streamerOf t)
            rcases buildRequest_spec (s.streamer (cfg.streamerOf t)) .streamIn t first
              count hs1 hs2 hs3 with ⟨q, hr1, hr2, e⟩ | ⟨q, id, hr1, hr2, hid, hne, st', hst', e⟩
            · rw [e] at h
              simp only [Option.bind_some, if_true, Option.some.injEq, Prod.mk.injEq, updStreamer_self] at h
              obtain ⟨rfl, _, rfl⟩ := h
              exact Or.inl ⟨rfl, rfl⟩
            · rw [e] at h
              simp only [Option.bind_some] at h
              rw [if_neg hne] at h
              cases hsr : bitsetSetRange (s.tier t).streaming first count true with
              | none => rw [hsr] at h; simp at h
              | some m =>
                rw [hsr] at h
                simp only [Option.bind_some] at h
                simp only [Option.some.injEq, Prod.mk.injEq] at h
                obtain ⟨rfl, _, rfl⟩ := h
                exact Or.inr ⟨_, st', rfl, rfl, hid, by rw [hst'.requests, List.length_set], hst'.next, hst'.gen, rfl⟩

theorem streamOut_streamer {cfg : Cfg} {s : State} {a : AState} (Rl : Rel cfg s a) {t n s' r d}
    (h : streamOut cfg s t n = some (s', r, d)) : StreamerStep cfg s t s' d := by
  unfold streamOut at h
  by_cases ht : t = .highest
  · simp [ht] at h; obtain ⟨rfl, _, rfl⟩ := h; exact Or.inl ⟨rfl, rfl⟩
  · cases hs : isStreaming cfg s t with
    | none => rw [hs] at h; simp [ht] at h
    | some b =>
      rw [hs] at h
      simp only [if_neg ht, Option.bind_eq_bind, Option.bind_some, Option.pure_def] at h
      cases b with
      | true => simp at h; obtain ⟨rfl, _, rfl⟩ := h; exact Or.inl ⟨rfl, rfl⟩
      | false =>
        simp only [Bool.false_eq_true, if_false] at h
        cases hf : findFirstLoaded (s.tier t).loaded 0 with
        | none => simp [hf] at h; obtain ⟨rfl, _, rfl⟩ := h; exact Or.inl ⟨rfl, rfl⟩
        | some first =>
          simp only [hf] at h
          generalize numStreaming first n (cfg.numChunks t) = count at h
          by_cases hc : count = 0
          · simp [hc] at h; obtain ⟨rfl, _, rfl⟩ := h; exact Or.inl ⟨rfl, rfl⟩
          · rw [if_neg hc] at h
            obtain ⟨hs1, hs2, hs3⟩ := Rl.slots (cfg.streamerOf t)
            rcases buildRequest_spec (s.streamer (cfg.streamerOf t)) .streamOut t first
              count hs1 hs2 hs3 with ⟨q, hr1, hr2, e⟩ | ⟨q, id, hr1, hr2, hid, hne, st', hst', e⟩
            · rw [e] at h
              simp only [Option.bind_some, if_true, Option.some.injEq, Prod.mk.injEq, updStreamer_self] at h
              obtain ⟨rfl, _, rfl⟩ := h
              exact Or.inl ⟨rfl, rfl⟩
            · rw [e] at h
              simp only [Option.bind_some] at h
              rw [if_neg hne] at h
              cases hsr : bitsetSetRange (s.tier t).streaming first count true with
              | none => rw [hsr] at h; simp at h
              | some m =>
                rw [hsr] at h
                simp only [Option.bind_some] at h
                cases hct : bitsetCount (s.tier t).loaded (bitsetSize (cfg.numChunks t)) with
                | none => rw [hct] at h; simp at h
                | some c =>
                  rw [hct] at h
                  simp only [Option.bind_some] at h
                  cases hu : unregister { (s.tier t) with streaming := m } first count with
                  | none => rw [hu] at h; simp at h
                  | some ts =>
                    rw [hu] at h
                    simp only [Option.bind_some, Option.some.injEq, Prod.mk.injEq] at h
                    obtain ⟨rfl, _, rfl⟩ := h
                    exact Or.inr ⟨_, st', rfl, rfl, hid, by rw [hst'.requests, List.length_set], hst'.next, hst'.gen, rfl⟩

theorem finish_counts {cfg : Cfg} {s s' : State} {k id : Nat} {b : Bool} (h : finish cfg s k id b = some s')
    {j R c : Nat} (hc : Counts s j R c) : Counts s' j R c := by
  unfold finish at h
  simp only at h
  split at h
  · rw [← Option.some.inj h]; exact hc
  · split at h
    · rw [← Option.some.inj h]; exact hc
    · split at h
      · rw [← Option.some.inj h]; exact hc
      · rename_i r _ _ _
        cases he : executeRequest cfg s b r with
        | none => rw [he] at h; simp at h
        | some s1 =>
          rw [he] at h
          simp only [Option.bind_eq_bind, Option.bind_some, Option.pure_def, Option.some.injEq] at h
          have hstr : s1.streamer = s.streamer := by
            unfold executeRequest at he
            split at he
            · cases b with
              | true =>
                simp only [if_true, Option.bind_eq_bind, Option.pure_def] at he
                cases h1 : bitsetSetRange (s.tier r.tier).loaded r.first r.count true with
                | none => rw [h1] at he; simp at he
                | some m1 =>
                  cases h2 : bitsetSetRange (s.tier r.tier).streaming r.first r.count false with
                  | none => rw [h1] at he; simp [h2] at he
                  | some m2 =>
                    rw [h1] at he
                    simp only [Option.bind_some, h2, Option.some.injEq] at he
                    rw [← he]
              | false =>
                simp only [Bool.false_eq_true, if_false, Option.bind_eq_bind, Option.pure_def, Option.bind_some] at he
                cases h2 : bitsetSetRange (s.tier r.tier).streaming r.first r.count false with
                | none => rw [h2] at he; simp at he
                | some m2 =>
                  simp only [Option.bind_some, h2, Option.some.injEq] at he
                  rw [← he]
            · simp only [Option.bind_eq_bind, Option.pure_def] at he
              cases h1 : bitsetSetRange (s.tier r.tier).loaded r.first r.count false with
              | none => rw [h1] at he; simp at he
              | some m1 =>
                cases h2 : bitsetSetRange (s.tier r.tier).streaming r.first r.count false with
                | none => rw [h1, h2] at he; simp at he
                | some m2 =>
                  rw [h1] at he
                  simp only [Option.bind_some, h2, Option.some.injEq] at he
                  rw [← he]
          rw [← h]
          unfold Counts at hc ⊢
          simp only [updStreamer, hstr]
          split
          · rename_i hj
            rw [hj] at hc
            simp only [List.length_set]
            exact hc
          · exact hc

theorem streamer_counts {cfg : Cfg} {s s' : State} {t : Tier} {d : Option Dispatch}
    (h : StreamerStep cfg s t s' d) {k R c : Nat} (hc : Counts s k R c) :
    Counts s' k R (c + (sentTo cfg k d.toList).length) ∧
    ∀ dd ∈ sentTo cfg k d.toList, dd.id = makeRequestId (c % R) (c % 2 ^ 32) := by
  rcases h with ⟨rfl, hs⟩ | ⟨dd, st', rfl, ht, hid, hl, hn, hg, hs⟩
  · unfold Counts at hc ⊢
    rw [hs]
    simpa [sentTo] using hc
  · unfold Counts at hc ⊢
    by_cases hk : cfg.streamerOf t = k
    · have hsent : sentTo cfg k (some dd).toList = [dd] := by simp [sentTo, ht, hk]
      rw [hsent, hs]
      rw [hk] at hid hl hn hg ⊢
      simp only [updStreamer, if_true, List.length_singleton]
      obtain ⟨c1, c2, c3⟩ := hc
      refine ⟨⟨by rw [hl, c1], ?_, ?_⟩, ?_⟩
      · rw [hn, c1, c2, Nat.mod_add_mod]
      · rw [hg, c3, Nat.mod_add_mod]
      · intro x hx
        simp at hx
        rw [hx, hid, c2, c3]
    · have hsent : sentTo cfg k (some dd).toList = [] := by simp [sentTo, ht, hk]
      rw [hsent, hs]
      simp only [updStreamer, if_neg (Ne.symm hk)]
      exact ⟨by simpa using hc, by simp⟩

theorem run_ids {cfg : Cfg} (hN : SmallChunks cfg) (ops : List Op) (hops : ∀ op ∈ ops, OpOk op) (s : State) (a : AState)
    (Rl : Rel cfg s a) (s' : State) (ds : List Dispatch) (h : run cfg s ops = some (s', ds))
    (k R c : Nat) (hc : Counts s k R c) :
    Counts s' k R (c + (sentTo cfg k ds).length) ∧
    ∀ i d, (sentTo cfg k ds)[i]? = some d → d.id = makeRequestId ((c + i) % R) ((c + i) % 2 ^ 32) := by
  induction ops generalizing s a ds c with
  | nil =>
    simp only [run, Option.some.injEq, Prod.mk.injEq] at h
    obtain ⟨rfl, rfl⟩ := h
    exact ⟨by simpa [sentTo] using hc, by simp [sentTo]⟩
  | cons op ops ih =>
    rw [run] at h
    cases e : step cfg s op with
    | none => rw [e] at h; simp at h
    | some x =>
      obtain ⟨s1, out⟩ := x
      rw [e] at h
      simp only [Option.bind_eq_bind, Option.bind_some] at h
      cases e2 : run cfg s1 ops with
      | none => rw [e2] at h; simp at h
      | some y =>
        obtain ⟨s2, ds2⟩ := y
        rw [e2] at h
        simp only [Option.bind_some, Option.pure_def, Option.some.injEq, Prod.mk.injEq] at h
        obtain ⟨rfl, hds⟩ := h
        obtain ⟨a1, _, R1⟩ := step_refines Rl hN op (hops op (by simp)) s1 out e
        -- the head
        obtain ⟨hd, hds', hcnt, hhead⟩ : ∃ hd : List Dispatch, ds = hd ++ ds2 ∧
            Counts s1 k R (c + (sentTo cfg k hd).length) ∧
            ((sentTo cfg k hd).length ≤ 1 ∧ ∀ d ∈ sentTo cfg k hd, d.id = makeRequestId (c % R) (c % 2 ^ 32)) := by
          cases op with
          | streamIn t n =>
            cases es : streamIn cfg s t n with
            | none => simp [step, es] at e
            | some z =>
              obtain ⟨z1, z2, z3⟩ := z
              simp only [step, es, Option.map_some, Option.some.injEq, Prod.mk.injEq] at e
              obtain ⟨rfl, rfl⟩ := e
              have hh := streamer_counts (streamIn_streamer Rl es) hc
              refine ⟨z3.toList, ?_, hh.1, ?_, hh.2⟩
              · rw [← hds]; cases z3 <;> rfl
              · exact Nat.le_trans (List.length_filter_le _ _) (by cases z3 <;> simp)
          | streamOut t n =>
            cases es : streamOut cfg s t n with
            | none => simp [step, es] at e
            | some z =>
              obtain ⟨z1, z2, z3⟩ := z
              simp only [step, es, Option.map_some, Option.some.injEq, Prod.mk.injEq] at e
              obtain ⟨rfl, rfl⟩ := e
              have hh := streamer_counts (streamOut_streamer Rl es) hc
              refine ⟨z3.toList, ?_, hh.1, ?_, hh.2⟩
              · rw [← hds]; cases z3 <;> rfl
              · exact Nat.le_trans (List.length_filter_le _ _) (by cases z3 <;> simp)
          | complete k' id =>
            cases es : finish cfg s k' id true with
            | none => simp [step, es] at e
            | some z =>
              simp only [step, es, Option.map_some, Option.some.injEq, Prod.mk.injEq] at e
              obtain ⟨rfl, rfl⟩ := e
              refine ⟨[], by rw [← hds], by simpa [sentTo] using finish_counts es hc, by simp [sentTo], by simp [sentTo]⟩
          | cancel k' id =>
            cases es : finish cfg s k' id false with
            | none => simp [step, es] at e
            | some z =>
              simp only [step, es, Option.map_some, Option.some.injEq, Prod.mk.injEq] at e
              obtain ⟨rfl, rfl⟩ := e
              refine ⟨[], by rw [← hds], by simpa [sentTo] using finish_counts es hc, by simp [sentTo], by simp [sentTo]⟩
        obtain ⟨q1, q2⟩ := ih (fun o ho => hops o (by simp [ho])) s1 a1 R1 ds2 e2 _ hcnt
        have hsplit : sentTo cfg k ds = sentTo cfg k hd ++ sentTo cfg k ds2 := by
          rw [hds']; simp [sentTo]
        rw [hsplit]
        refine ⟨by rw [List.length_append, ← Nat.add_assoc]; exact q1, ?_⟩
        intro i d hi
        by_cases hl : i < (sentTo cfg k hd).length
        · rw [List.getElem?_append_left hl] at hi
          have hi0 : i = 0 := by omega
          rw [hi0, Nat.add_zero]
          exact hhead.2 d (List.mem_of_getElem? hi)
        · rw [List.getElem?_append_right (by omega)] at hi
          have := q2 _ d hi
          rw [this]
          have e3 : c + (sentTo cfg k hd).length + (i - (sentTo cfg k hd).length) = c + i := by omega
          rw [e3]

/-- The identifiers a streamer receives encode a running count: the slot is the count modulo the number of
slots, the generation the count modulo 2^32. -/
theorem C26_identifier_sequence (cfg : Cfg) (requests : Nat → List Request) (hN : SmallChunks cfg)
    (hf : FreshRequests requests) (ops : List Op) (hops : ∀ op ∈ ops, OpOk op) (s : State) (ds : List Dispatch)
    (h : run cfg (init cfg requests) ops = some (s, ds)) (k i : Nat) (d : Dispatch)
    (hd : (sentTo cfg k ds)[i]? = some d) :
    d.id = i % 2 ^ 32 * 2 ^ 32 + i % (requests k).length := by
  have hc : Counts (init cfg requests) k (requests k).length 0 := by
    simp [Counts, init]
  obtain ⟨_, h2⟩ := run_ids hN ops hops _ _ (rel_init cfg requests hf) s ds h k _ 0 hc
  have := h2 i d hd
  rw [Nat.zero_add] at this
  rw [this]; rfl

/-- Two requests sent to the same streamer share an identifier only if a multiple of 2^32 requests
separates them. -/
theorem C26_identifiers_distinct (cfg : Cfg) (requests : Nat → List Request) (hN : SmallChunks cfg)
    (hf : FreshRequests requests) (ops : List Op) (hops : ∀ op ∈ ops, OpOk op) (s : State) (ds : List Dispatch)
    (h : run cfg (init cfg requests) ops = some (s, ds)) (k i j : Nat) (hij : i < j) (hnear : j < i + 2 ^ 32)
    (d e : Dispatch) (hd : (sentTo cfg k ds)[i]? = some d) (he : (sentTo cfg k ds)[j]? = some e) :
    d.id ≠ e.id := by
  rw [C26_identifier_sequence cfg requests hN hf ops hops s ds h k i d hd,
    C26_identifier_sequence cfg requests hN hf ops hops s ds h k j e he]
  obtain ⟨h1, h2, _⟩ := hf k
  have := Nat.mod_lt i h1
  have := Nat.mod_lt j h1
  omega

/-- Completing or cancelling an identifier that designates no request in flight (already completed,
cancelled, forged, or of another streamer) leaves the context and all streamers exactly as they were. -/
theorem C26_stale_identifier_no_effect (cfg : Cfg) (requests : Nat → List Request) (hN : SmallChunks cfg)
    (hf : FreshRequests requests) (ops : List Op) (hops : ∀ op ∈ ops, OpOk op) (s : State) (ds : List Dispatch)
    (h : run cfg (init cfg requests) ops = some (s, ds)) :
    ∃ a, Run cfg AState.empty ops a ds ∧ C24.Observes cfg s a ∧
      ∀ k id b, id < 2 ^ 64 → (∀ t p, a.pending t = some p → ¬ (cfg.streamerOf t = k ∧ p.id = id)) →
        finish cfg s k id b = some s := by
  obtain ⟨a, hr, Rl⟩ := run_refines hN ops hops _ _ (rel_init cfg requests hf) s ds h
  refine ⟨a, hr, C24.observes_of_rel hN Rl, ?_⟩
  intro k id b hid hno
  have hsplit := makeRequestId_split id hid
  unfold finish
  simp only
  generalize id % 2 ^ 32 = index at hsplit ⊢
  generalize id / 2 ^ 32 % 2 ^ 32 = gen at hsplit ⊢
  cases hreq : (s.streamer k).requests[index]? with
  | none => rfl
  | some r =>
    simp only
    by_cases hv : r.tier = .highest
    · rw [if_pos hv]
    · rw [if_neg hv]
      by_cases hg : r.gen = gen
      · obtain ⟨hk, _, hp⟩ := Rl.slotOk k index r hreq hv
        rw [hg, hsplit] at hp
        exact absurd ⟨hk, rfl⟩ (hno _ _ hp)
      · rw [if_pos hg]

/-- A request in flight stays in flight, unchanged, whatever else happens, until its own identifier is
completed or cancelled. -/
theorem C26_live_until_finished (cfg : Cfg) (a a' : AState) (op : Op) (out : Option (Result × Option Dispatch))
    (hs : Step cfg a op a' out) (t : Tier) (p : Pending) (hp : a.pending t = some p)
    (hc : op ≠ .complete (cfg.streamerOf t) p.id) (hx : op ≠ .cancel (cfg.streamerOf t) p.id) :
    a'.pending t = some p := by
  have stream : ∀ {act u n r d}, StreamStep cfg a act u n a' r d → a'.pending t = some p := by
    intro act u n r d h
    cases h with
    | invalid _ => exact hp
    | busy _ _ => exact hp
    | noFree _ _ => exact hp
    | done _ _ => exact hp
    | dispatched first count id flag h1 h2 h3 h4 h5 h6 h7 =>
      simp only
      rw [if_neg]
      · exact hp
      · intro hu; rw [← hu, hp] at h2; simp at h2
  cases hs with
  | streamIn h => exact stream h
  | streamOut h => exact stream h
  | complete =>
    simp only [afterFinish, hp]
    rw [if_neg]
    rintro ⟨h1, h2⟩
    exact hc (by rw [h1, h2])
  | cancel =>
    simp only [afterFinish, hp]
    rw [if_neg]
    rintro ⟨h1, h2⟩
    exact hx (by rw [h1, h2])

/-- No request in flight carries `(k, id)`. -/
def NotLive (cfg : Cfg) (a : AState) (k id : Nat) : Prop :=
  ∀ t p, a.pending t = some p → ¬ (cfg.streamerOf t = k ∧ p.id = id)

theorem afterFinish_notLive (cfg : Cfg) (a : AState) (k id : Nat) (b : Bool) :
    NotLive cfg (afterFinish cfg a k id b) k id := by
  intro t p hp
  simp only [afterFinish] at hp
  cases hq : a.pending t with
  | none => rw [hq] at hp; simp at hp
  | some q =>
    rw [hq] at hp
    simp only at hp
    by_cases hc : cfg.streamerOf t = k ∧ q.id = id
    · rw [if_pos hc] at hp; simp at hp
    · rw [if_neg hc] at hp; rw [← Option.some.inj hp]; exact hc

theorem run_notLive (cfg : Cfg) (a : AState) (ops : List Op) (a' : AState) (ds : List Dispatch)
    (hr : Run cfg a ops a' ds) (k id : Nat) (hn : NotLive cfg a k id)
    (hd : ∀ d ∈ sentTo cfg k ds, d.id ≠ id) : NotLive cfg a' k id := by
  induction hr with
  | nil a => exact hn
  | cons hs _ ih =>
    rename_i a op a1 out ops a'' ds _
    apply ih
    · have stream : ∀ {act u n r d}, StreamStep cfg a act u n a1 r d → out = some (r, d) → NotLive cfg a1 k id := by
        intro act u n r d h hout t p hp
        cases h with
        | invalid _ => exact hn t p hp
        | busy _ _ => exact hn t p hp
        | noFree _ _ => exact hn t p hp
        | done _ _ => exact hn t p hp
        | dispatched first count id' flag h1 h2 h3 h4 h5 h6 h7 =>
          simp only at hp
          by_cases hu : t = u
          · rw [if_pos hu] at hp
            rw [← Option.some.inj hp]
            rintro ⟨g1, g2⟩
            refine hd ⟨act, u, first, count, id', flag⟩ ?_ g2
            simp [sentTo, hout, ← hu, g1]
          · rw [if_neg hu] at hp; exact hn t p hp
      have fin : ∀ k' id' b, NotLive cfg (afterFinish cfg a k' id' b) k id := by
        intro k' id' b t p hp
        simp only [afterFinish] at hp
        cases hq : a.pending t with
        | none => rw [hq] at hp; simp at hp
        | some q =>
          rw [hq] at hp
          simp only at hp
          split at hp
          · simp at hp
          · rw [← Option.some.inj hp]; exact hn t q hq
      cases hs with
      | streamIn h => exact stream h rfl
      | streamOut h => exact stream h rfl
      | complete => exact fin _ _ _
      | cancel => exact fin _ _ _
    · intro d hd'
      apply hd
      simp only [sentTo, List.filter_append, List.mem_append] at hd' ⊢
      exact Or.inr hd'

/-- A request completes at most once: once its identifier was completed or cancelled, using it again at any
later point has no effect, even when its slot has been reused, as long as the streamer received fewer than
2^32 requests in total. -/
theorem C26_finished_only_once (cfg : Cfg) (requests : Nat → List Request) (hN : SmallChunks cfg)
    (hf : FreshRequests requests) (ops1 ops2 : List Op) (k : Nat) (d : Dispatch) (b1 : Bool)
    (hops1 : ∀ op ∈ ops1, OpOk op) (hops2 : ∀ op ∈ ops2, OpOk op) (s1 s2 s3 : State) (ds1 ds2 : List Dispatch)
    (h1 : run cfg (init cfg requests) ops1 = some (s1, ds1)) (hd : d ∈ sentTo cfg k ds1)
    (hfin : finish cfg s1 k d.id b1 = some s2)
    (h2 : run cfg s2 ops2 = some (s3, ds2))
    (hfew : (sentTo cfg k (ds1 ++ ds2)).length < 2 ^ 32) (b : Bool) :
    finish cfg s3 k d.id b = some s3 := by
  obtain ⟨a1, hr1, R1⟩ := run_refines hN ops1 hops1 _ _ (rel_init cfg requests hf) s1 ds1 h1
  have hc0 : Counts (init cfg requests) k (requests k).length 0 := by simp [Counts, init]
  obtain ⟨c1, i1⟩ := run_ids hN ops1 hops1 _ _ (rel_init cfg requests hf) s1 ds1 h1 k _ 0 hc0
  obtain ⟨i, hi⟩ := List.getElem?_of_mem hd
  have hid := i1 i d hi
  have hRlen := (hf k).2.1
  have hR0 := (hf k).1
  have hlt := Nat.mod_lt (0 + i) hR0
  have hidlt : d.id < 2 ^ 64 := by
    rw [hid]; unfold makeRequestId; omega
  obtain ⟨s2', e2', R2⟩ := finish_refines R1 k d.id hidlt b1
  rw [hfin] at e2'
  obtain rfl := Option.some.inj e2'
  obtain ⟨a3, hr3, R3⟩ := run_refines hN ops2 hops2 _ _ R2 s3 ds2 h2
  obtain ⟨c3, i3⟩ := run_ids hN ops2 hops2 _ _ R2 s3 ds2 h2 k _ _ (finish_counts hfin c1)
  have hil : i < (sentTo cfg k ds1).length := (List.getElem?_eq_some_iff.mp hi).1
  have hsum : (sentTo cfg k (ds1 ++ ds2)).length = (sentTo cfg k ds1).length + (sentTo cfg k ds2).length := by
    simp [sentTo]
  have hfresh : ∀ e ∈ sentTo cfg k ds2, e.id ≠ d.id := by
    intro e he
    obtain ⟨j, hj⟩ := List.getElem?_of_mem he
    have hjl : j < (sentTo cfg k ds2).length := (List.getElem?_eq_some_iff.mp hj).1
    rw [i3 j e hj, hid]
    intro hcon
    have l1 := Nat.mod_lt (0 + (sentTo cfg k ds1).length + j) hR0
    have := (makeRequestId_inj (by omega) (by omega) hcon).2
    omega
  have hnl := run_notLive cfg _ ops2 a3 ds2 hr3 k d.id (afterFinish_notLive cfg a1 k d.id b1) hfresh
  have hsplit := makeRequestId_split d.id hidlt
  unfold finish
  simp only
  generalize d.id % 2 ^ 32 = index at hsplit ⊢
  generalize d.id / 2 ^ 32 % 2 ^ 32 = gen at hsplit ⊢
  cases hreq : (s3.streamer k).requests[index]? with
  | none => rfl
  | some r =>
    simp only
    by_cases hv : r.tier = .highest
    · rw [if_pos hv]
    · rw [if_neg hv]
      by_cases hg : r.gen = gen
      · obtain ⟨hk, _, hp⟩ := R3.slotOk k index r hreq hv
        rw [hg, hsplit] at hp
        exact absurd ⟨hk, rfl⟩ (hnl _ _ hp)
      · rw [if_pos hg]

/-- A history meeting the hypotheses: the slot of request 0 is reused by request 2, and completing the old
identifier 0 again does nothing. -/
example : C24.summary 3 .medium (run (C24.exCfg 3) (init (C24.exCfg 3) C24.exReq)
    [.streamIn .medium 1, .complete 0 0, .streamIn .medium 1, .complete 0 (2^32 + 1), .streamIn .medium 1,
     .complete 0 0]) =
    some ([⟨.streamIn, .medium, 0, 1, 0, true⟩, ⟨.streamIn, .medium, 1, 1, 2^32 + 1, false⟩,
      ⟨.streamIn, .medium, 2, 1, 2 * 2^32, false⟩],
      [some true, some true, some false]) := by decide

end Acl.C26
