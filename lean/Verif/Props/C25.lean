import Verif.Props.C24
/-!
C25: every chunk can be streamed back in.

Full statement (false, see `C25_refuted`): whatever the history, when no request is in flight for a tier and
some chunk of it is not loaded, `stream_in` does not report `done`.

Proved: the exact condition under which `done` is reported after any history (`C25_done_iff`), and the full
statement for histories in which a tier is only ever streamed out whole (`C25_whole_stream_out_partial`), with
absence of undefined behaviour and progress until the tier is loaded (`C25_fill_partial`).
-/
namespace Acl.C25
open Acl.Streaming Acl.Streaming.Spec

/-- The outcome of `stream_in` when nothing is in flight, in terms of the first pending chunk. -/
theorem streamIn_cases {cfg : Cfg} {s : State} {a : AState} (R : Rel cfg s a) (hN : SmallChunks cfg) (t : Tier)
    (n : Nat) (ht : t ≠ .highest) (hp : a.pending t = none) (hn : 1 ≤ n) :
    (findFirstPending (s.tier t).loaded 0 = none ∧ streamIn cfg s t n = some (s, .done, none)) ∨
    ∃ first, findFirstPending (s.tier t).loaded 0 = some first ∧ first ≤ cfg.numChunks t ∧
      ((first = cfg.numChunks t ∧ streamIn cfg s t n = some (s, .done, none)) ∨
       (first < cfg.numChunks t ∧
         (streamIn cfg s t n = some (s, .noFreeStreamingRequests, none) ∨
          ∃ s' d, streamIn cfg s t n = some (s', .dispatched, some d) ∧ d.first = first ∧
            d.count = min n (cfg.numChunks t - first)))) := by
  unfold streamIn
  rw [isStreaming_eq R hN t ht]
  simp only [if_neg ht, Option.bind_eq_bind, Option.bind_some, Option.pure_def, hp, Option.isSome_none,
    Bool.false_eq_true, if_false]
  cases hf : findFirstPending (s.tier t).loaded 0 with
  | none => exact Or.inl ⟨rfl, rfl⟩
  | some first =>
    right
    have hle := pending_le R t first hf
    refine ⟨first, rfl, hle, ?_⟩
    simp only
    have hns := numStreaming_eq first n (cfg.numChunks t) hle (hN t) hn
    generalize numStreaming first n (cfg.numChunks t) = count at hns
    by_cases he : first = cfg.numChunks t
    · left
      refine ⟨he, ?_⟩
      rw [if_pos (by omega)]
    · right
      refine ⟨by omega, ?_⟩
      rw [if_neg (by omega)]
      obtain ⟨hs1, hs2, hs3⟩ := R.slots (cfg.streamerOf t)
      rcases buildRequest_spec (s.streamer (cfg.streamerOf t)) .streamIn t first
        count hs1 hs2 hs3 with ⟨q, hr1, hr2, e⟩ | ⟨q, id, hr1, hr2, hid, hne, st', hst', e⟩
      · left; rw [e]; simp [updStreamer_self]
      · right
        obtain ⟨m, em, lm, bm⟩ := setRange_streaming R t hp .streamIn first count (by omega)
        rw [e, em]
        simp only [Option.bind_some, if_neg hne]
        exact ⟨_, _, rfl, rfl, hns⟩

/-- After any history, with no request in flight, `stream_in` reports `done` exactly when the last chunk of
the tier and the last chunk of each full group of 32 are loaded; the other chunks are not looked at. -/
theorem C25_done_iff (cfg : Cfg) (requests : Nat → List Request) (hN : SmallChunks cfg)
    (hf : FreshRequests requests) (ops : List Op) (hops : ∀ op ∈ ops, OpOk op) (s : State) (ds : List Dispatch)
    (h : run cfg (init cfg requests) ops = some (s, ds)) (t : Tier) (ht : t ≠ .highest)
    (hidle : isStreaming cfg s t = some false) (n : Nat) (hn : 1 ≤ n) :
    (∃ s' d, streamIn cfg s t n = some (s', .done, d)) ↔
      ∀ i, i < cfg.numChunks t → (i % 32 = 31 ∨ i + 1 = cfg.numChunks t) →
        bitsetTest (s.tier t).loaded i = some true := by
  obtain ⟨a, _, R⟩ := run_refines hN ops hops _ _ (rel_init cfg requests hf) s ds h
  have hp : a.pending t = none := by
    rw [isStreaming_eq R hN t ht] at hidle
    cases hq : a.pending t with
    | none => rfl
    | some p => rw [hq] at hidle; simp at hidle
  have hlen := R.lenL t
  have hlt := bitsetSize_lt (cfg.numChunks t)
  have hle := bitsetSize_le (cfg.numChunks t)
  have hbit : ∀ i, i < cfg.numChunks t → (bitsetTest (s.tier t).loaded i = some true ↔ bsBit (s.tier t).loaded i = true) := by
    intro i hi
    rw [bitsetTest_eq _ _ (by omega)]; simp
  rcases streamIn_cases R hN t n ht hp hn with ⟨hnone, e⟩ | ⟨first, hsome, hfl, hc⟩
  · have h31 := findFirstPending_none _ _ hnone
    constructor
    · intro _ i hi hcase
      rw [hbit i hi]
      -- every word ends with a loaded chunk, so the last word is full
      have hlast := h31 (bitsetSize (cfg.numChunks t) - 1) (by omega)
      have hN32 : cfg.numChunks t = 32 * bitsetSize (cfg.numChunks t) := by
        apply Classical.byContradiction
        intro hne
        have := R.tailL t (32 * (bitsetSize (cfg.numChunks t) - 1) + 31) (by omega)
        rw [← R.bitL, hlast] at this
        simp at this
      have := h31 (i / 32) (by omega)
      rwa [show 32 * (i / 32) + 31 = i by omega] at this
    · intro _; exact ⟨s, none, e⟩
  · obtain ⟨_, h2, h3, h4, h5, h6⟩ := findFirstPending_some _ _ _ hsome
    rcases hc with ⟨heq, e⟩ | ⟨hflt, hres⟩
    · constructor
      · intro _ i hi hcase
        rw [hbit i hi]
        by_cases hw : i / 32 < first / 32
        · rcases hcase with hc | hc
          · have := h5 (i / 32) (by omega)
            rwa [show 32 * (i / 32) + 31 = i by omega] at this
          · have := h5 (i / 32) (by omega)
            by_cases hm : first % 32 = 0
            · rwa [show 32 * (i / 32) + 31 = i by omega] at this
            · omega
        · have := h6 (by omega)
          rwa [show first - 32 * 0 - 1 = i by omega] at this
      · intro _; exact ⟨s, none, e⟩
    · constructor
      · rintro ⟨s', d, e⟩
        rcases hres with e' | ⟨s1, d1, e', _⟩
        · rw [e'] at e; simp at e
        · rw [e'] at e; simp at e
      · intro hall
        exfalso
        -- the end of the word of `first`, or the last chunk, is not loaded
        by_cases hend : (first / 32 + 1) * 32 ≤ cfg.numChunks t
        · have := hall ((first / 32 + 1) * 32 - 1) (by omega) (by omega)
          rw [hbit _ (by omega), h4 _ (by omega) (by omega)] at this
          simp at this
        · have := hall (cfg.numChunks t - 1) (by omega) (by omega)
          rw [hbit _ (by omega), h4 _ (by omega) (by omega)] at this
          simp at this

/-- The property is false: load a tier of 4 chunks, stream out one chunk; from then on `stream_in` reports
`done` although chunk 0 is not loaded. -/
theorem C25_refuted :
    (do let (s, _) ← run (C24.exCfg 4) (init (C24.exCfg 4) C24.exReq)
          [.streamIn .medium 4, .complete 0 0, .streamOut .medium 1, .complete 0 (2^32 + 1)]
        let streaming ← isStreaming (C24.exCfg 4) s .medium
        let inMemory ← isStreamedIn (C24.exCfg 4) s .medium
        let chunk0 ← bitsetTest (s.tier .medium).loaded 0
        let (_, result, _) ← streamIn (C24.exCfg 4) s .medium 4
        pure (streaming, inMemory, chunk0, result)) = some (false, false, false, Result.done) := by decide

/-- Undefined behaviour: with 2 of 4 chunks loaded, asking to stream out everything reads the headers of
chunks that were never streamed in. -/
theorem C25_stream_out_reads_unloaded :
    ((run (C24.exCfg 4) (init (C24.exCfg 4) C24.exReq) [.streamIn .medium 2, .complete 0 0]).isSome,
     (run (C24.exCfg 4) (init (C24.exCfg 4) C24.exReq)
       [.streamIn .medium 2, .complete 0 0, .streamOut .medium 4]).isNone) = (true, true) := by decide

/-- A user who always streams in at least one chunk, and only ever streams out a whole, fully loaded tier. -/
def Whole (cfg : Cfg) (s : State) : Op → Prop
  | .streamIn _ n => 1 ≤ n
  | .streamOut t n => isStreamedIn cfg s t = some true ∧ cfg.numChunks t ≤ n
  | _ => True

def WholeTiers (cfg : Cfg) : State → List Op → Prop
  | _, [] => True
  | s, op :: ops => Whole cfg s op ∧
    ∀ s' out, step cfg s op = some (s', out) → WholeTiers cfg s' ops

/-- Loaded chunks form a prefix and requests in flight extend it or release it all. -/
def Prefix (cfg : Cfg) (a : AState) : Prop :=
  ∀ t, ∃ m, m ≤ cfg.numChunks t ∧ (∀ i, a.loaded t i = decide (i < m)) ∧
    ∀ p, a.pending t = some p → (p.action = .streamIn ∧ p.first = m) ∨
      (p.action = .streamOut ∧ p.first = 0 ∧ p.count = cfg.numChunks t)

theorem pending_prefix {cfg : Cfg} {s : State} {a : AState} (R : Rel cfg s a) (t : Tier) (m first : Nat)
    (hL : ∀ i, a.loaded t i = decide (i < m))
    (h : findFirstPending (s.tier t).loaded 0 = some first) : first = m := by
  obtain ⟨_, h2, h3, h4, h5, h6⟩ := findFirstPending_some _ _ _ h
  have hb : ∀ i, bsBit (s.tier t).loaded i = decide (i < m) := fun i => by rw [R.bitL, hL]
  have h3' : ¬ first < m := by
    rw [hb] at h3; simpa using h3
  apply Classical.byContradiction
  intro hne
  by_cases hm : first % 32 = 0
  · have := h5 (first / 32 - 1) (by omega)
    rw [hb] at this
    simp at this
    omega
  · have := h6 hm
    rw [hb] at this
    simp at this
    omega

theorem prefix_step {cfg : Cfg} {s : State} {a : AState} (R : Rel cfg s a) (hN : SmallChunks cfg) (P : Prefix cfg a)
    (op : Op) (hop : OpOk op)
    (hd : Whole cfg s op) :
    ∃ s' out a', step cfg s op = some (s', out) ∧ Rel cfg s' a' ∧ Prefix cfg a' := by
  have fin : ∀ k id b, id < 2 ^ 64 → ∃ s', finish cfg s k id b = some s' ∧ Rel cfg s' (afterFinish cfg a k id b) ∧
      Prefix cfg (afterFinish cfg a k id b) := by
    intro k id b hid
    obtain ⟨s', e, R'⟩ := finish_refines R k id hid b
    refine ⟨s', e, R', ?_⟩
    intro t
    obtain ⟨m, hm, hL, hp⟩ := P t
    cases hpt : a.pending t with
    | none => exact ⟨m, hm, by simp [afterFinish, hpt, hL], by simp [afterFinish, hpt]⟩
    | some p =>
      by_cases hc : cfg.streamerOf t = k ∧ p.id = id
      · have hr := R.range t p hpt
        rcases hp p hpt with ⟨ha, hf⟩ | ⟨ha, hf, hcnt⟩
        · cases b with
          | true =>
            refine ⟨m + p.count, by omega, ?_, by simp [afterFinish, hpt, hc]⟩
            intro i
            simp only [afterFinish, hpt, if_pos hc, applyRequest, covers_iff, ha, hL, hf, Bool.true_or]
            by_cases h1 : i < m
            · rw [if_neg (by omega)]; simp; omega
            · by_cases h2 : i < m + p.count
              · rw [if_pos (by omega)]; simp; omega
              · rw [if_neg (by omega)]; simp; omega
          | false =>
            refine ⟨m, by omega, ?_, by simp [afterFinish, hpt, hc]⟩
            intro i
            simp [afterFinish, hpt, if_pos hc, applyRequest, ha, hL]
        · refine ⟨0, by omega, ?_, by simp [afterFinish, hpt, hc]⟩
          intro i
          simp only [afterFinish, hpt, if_pos hc, applyRequest, covers_iff, ha, hL, hf, hcnt]
          split
          · simp
          · simp; omega
      · refine ⟨m, hm, by simp [afterFinish, hpt, if_neg hc, hL], ?_⟩
        intro q hq
        simp only [afterFinish, hpt, if_neg hc, Option.some.injEq] at hq
        rw [← hq]; exact hp p hpt
  cases op with
  | streamIn t n =>
    obtain ⟨s', r, d, a', e, hs, R'⟩ := streamIn_refines R hN t n
    refine ⟨s', _, a', by simp only [step, e]; rfl, R', ?_⟩
    cases hs with
    | invalid _ => exact P
    | busy _ _ => exact P
    | noFree _ _ => exact P
    | done _ _ => exact P
    | dispatched first count id flag h1 h2 h3 h4 h5 h6 h7 =>
      intro u
      obtain ⟨m, hm, hL, hpp⟩ := P u
      refine ⟨m, hm, hL, ?_⟩
      intro p hp
      simp only at hp
      by_cases hu : u = t
      · rw [if_pos hu] at hp
        rw [← Option.some.inj hp]
        left
        refine ⟨rfl, ?_⟩
        subst hu
        rcases streamIn_cases R hN u n h1 h2 hd with ⟨_, e'⟩ | ⟨f, hsome, _, hcs⟩
        · rw [e'] at e; simp at e
        · have := pending_prefix R u m f hL hsome
          rcases hcs with ⟨_, e'⟩ | ⟨_, e' | ⟨_, d, e', hdf, _⟩⟩
          · rw [e'] at e; simp at e
          · rw [e'] at e; simp at e
          · rw [e'] at e
            simp only [Option.some.injEq, Prod.mk.injEq] at e
            obtain ⟨_, _, rfl⟩ := e
            simp only at hdf ⊢
            omega
      · rw [if_neg hu] at hp; exact hpp p hp
  | streamOut t n =>
    obtain ⟨hin, hnn⟩ := hd
    have hth : t ≠ .highest := by
      intro h; simp [isStreamedIn, h] at hin
    obtain ⟨b, hb, hall⟩ := isStreamedIn_eq R hN t hth
    rw [hin] at hb
    have hall := hall.mp (Option.some.inj hb).symm
    -- no fault
    obtain ⟨x, hx⟩ : ∃ x, streamOut cfg s t n = some x := by
      unfold streamOut
      rw [isStreaming_eq R hN t hth]
      simp only [if_neg hth, Option.bind_eq_bind, Option.bind_some, Option.pure_def]
      cases hp : a.pending t with
      | some p => simp
      | none =>
        simp only [Option.isSome_none, Bool.false_eq_true, if_false]
        cases hf : findFirstLoaded (s.tier t).loaded 0 with
        | none => simp
        | some first =>
          simp only
          obtain ⟨_, hf2, hf3, hf4⟩ := findFirstLoaded_some _ _ _ hf
          have hpos := tier_pos R t first (by omega)
          have hlt : first < cfg.numChunks t := by
            apply Classical.byContradiction
            intro hc
            have := R.tailL t first (by omega)
            rw [← R.bitL] at this
            simp at hf3
            rw [hf3] at this; simp at this
          obtain ⟨hr, hcn⟩ := numStreaming_range first n (cfg.numChunks t) (by omega) (hN t) hpos
          generalize numStreaming first n (cfg.numChunks t) = count at hr hcn
          by_cases hc : count = 0
          · simp [hc]
          · rw [if_neg hc]
            obtain ⟨hs1, hs2, hs3⟩ := R.slots (cfg.streamerOf t)
            rcases buildRequest_spec (s.streamer (cfg.streamerOf t)) .streamOut t first
              count hs1 hs2 hs3 with ⟨q, hr1, hr2, e⟩ | ⟨q, id, hr1, hr2, hid, hne, st', hst', e⟩
            · rw [e]; simp
            · obtain ⟨mm, em, lm, bm⟩ := setRange_streaming R t hp .streamOut first _ hr
              have tail : ∀ i, cfg.numChunks t ≤ i → bsBit (s.tier t).loaded i = false := fun i hi => by
                rw [R.bitL]; exact R.tailL t i hi
              obtain ⟨c, ec, hcc⟩ := bitsetCount_eq (s.tier t).loaded (cfg.numChunks t) (R.lenL t) tail (hN t)
              have hbl := bitsetSize_le (cfg.numChunks t)
              obtain ⟨ts', hu⟩ := unregister_some count { (s.tier t) with streaming := mm } first
                (by simp only [R.lenL]; omega)
                (by intro i h1 h2; rw [R.bitL]; exact hall i (by omega))
              rw [e, em, ec]
              simp only [Option.bind_some, if_neg hne, hu]
              exact ⟨_, rfl⟩
    obtain ⟨s', r, d⟩ := x
    obtain ⟨a', hs, R'⟩ := streamOut_refines R hN t n s' r d hx
    refine ⟨s', _, a', by simp only [step, hx]; rfl, R', ?_⟩
    cases hs with
    | invalid _ => exact P
    | busy _ _ => exact P
    | noFree _ _ => exact P
    | done _ _ => exact P
    | dispatched first count id flag h1 h2 h3 h4 h5 h6 h7 =>
      intro u
      obtain ⟨m, hm, hL, hpp⟩ := P u
      refine ⟨m, hm, hL, ?_⟩
      intro p hp
      simp only at hp
      by_cases hu : u = t
      · rw [if_pos hu] at hp
        rw [← Option.some.inj hp]
        right
        subst hu
        -- the first loaded chunk is chunk 0 and the count is the whole tier
        unfold streamOut at hx
        rw [isStreaming_eq R hN u hth] at hx
        simp only [if_neg hth, Option.bind_eq_bind, Option.bind_some, Option.pure_def, h2, Option.isSome_none,
          Bool.false_eq_true, if_false] at hx
        cases hf : findFirstLoaded (s.tier u).loaded 0 with
        | none => simp [hf] at hx
        | some f =>
          simp only [hf] at hx
          obtain ⟨_, hf2, hf3, hf4⟩ := findFirstLoaded_some _ _ _ hf
          have hf0 : f = 0 := by
            apply Classical.byContradiction
            intro hne
            have := hf4 0 (by omega)
            rw [R.bitL, hall 0 (by omega)] at this
            simp at this
          have hcount : numStreaming f n (cfg.numChunks u) = cfg.numChunks u := by
            rw [numStreaming_eq f n _ (by omega) (hN u) (by omega)]; omega
          rw [hcount, hf0] at hx
          generalize cfg.numChunks u = N at hx ⊢
          by_cases hc : N = 0
          · simp [hc] at hx
          · rw [if_neg hc] at hx
            cases hbr : buildRequest (s.streamer (cfg.streamerOf u)) .streamOut u 0 N with
            | none => rw [hbr] at hx; simp at hx
            | some y =>
              obtain ⟨id', st'⟩ := y
              rw [hbr] at hx
              simp only [Option.bind_some] at hx
              generalize invalidRequestId = inv at hx
              by_cases hid : id' = inv
              · simp [hid] at hx
              · rw [if_neg hid] at hx
                cases hsr : bitsetSetRange (s.tier u).streaming 0 N true with
                | none => rw [hsr] at hx; simp at hx
                | some m' =>
                  rw [hsr] at hx
                  simp only [Option.bind_some] at hx
                  cases hct : bitsetCount (s.tier u).loaded (bitsetSize N) with
                  | none => rw [hct] at hx; simp at hx
                  | some c =>
                    rw [hct] at hx
                    simp only [Option.bind_some] at hx
                    cases hun : unregister { (s.tier u) with streaming := m' } 0 N with
                    | none => rw [hun] at hx; simp at hx
                    | some ts =>
                      rw [hun] at hx
                      simp only [Option.bind_some, Option.some.injEq, Prod.mk.injEq, Dispatch.mk.injEq] at hx
                      refine ⟨rfl, ?_, ?_⟩
                      · simp only; omega
                      · simp only; omega
      · rw [if_neg hu] at hp; exact hpp p hp
  | complete k id =>
    obtain ⟨s', e, R', P'⟩ := fin k id true hop
    exact ⟨s', none, _, by simp only [step, e]; rfl, R', P'⟩
  | cancel k id =>
    obtain ⟨s', e, R', P'⟩ := fin k id false hop
    exact ⟨s', none, _, by simp only [step, e]; rfl, R', P'⟩

theorem prefix_run {cfg : Cfg} (hN : SmallChunks cfg) (ops : List Op) (hops : ∀ op ∈ ops, OpOk op) (s : State)
    (a : AState) (R : Rel cfg s a) (P : Prefix cfg a) (hw : WholeTiers cfg s ops) :
    ∃ s' ds a', run cfg s ops = some (s', ds) ∧ Rel cfg s' a' ∧ Prefix cfg a' := by
  induction ops generalizing s a with
  | nil => exact ⟨s, [], a, rfl, R, P⟩
  | cons op ops ih =>
    rw [WholeTiers] at hw
    obtain ⟨s1, out, a1, e, R1, P1⟩ := prefix_step R hN P op (hops op (by simp)) hw.1
    obtain ⟨s2, ds, a2, e2, R2, P2⟩ := ih (fun o ho => hops o (by simp [ho])) s1 a1 R1 P1 (hw.2 s1 out e)
    have : ∃ ds', run cfg s (op :: ops) = some (s2, ds') := by
      rw [run, e]
      simp only [Option.bind_eq_bind, Option.bind_some, e2]
      exact ⟨_, rfl⟩
    obtain ⟨ds', e3⟩ := this
    exact ⟨s2, ds', a2, e3, R2, P2⟩

/-- If tiers are only ever streamed out whole then, after any such history: no undefined behaviour occurred,
and when nothing is in flight and the tier is not completely loaded, `stream_in` does not report `done`: it
requests the missing chunks from the first one on (or reports that the streamer has no free request).
Missing with respect to C25: histories with partial stream outs, for which it is false. -/
theorem C25_whole_stream_out_partial (cfg : Cfg) (requests : Nat → List Request) (hN : SmallChunks cfg)
    (hf : FreshRequests requests) (ops : List Op) (hops : ∀ op ∈ ops, OpOk op)
    (hw : WholeTiers cfg (init cfg requests) ops) :
    ∃ s ds, run cfg (init cfg requests) ops = some (s, ds) ∧
      ∀ t, t ≠ .highest → isStreaming cfg s t = some false → isStreamedIn cfg s t = some false →
        ∀ n, 1 ≤ n →
          streamIn cfg s t n = some (s, .noFreeStreamingRequests, none) ∨
          ∃ s' d, streamIn cfg s t n = some (s', .dispatched, some d) ∧
            bitsetTest (s.tier t).loaded d.first = some false ∧
            (∀ i, i < d.first → bitsetTest (s.tier t).loaded i = some true) ∧
            d.count = min n (cfg.numChunks t - d.first) := by
  obtain ⟨s, ds, a, e, R, P⟩ := prefix_run hN ops hops _ AState.empty (rel_init cfg requests hf)
    (fun t => ⟨0, by omega, by simp [AState.empty], by simp [AState.empty]⟩) hw
  refine ⟨s, ds, e, ?_⟩
  intro t ht hidle hnot n hn
  have hp : a.pending t = none := by
    rw [isStreaming_eq R hN t ht] at hidle
    cases hq : a.pending t with
    | none => rfl
    | some p => rw [hq] at hidle; simp at hidle
  obtain ⟨m, hm, hL, _⟩ := P t
  have hlen := R.lenL t
  have hlt := bitsetSize_lt (cfg.numChunks t)
  have hle := bitsetSize_le (cfg.numChunks t)
  have hmN : m < cfg.numChunks t := by
    apply Classical.byContradiction
    intro hc
    obtain ⟨b, hb, hall⟩ := isStreamedIn_eq R hN t ht
    rw [hnot] at hb
    have : b = true := hall.mpr (fun i hi => by rw [hL]; simp; omega)
    rw [this] at hb; simp at hb
  have hbits : ∀ i, i < cfg.numChunks t → bitsetTest (s.tier t).loaded i = some (decide (i < m)) := by
    intro i hi
    rw [bitsetTest_eq _ _ (by omega), R.bitL, hL]
  rcases streamIn_cases R hN t n ht hp hn with ⟨hnone, _⟩ | ⟨f, hsome, _, hcs⟩
  · exfalso
    have h31 := findFirstPending_none _ _ hnone (bitsetSize (cfg.numChunks t) - 1) (by omega)
    rw [R.bitL, hL] at h31
    simp at h31
    omega
  · have hfm := pending_prefix R t m f hL hsome
    rcases hcs with ⟨he, _⟩ | ⟨_, hres⟩
    · omega
    · rcases hres with e' | ⟨s', d, e', h1, h2⟩
      · exact Or.inl e'
      · refine Or.inr ⟨s', d, e', ?_, ?_, ?_⟩
        · rw [h1, hfm, hbits m hmN]; simp
        · intro i hi; rw [hbits i (by omega)]; simp; omega
        · rw [h2, h1]

/-- The hypotheses are met by a history that loads, releases and reloads a tier. -/
example : ∀ n, 1 ≤ n → WholeTiers (C24.exCfg 3) (init (C24.exCfg 3) C24.exReq) [.streamIn .medium n, .complete 0 0] := by
  intro n hn
  exact ⟨hn, fun _ _ _ => ⟨trivial, fun _ _ _ => trivial⟩⟩

/-- One round of loading: ask for `n` chunks, then the streamer completes the request it received. -/
def round (cfg : Cfg) (t : Tier) (n : Nat) (s : State) : Option State := do
  let (s, _, d) ← streamIn cfg s t n
  match d with
  | some d => finish cfg s (cfg.streamerOf t) d.id true
  | none => pure s

def rounds (cfg : Cfg) (t : Tier) (n : Nat) : Nat → State → Option State
  | 0, s => some s
  | k+1, s => do rounds cfg t n k (← round cfg t n s)

/-- Nothing in flight on any tier, the first `m` chunks of `t` loaded. -/
def Quiet (a : AState) (t : Tier) (m : Nat) : Prop :=
  (∀ u, a.pending u = none) ∧ ∀ i, a.loaded t i = decide (i < m)

theorem round_ok {cfg : Cfg} (hN : SmallChunks cfg) (t : Tier) (ht : t ≠ .highest) (n : Nat) (hn : 1 ≤ n) (s : State)
    (a : AState) (R : Rel cfg s a) (m : Nat) (hm : m ≤ cfg.numChunks t) (Q : Quiet a t m) :
    ∃ s' a', round cfg t n s = some s' ∧ Rel cfg s' a' ∧ Quiet a' t (min (m + n) (cfg.numChunks t)) := by
  obtain ⟨s1, r, d, a1, e, hs, R1⟩ := streamIn_refines R hN t n
  have hcase := streamIn_cases R hN t n ht (Q.1 t) hn
  have hlen := R.lenL t
  have hlt := bitsetSize_lt (cfg.numChunks t)
  have hle := bitsetSize_le (cfg.numChunks t)
  have doneCase : streamIn cfg s t n = some (s, .done, none) → m = cfg.numChunks t →
      ∃ s' a', round cfg t n s = some s' ∧ Rel cfg s' a' ∧ Quiet a' t (min (m + n) (cfg.numChunks t)) := by
    intro e' hmN
    refine ⟨s, a, ?_, R, ?_⟩
    · simp [round, e']
    · rw [show min (m + n) (cfg.numChunks t) = m by omega]; exact Q
  rcases hcase with ⟨hnone, e'⟩ | ⟨f, hsome, hfle, hcs⟩
  · by_cases hN0 : cfg.numChunks t = 0
    · exact doneCase e' (by omega)
    · apply doneCase e'
      apply Classical.byContradiction
      intro hne
      have h31 := findFirstPending_none _ _ hnone (bitsetSize (cfg.numChunks t) - 1) (by omega)
      rw [R.bitL, Q.2] at h31
      simp at h31
      omega
  · have hfm := pending_prefix R t m f Q.2 hsome
    rcases hcs with ⟨he, e'⟩ | ⟨hflt, e' | ⟨s', d', e', hd1, hd2⟩⟩
    · exact doneCase e' (by omega)
    · -- every slot is free when nothing is in flight
      exfalso
      rw [e'] at e
      simp only [Option.some.injEq, Prod.mk.injEq] at e
      obtain ⟨rfl, rfl, rfl⟩ := e
      have hf : findFirstPending (s.tier t).loaded 0 = some f := hsome
      unfold streamIn at e'
      rw [isStreaming_eq R hN t ht] at e'
      simp only [if_neg ht, Option.bind_eq_bind, Option.bind_some, Option.pure_def, Q.1 t, Option.isSome_none,
        Bool.false_eq_true, if_false, hf] at e'
      have hns := numStreaming_eq f n (cfg.numChunks t) (by omega) (hN t) hn
      generalize numStreaming f n (cfg.numChunks t) = count at hns e'
      rw [if_neg (by omega)] at e'
      obtain ⟨hs1, hs2, hs3⟩ := R.slots (cfg.streamerOf t)
      rcases buildRequest_spec (s.streamer (cfg.streamerOf t)) .streamIn t f
        count hs1 hs2 hs3 with ⟨q, hr1, hr2, eb⟩ | ⟨q, id, hr1, hr2, hid, hne, st', hst', eb⟩
      · have := (R.slotOk _ _ _ hr1 hr2).2.2
        rw [Q.1] at this; simp at this
      · obtain ⟨mm, em, lm, bm⟩ := setRange_streaming R t (Q.1 t) .streamIn f count (by omega)
        rw [eb, em] at e'
        simp only [Option.bind_some, if_neg hne] at e'
        simp at e'
    · rw [e'] at e
      simp only [Option.some.injEq, Prod.mk.injEq] at e
      obtain ⟨rfl, rfl, rfl⟩ := e
      cases hs with
      | dispatched first count id flag h1 h2 h3 h4 h5 h6 h7 =>
        simp only at hd1 hd2
        -- the identifier fits in 64 bits: it designates a slot
        have hpend := R1.pendOk t ⟨.streamIn, first, count, id⟩ (by simp)
        obtain ⟨i, q, g1, g2, g3, g4⟩ := hpend
        have hid : id = makeRequestId i q.gen := by
          have := congrArg Pending.id g4; simpa using this
        have hi : i < 2 ^ 32 := by
          have := (List.getElem?_eq_some_iff.mp g1).1
          have := (R1.slots (cfg.streamerOf t)).2.1
          omega
        have hidlt : id < 2 ^ 64 := by rw [hid]; unfold makeRequestId; omega
        obtain ⟨s2, e2, R2⟩ := finish_refines R1 (cfg.streamerOf t) id hidlt true
        refine ⟨s2, _, ?_, R2, ?_, ?_⟩
        · simp only [round, e', Option.bind_eq_bind, Option.bind_some]; exact e2
        · intro u
          by_cases hu : u = t
          · simp [afterFinish, hu]
          · simp [afterFinish, hu, Q.1 u]
        · intro i
          simp only [afterFinish, if_true, applyRequest, covers_iff, Q.2, and_self]
          by_cases h8 : first ≤ i ∧ i < first + count
          · rw [if_pos h8]; simp; omega
          · rw [if_neg h8]; congr 1; apply propext; omega

/-- Starting from an empty context with nothing else in flight, asking repeatedly for `n` chunks loads the
whole tier in `⌈N / n⌉` rounds: every chunk gets loaded. -/
theorem C25_fill_partial (cfg : Cfg) (requests : Nat → List Request) (hN : SmallChunks cfg)
    (hf : FreshRequests requests) (t : Tier) (ht : t ≠ .highest) (n : Nat) (hn : 1 ≤ n) (k : Nat)
    (hk : cfg.numChunks t ≤ k * n) :
    ∃ s, rounds cfg t n k (init cfg requests) = some s ∧ isStreamedIn cfg s t = some true := by
  have main : ∀ k s a m, Rel cfg s a → m ≤ cfg.numChunks t → Quiet a t m →
      ∃ s' a', rounds cfg t n k s = some s' ∧ Rel cfg s' a' ∧ Quiet a' t (min (m + k * n) (cfg.numChunks t)) := by
    intro k
    induction k with
    | zero => intro s a m R hm Q; exact ⟨s, a, rfl, R, by rw [show min (m + 0 * n) (cfg.numChunks t) = m by omega]; exact Q⟩
    | succ k ih =>
      intro s a m R hm Q
      obtain ⟨s1, a1, e1, R1, Q1⟩ := round_ok hN t ht n hn s a R m hm Q
      obtain ⟨s2, a2, e2, R2, Q2⟩ := ih s1 a1 _ R1 (by omega) Q1
      refine ⟨s2, a2, ?_, R2, ?_⟩
      · simp only [rounds, e1, Option.bind_eq_bind, Option.bind_some, e2]
      · have : min (min (m + n) (cfg.numChunks t) + k * n) (cfg.numChunks t) = min (m + (k + 1) * n) (cfg.numChunks t) := by
          rw [Nat.add_mul]; omega
        rw [← this]; exact Q2
  obtain ⟨s, a, e, R, Q⟩ := main k _ AState.empty 0 (rel_init cfg requests hf) (by omega)
    ⟨fun _ => rfl, fun i => by simp [AState.empty]⟩
  refine ⟨s, e, ?_⟩
  obtain ⟨b, hb, hall⟩ := isStreamedIn_eq R hN t ht
  rw [hb]
  congr 1
  apply hall.mpr
  intro i hi
  rw [Q.2]; simp; omega

example : ∃ s, rounds (C24.exCfg 5) .lowest 2 3 (init (C24.exCfg 5) C24.exReq) = some s ∧
    isStreamedIn (C24.exCfg 5) s .lowest = some true :=
  C25_fill_partial _ _ (fun _ => by simp [C24.exCfg]) C24.ex_fresh _ (by simp) 2 (by omega) 3 (by simp [C24.exCfg])

end Acl.C25
