import Verif.Database.StreamingSpec
import Verif.Database.StreamingLemmas
namespace Acl.Streaming
open Spec

/-- Refinement relation. -/
structure Rel (cfg : Cfg) (s : State) (a : AState) : Prop where
  lenL : ∀ t, (s.tier t).loaded.length = bitsetSize (cfg.numChunks t)
  lenS : ∀ t, (s.tier t).streaming.length = bitsetSize (cfg.numChunks t)
  bitL : ∀ t i, bsBit (s.tier t).loaded i = a.loaded t i
  tailL : ∀ t i, cfg.numChunks t ≤ i → a.loaded t i = false
  noneS : ∀ t, a.pending t = none → ∀ i, bsBit (s.tier t).streaming i = false
  someS : ∀ t p, a.pending t = some p → ∀ i, bsBit (s.tier t).streaming i = p.covers i
  range : ∀ t p, a.pending t = some p → 1 ≤ p.count ∧ p.first + p.count ≤ cfg.numChunks t
  notHigh : ∀ t p, a.pending t = some p → t ≠ .highest
  outLoaded : ∀ t p, a.pending t = some p → p.action = .streamOut → ∀ i, p.covers i = true → a.loaded t i = true
  slotOk : ∀ k i r, (s.streamer k).requests[i]? = some r → r.tier ≠ .highest →
    cfg.streamerOf r.tier = k ∧ r.gen < 2 ^ 32 ∧ a.pending r.tier = some ⟨r.action, r.first, r.count, makeRequestId i r.gen⟩
  pendOk : ∀ t p, a.pending t = some p → ∃ i r, (s.streamer (cfg.streamerOf t)).requests[i]? = some r ∧
    r.tier = t ∧ r.gen < 2 ^ 32 ∧ p = ⟨r.action, r.first, r.count, makeRequestId i r.gen⟩
  slots : ∀ k, (s.streamer k).next < (s.streamer k).requests.length ∧ (s.streamer k).requests.length < 2 ^ 32 ∧
    (s.streamer k).gen < 2 ^ 32
  reg : ∀ t i, (s.tier t).registered i = (a.loaded t i &&
    !(match a.pending t with | some p => p.action == .streamOut && p.covers i | none => false))
  bulk : ∀ t i, (s.tier t).registered i = true → (s.tier t).bulk = true

theorem rel_init (cfg : Cfg) (requests : Nat → List Request) (h : FreshRequests requests) :
    Rel cfg (init cfg requests) AState.empty where
  lenL t := by simp [init]
  lenS t := by simp [init]
  bitL t i := bsBit_replicate _ i
  tailL t i _ := rfl
  noneS t _ i := bsBit_replicate _ i
  someS t p h := by simp [AState.empty] at h
  range t p h := by simp [AState.empty] at h
  notHigh t p h := by simp [AState.empty] at h
  outLoaded t p h := by simp [AState.empty] at h
  slotOk k i r hr ht := by
    exact absurd ((h k).2.2 r (List.mem_of_getElem? hr)) ht
  pendOk t p h := by simp [AState.empty] at h
  slots k := ⟨by simpa [init] using (h k).1, by simpa [init] using (h k).2.1, by simp [init]⟩
  reg t i := by simp [init, AState.empty]
  bulk t i := by simp [init]

variable {cfg : Cfg} {s : State} {a : AState}

theorem Rel.pend_lt (R : Rel cfg s a) {t p} (h : a.pending t = some p) : p.first + p.count ≤ cfg.numChunks t :=
  (R.range t p h).2

theorem Rel.tailS (R : Rel cfg s a) (t : Tier) (i : Nat) (hi : cfg.numChunks t ≤ i) :
    bsBit (s.tier t).streaming i = false := by
  cases hp : a.pending t with
  | none => exact R.noneS t hp i
  | some p =>
    rw [R.someS t p hp i, Pending.covers]
    have := R.pend_lt hp
    simp; omega

/-- `is_streaming` tells whether a request is in flight. -/
theorem isStreaming_eq (R : Rel cfg s a) (hN : SmallChunks cfg) (t : Tier) (ht : t ≠ .highest) :
    isStreaming cfg s t = some (a.pending t).isSome := by
  obtain ⟨c, e, hc⟩ := bitsetCount_eq (s.tier t).streaming (cfg.numChunks t) (R.lenS t) (R.tailS t) (hN t)
  unfold isStreaming
  rw [if_neg ht, e]
  simp only [Option.bind_eq_bind, Option.bind_some, Option.pure_def]
  congr 1
  rw [Bool.eq_iff_iff, bne_iff_ne]
  have h0 : c ≠ 0 ↔ c.toNat ≠ 0 := by
    constructor
    · intro h h'; exact h (BitVec.eq_of_toNat_eq (by simpa using h'))
    · intro h h'; rw [h'] at h; exact h rfl
  rw [h0, hc, countBelow_ge_one]
  cases hp : a.pending t with
  | none => simp [R.noneS t hp]
  | some p =>
    have := R.range t p hp
    simp only [R.someS t p hp, Option.isSome_some, iff_true]
    exact ⟨p.first, by omega, by simp [Pending.covers]; omega⟩

/-- `is_streamed_in` tells whether every chunk is loaded. -/
theorem isStreamedIn_eq (R : Rel cfg s a) (hN : SmallChunks cfg) (t : Tier) (ht : t ≠ .highest) :
    ∃ b, isStreamedIn cfg s t = some b ∧ (b = true ↔ ∀ i, i < cfg.numChunks t → a.loaded t i = true) := by
  have tail : ∀ i, cfg.numChunks t ≤ i → bsBit (s.tier t).loaded i = false := fun i hi => by
    rw [R.bitL]; exact R.tailL t i hi
  obtain ⟨c, e, hc⟩ := bitsetCount_eq (s.tier t).loaded (cfg.numChunks t) (R.lenL t) tail (hN t)
  refine ⟨c.toNat == cfg.numChunks t, ?_, ?_⟩
  · unfold isStreamedIn; rw [if_neg ht, e]; rfl
  · rw [beq_iff_eq, hc, countBelow_full]
    simp only [R.bitL]

theorem updStreamer_self (f : Nat → Streamer) (k : Nat) : updStreamer f k (f k) = f := by
  funext j; unfold updStreamer; split
  · rename_i h; rw [h]
  · rfl

theorem makeRequestId_inj {i j g h : Nat} (hi : i < 2 ^ 32) (hj : j < 2 ^ 32)
    (e : makeRequestId i g = makeRequestId j h) : i = j ∧ g = h := by
  unfold makeRequestId at e; omega

/-- The streamer after a request was recorded. -/
structure Built (st : Streamer) (act : Action) (t : Tier) (first count : Nat) (st' : Streamer) : Prop where
  requests : st'.requests = st.requests.set st.next { action := act, tier := t, first := first, count := count, gen := st.gen }
  next : st'.next = (st.next + 1) % st.requests.length
  gen : st'.gen = (st.gen + 1) % 2 ^ 32

/-- Facts about `build_request`. -/
theorem buildRequest_spec (st : Streamer) (act : Action) (t : Tier) (first count : Nat)
    (h1 : st.next < st.requests.length) (h2 : st.requests.length < 2 ^ 32) (h3 : st.gen < 2 ^ 32) :
    (∃ r, st.requests[st.next]? = some r ∧ r.tier ≠ .highest ∧
      buildRequest st act t first count = some (invalidRequestId, st)) ∨
    (∃ r id, st.requests[st.next]? = some r ∧ r.tier = .highest ∧ id = makeRequestId st.next st.gen ∧
      id ≠ invalidRequestId ∧
      ∃ st', Built st act t first count st' ∧
      buildRequest st act t first count = some (id, st')) := by
  unfold buildRequest
  rw [List.getElem?_eq_getElem h1]
  by_cases h : st.requests[st.next].tier = .highest
  · right
    refine ⟨_, _, rfl, h, rfl, ?_, ⟨st.requests.set st.next { action := act, tier := t, first := first, count := count, gen := st.gen }, (st.gen + 1) % 2^32, (st.next + 1) % st.requests.length⟩, ⟨rfl, rfl, rfl⟩, ?_⟩
    · unfold makeRequestId invalidRequestId; omega
    · simp [h]
  · left
    refine ⟨_, rfl, h, ?_⟩
    simp [h]

/-- A dispatched request is recorded in a free slot: the relation is kept if the tier part is. -/
theorem rel_dispatch (R : Rel cfg s a) (t : Tier) (ht : t ≠ .highest) (hp : a.pending t = none)
    (act : Action) (first count : Nat) (hc : 1 ≤ count) (hr : first + count ≤ cfg.numChunks t)
    (ts : TierState) (st : Streamer) (hst : st = s.streamer (cfg.streamerOf t)) (r0 : Request)
    (hr0 : st.requests[st.next]? = some r0) (hfree : r0.tier = .highest)
    (hL : ts.loaded = (s.tier t).loaded)
    (hlen : ts.streaming.length = (s.tier t).streaming.length)
    (hS : ∀ i, bsBit ts.streaming i = (Pending.mk act first count 0).covers i)
    (hout : act = .streamOut → ∀ i, first ≤ i → i < first + count → a.loaded t i = true)
    (hreg : ∀ i, ts.registered i = (a.loaded t i && !(act == .streamOut && (Pending.mk act first count 0).covers i)))
    (hbulk : ∀ i, ts.registered i = true → ts.bulk = true)
    (st' : Streamer) (hst' : Built st act t first count st') (id : Nat) (hid : id = makeRequestId st.next st.gen) :
    Rel cfg { tier := updTier s.tier t ts
              streamer := updStreamer s.streamer (cfg.streamerOf t) st' }
      { a with pending := fun u => if u = t then some ⟨act, first, count, id⟩ else a.pending u } := by
  obtain ⟨hs1, hs2, hs3⟩ := R.slots (cfg.streamerOf t)
  rw [← hst] at hs1 hs2 hs3
  -- slot facts
  have slotNew : ∀ k i r, (updStreamer s.streamer (cfg.streamerOf t) st' k).requests[i]? = some r →
      (k = cfg.streamerOf t ∧ i = st.next ∧ r = { action := act, tier := t, first := first, count := count, gen := st.gen }) ∨
      ((k = cfg.streamerOf t → i ≠ st.next) ∧ (s.streamer k).requests[i]? = some r) := by
    intro k i r h
    unfold updStreamer at h
    split at h
    · rename_i hk
      rw [hst'.requests] at h
      by_cases hi : i = st.next
      · left
        subst hi
        rw [List.getElem?_set_self hs1] at h
        exact ⟨hk, rfl, (Option.some.inj h).symm⟩
      · right
        rw [List.getElem?_set_ne (fun h => hi h.symm)] at h
        refine ⟨fun _ => hi, ?_⟩
        rw [hk, ← hst]; exact h
    · rename_i hk
      exact Or.inr ⟨fun h => absurd h hk, h⟩
  constructor
  · intro u; simp only [updTier]; split
    · rename_i h; rw [hL, h]; exact R.lenL t
    · exact R.lenL u
  · intro u; simp only [updTier]; split
    · rename_i h; rw [hlen, h]; exact R.lenS t
    · exact R.lenS u
  · intro u i; simp only [updTier]; split
    · rename_i h; rw [hL, h]; exact R.bitL t i
    · exact R.bitL u i
  · exact R.tailL
  · intro u hu i; simp only [updTier]
    by_cases h : u = t
    · simp [h] at hu
    · simp [h] at hu ⊢; exact R.noneS u hu i
  · intro u p hu i; simp only [updTier]
    by_cases h : u = t
    · simp [h] at hu ⊢; rw [hS i, ← hu]; rfl
    · simp [h] at hu ⊢; exact R.someS u p hu i
  · intro u p hu
    by_cases h : u = t
    · simp [h] at hu; rw [← hu, h]; exact ⟨hc, hr⟩
    · simp [h] at hu; exact R.range u p hu
  · intro u p hu
    by_cases h : u = t
    · rw [h]; exact ht
    · simp [h] at hu; exact R.notHigh u p hu
  · intro u p hu hact i hi
    by_cases h : u = t
    · simp [h] at hu
      subst hu; subst h
      simp [Pending.covers] at hi
      exact hout hact i hi.1 hi.2
    · simp [h] at hu; exact R.outLoaded u p hu hact i hi
  · intro k i r h hv
    rcases slotNew k i r h with ⟨hk, hi, hreq⟩ | ⟨_, hold⟩
    · subst hreq; subst hi
      refine ⟨hk.symm, hs3, by simp [hid]⟩
    · obtain ⟨h1, h2, h3⟩ := R.slotOk k i r hold hv
      refine ⟨h1, h2, ?_⟩
      have : r.tier ≠ t := by
        intro h; rw [h, hp] at h3; simp at h3
      simp [this, h3]
  · intro u p hu
    by_cases h : u = t
    · simp [h] at hu
      refine ⟨st.next, { action := act, tier := t, first := first, count := count, gen := st.gen }, ?_, ?_, hs3, ?_⟩
      · subst h
        simp only [updStreamer, if_pos]
        rw [hst'.requests, List.getElem?_set_self hs1]
      · exact h.symm
      · rw [← hid]; exact hu.symm
    · simp [h] at hu
      obtain ⟨i, r, h1, h2, h3, h4⟩ := R.pendOk u p hu
      refine ⟨i, r, ?_, h2, h3, h4⟩
      simp only [updStreamer]
      split
      · rename_i hk
        rw [hk, ← hst] at h1
        have : st.next ≠ i := by
          intro hi; rw [hi, h1] at hr0
          have := Option.some.inj hr0
          rw [this, hfree] at h2
          exact R.notHigh u p hu h2.symm
        rw [hst'.requests, List.getElem?_set_ne this]; exact h1
      · exact h1
  · intro k
    simp only [updStreamer]; split
    · refine ⟨?_, ?_, ?_⟩
      · rw [hst'.requests, hst'.next, List.length_set]; exact Nat.mod_lt _ (by omega)
      · rw [hst'.requests, List.length_set]; exact hs2
      · rw [hst'.gen]; exact Nat.mod_lt _ (by omega)
    · exact R.slots k
  · intro u i; simp only [updTier]
    by_cases h : u = t
    · simp only [h, if_pos]
      rw [hreg]; rfl
    · simp only [h, if_false]; exact R.reg u i
  · intro u i; simp only [updTier]
    by_cases h : u = t
    · simp only [h, if_pos]; exact hbulk i
    · simp only [h, if_false]; exact R.bulk u i

/-- unregistering succeeds only on loaded chunks, and clears exactly those registrations -/
theorem unregister_spec (k : Nat) (ts ts' : TierState) (c : Nat) (h : unregister ts c k = some ts') :
    (∀ i, c ≤ i → i < c + k → bsBit ts.loaded i = true) ∧
    ts'.loaded = ts.loaded ∧ ts'.streaming = ts.streaming ∧ ts'.bulk = ts.bulk ∧
    ∀ i, ts'.registered i = (if c ≤ i ∧ i < c + k then false else ts.registered i) := by
  induction k generalizing ts c with
  | zero =>
    simp only [unregister, Option.some.injEq] at h
    subst h
    exact ⟨fun i _ _ => by omega, rfl, rfl, rfl, fun i => by rw [if_neg (by omega)]⟩
  | succ k ih =>
    rw [unregister] at h
    have hlt : c / 32 < ts.loaded.length := by
      apply Classical.byContradiction
      intro hc
      have hn : ts.loaded[c / 32]? = none := List.getElem?_eq_none (by omega)
      simp [bitsetTest, hn] at h
    rw [bitsetTest_eq _ _ hlt] at h
    simp only [Option.bind_eq_bind, Option.bind_some] at h
    split at h
    · rename_i hb
      obtain ⟨h1, h2, h3, h4, h5⟩ := ih _ _ h
      refine ⟨?_, h2, h3, h4, ?_⟩
      · intro i hi hi2
        by_cases hic : i = c
        · rw [hic]; exact hb
        · exact h1 i (by omega) (by omega)
      · intro i
        rw [h5]
        simp only
        by_cases hic : i = c
        · rw [if_neg (by omega), if_pos hic, if_pos (by omega)]
        · rw [if_neg hic]
          by_cases h6 : c + 1 ≤ i ∧ i < c + 1 + k
          · rw [if_pos h6, if_pos (by omega)]
          · rw [if_neg h6, if_neg (by omega)]
    · simp at h

/-- it never fails on loaded chunks -/
theorem unregister_some (k : Nat) (ts : TierState) (c : Nat) (hlen : c + k ≤ ts.loaded.length * 32)
    (h : ∀ i, c ≤ i → i < c + k → bsBit ts.loaded i = true) : ∃ ts', unregister ts c k = some ts' := by
  induction k generalizing ts c with
  | zero => exact ⟨ts, rfl⟩
  | succ k ih =>
    rw [unregister, bitsetTest_eq _ _ (by omega), h c (by omega) (by omega)]
    simp only [Option.bind_eq_bind, Option.bind_some, if_true]
    exact ih _ _ (by simp only; omega) (fun i h1 h2 => h i (by omega) (by omega))

theorem setRange_streaming (R : Rel cfg s a) (t : Tier) (hp : a.pending t = none) (act : Action)
    (first count : Nat) (hr : first + count ≤ cfg.numChunks t) :
    ∃ m, bitsetSetRange (s.tier t).streaming first count true = some m ∧
      m.length = (s.tier t).streaming.length ∧
      ∀ i, bsBit m i = (Pending.mk act first count 0).covers i := by
  have := bitsetSize_le (cfg.numChunks t)
  obtain ⟨m, e, l, _, b⟩ := bitsetSetRange_spec count (s.tier t).streaming first (bitsetSize (cfg.numChunks t)) true
    (by omega) (by rw [R.lenS t]; exact Nat.le_refl _)
  refine ⟨m, e, l, fun i => ?_⟩
  rw [b i, R.noneS t hp]
  simp only [Pending.covers]
  by_cases h1 : first ≤ i <;> by_cases h2 : i < first + count <;> simp [h1, h2]

/-- The first pending chunk is a chunk of the tier or one past the end, provided the tier has chunks. -/
theorem pending_le (R : Rel cfg s a) (t : Tier) (first : Nat)
    (h : findFirstPending (s.tier t).loaded 0 = some first) : first ≤ cfg.numChunks t := by
  obtain ⟨_, h2, h3, h4, h5, h6⟩ := findFirstPending_some _ _ _ h
  apply Classical.byContradiction
  intro hc
  have hlen := R.lenL t
  have hlt := bitsetSize_lt (cfg.numChunks t)
  have hle := bitsetSize_le (cfg.numChunks t)
  by_cases hm : first % 32 = 0
  · have hd := h5 (first / 32 - 1)
    omega
  · have := h6 hm
    rw [R.bitL, R.tailL t _ (by omega)] at this
    simp at this

theorem tier_pos (R : Rel cfg s a) (t : Tier) (first : Nat)
    (h : first < 32 * (s.tier t).loaded.length) : 0 < cfg.numChunks t := by
  have hlen := R.lenL t
  have hlt := bitsetSize_lt (cfg.numChunks t)
  omega

/-- `stream_in` never fails and does what the specification allows. -/
theorem streamIn_refines (R : Rel cfg s a) (hN : SmallChunks cfg) (t : Tier) (n : Nat) :
    ∃ s' r d a', streamIn cfg s t n = some (s', r, d) ∧ StreamStep cfg a .streamIn t n a' r d ∧ Rel cfg s' a' := by
  unfold streamIn
  by_cases ht : t = .highest
  · refine ⟨s, _, _, a, ?_, .invalid ht, R⟩
    simp [ht]
  · rw [isStreaming_eq R hN t ht]
    simp only [if_neg ht, Option.bind_eq_bind, Option.bind_some, Option.pure_def]
    cases hp : a.pending t with
    | some p =>
      refine ⟨s, _, _, a, ?_, .busy ht (by simp [hp]), R⟩
      simp
    | none =>
      simp only [Option.isSome_none, Bool.false_eq_true, if_false]
      cases hf : findFirstPending (s.tier t).loaded 0 with
      | none => exact ⟨s, _, _, a, rfl, .done ht hp, R⟩
      | some first =>
        simp only
        have hle := pending_le R t first hf
        obtain ⟨_, hf2, hf3, _⟩ := findFirstPending_some _ _ _ hf
        have hpos := tier_pos R t first (by omega)
        obtain ⟨hr, hcn⟩ := numStreaming_range first n (cfg.numChunks t) hle (hN t) hpos
        generalize numStreaming first n (cfg.numChunks t) = count at hr hcn ⊢
        by_cases hc : count = 0
        · refine ⟨s, _, _, a, ?_, .done ht hp, R⟩
          simp [hc]
        · rw [if_neg hc]
          obtain ⟨hs1, hs2, hs3⟩ := R.slots (cfg.streamerOf t)
          rcases buildRequest_spec (s.streamer (cfg.streamerOf t)) .streamIn t first
            count hs1 hs2 hs3 with ⟨r, hr1, hr2, e⟩ | ⟨r, id, hr1, hr2, hid, hne, st', hst', e⟩
          · refine ⟨s, .noFreeStreamingRequests, none, a, ?_, .noFree ht hp, R⟩
            rw [e]; simp [updStreamer_self]
          · obtain ⟨m, em, lm, bm⟩ := setRange_streaming R t hp .streamIn first _ hr
            rw [e, em]
            simp only [Option.bind_some, if_neg hne]
            refine ⟨_, _, _, _, rfl, .dispatched first count _ _ ht hp (by omega) hr hcn ?_ (by simp), ?_⟩
            · intro _; rw [← R.bitL]; simpa using hf3
            · refine rel_dispatch R t ht hp .streamIn first _ (by omega) hr
                { (s.tier t) with streaming := m } (s.streamer (cfg.streamerOf t)) rfl r hr1 hr2 rfl lm bm
                (by simp) ?_ ?_ st' hst' id hid
              · intro i
                have := R.reg t i
                rw [hp] at this
                rw [this]; rfl
              · exact R.bulk t

theorem countBelow_gt_range {p : Nat → Bool} {first k N i : Nat} (hr : first + k ≤ N) (hi : i < N)
    (hout : ¬ (first ≤ i ∧ i < first + k))
    (h1 : ∀ j, first ≤ j → j < first + k → p j = true) (h2 : p i = true) : k < countBelow N p := by
  have e : N = first + (k + (N - first - k)) := by omega
  rw [e, countBelow_add, countBelow_add]
  have full : countBelow k (fun i => p (first + i)) = k :=
    (countBelow_full _ _).mpr (fun j hj => h1 _ (by omega) (by omega))
  rw [full]
  by_cases hlo : i < first
  · have := (countBelow_ge_one first p).mpr ⟨i, hlo, h2⟩
    omega
  · have := (countBelow_ge_one (N - first - k) (fun j => p (first + (k + j)))).mpr
      ⟨i - first - k, by omega, by rw [show first + (k + (i - first - k)) = i by omega]; exact h2⟩
    omega

/-- If `stream_out` does not fault, it does what the specification allows. -/
theorem streamOut_refines (R : Rel cfg s a) (hN : SmallChunks cfg) (t : Tier) (n : Nat)
    (s' : State) (r : Result) (d : Option Dispatch) (h : streamOut cfg s t n = some (s', r, d)) :
    ∃ a', StreamStep cfg a .streamOut t n a' r d ∧ Rel cfg s' a' := by
  unfold streamOut at h
  by_cases ht : t = .highest
  · simp [ht] at h
    obtain ⟨rfl, rfl, rfl⟩ := h
    exact ⟨a, .invalid ht, R⟩
  · rw [isStreaming_eq R hN t ht] at h
    simp only [if_neg ht, Option.bind_eq_bind, Option.bind_some, Option.pure_def] at h
    cases hp : a.pending t with
    | some p =>
      simp [hp] at h
      obtain ⟨rfl, rfl, rfl⟩ := h
      exact ⟨a, .busy ht (by simp [hp]), R⟩
    | none =>
      simp only [hp, Option.isSome_none, Bool.false_eq_true, if_false] at h
      cases hf : findFirstLoaded (s.tier t).loaded 0 with
      | none =>
        simp [hf] at h
        obtain ⟨rfl, rfl, rfl⟩ := h
        exact ⟨a, .done ht hp, R⟩
      | some first =>
        simp only [hf] at h
        obtain ⟨_, hf2, hf3, hf4⟩ := findFirstLoaded_some _ _ _ hf
        have hlt : first < cfg.numChunks t := by
          apply Classical.byContradiction
          intro hc
          have := R.tailL t first (by omega)
          rw [← R.bitL] at this
          simp at hf3
          rw [hf3] at this; simp at this
        have hpos := tier_pos R t first (by omega)
        obtain ⟨hr, hcn⟩ := numStreaming_range first n (cfg.numChunks t) (by omega) (hN t) hpos
        generalize numStreaming first n (cfg.numChunks t) = count at hr hcn h
        by_cases hc : count = 0
        · simp [hc] at h
          obtain ⟨rfl, rfl, rfl⟩ := h
          exact ⟨a, .done ht hp, R⟩
        · rw [if_neg hc] at h
          obtain ⟨hs1, hs2, hs3⟩ := R.slots (cfg.streamerOf t)
          rcases buildRequest_spec (s.streamer (cfg.streamerOf t)) .streamOut t first
            count hs1 hs2 hs3 with ⟨q, hr1, hr2, e⟩ | ⟨q, id, hr1, hr2, hid, hne, st', hst', e⟩
          · rw [e] at h
            simp [updStreamer_self] at h
            obtain ⟨rfl, rfl, rfl⟩ := h
            exact ⟨a, .noFree ht hp, R⟩
          · obtain ⟨m, em, lm, bm⟩ := setRange_streaming R t hp .streamOut first _ hr
            have tail : ∀ i, cfg.numChunks t ≤ i → bsBit (s.tier t).loaded i = false := fun i hi => by
              rw [R.bitL]; exact R.tailL t i hi
            obtain ⟨c, ec, hcc⟩ := bitsetCount_eq (s.tier t).loaded (cfg.numChunks t) (R.lenL t) tail (hN t)
            rw [e, em, ec] at h
            simp only [Option.bind_some, if_neg hne] at h
            cases hu : unregister { (s.tier t) with streaming := m } first count with
            | none => rw [hu] at h; simp at h
            | some ts' =>
              rw [hu] at h
              simp only [Option.bind_some, Option.some.injEq, Prod.mk.injEq] at h
              obtain ⟨rfl, rfl, rfl⟩ := h
              obtain ⟨u1, u2, u3, u4, u5⟩ := unregister_spec _ _ _ _ hu
              have hall : ∀ i, first ≤ i → i < first + count → a.loaded t i = true := by
                intro i h1 h2; rw [← R.bitL]; exact u1 i h1 h2
              refine ⟨_, .dispatched first count _ _ ht hp (by omega) hr hcn (by simp) (fun _ => hall), ?_⟩
              refine rel_dispatch R t ht hp .streamOut first _ (by omega) hr
                _ (s.streamer (cfg.streamerOf t)) rfl q hr1 hr2 (by simpa using u2) (by simp only [u3]; exact lm)
                (by intro i; simp only [u3]; exact bm i) (fun _ => hall) ?_ ?_ st' hst' id hid
              · intro i
                have := R.reg t i
                rw [hp] at this
                simp only [u5, this]
                simp only [Pending.covers]
                by_cases h1 : first ≤ i <;> by_cases h2 : i < first + count <;> simp [h1, h2]
              · intro i
                have hreg := R.reg t i
                rw [hp] at hreg
                have hb := R.bulk t i
                simp only [u5]
                split
                · simp
                · rename_i hout
                  intro hri
                  have hli : a.loaded t i = true := by
                    rw [hri] at hreg; simpa using hreg.symm
                  -- more chunks are loaded than the range holds
                  split
                  · rename_i hcan
                    exfalso
                    have hcan : count = c.toNat := by simpa using hcan
                    rw [hcc] at hcan
                    have hiN : i < cfg.numChunks t := by
                      apply Classical.byContradiction
                      intro hc
                      have := R.tailL t i (by omega)
                      rw [hli] at this; simp at this
                    exact absurd hcan (Nat.ne_of_lt (countBelow_gt_range hr hiN hout (fun j h1 h2 => u1 j h1 h2) (by rw [R.bitL]; exact hli)))
                  · exact hb hri

theorem setRange_tier (m : List (BitVec 32)) (N first count : Nat) (v : Bool) (hlen : m.length = bitsetSize N)
    (hr : first + count ≤ N) :
    ∃ m', bitsetSetRange m first count v = some m' ∧ m'.length = bitsetSize N ∧
      ∀ i, bsBit m' i = if first ≤ i ∧ i < first + count then v else bsBit m i := by
  have := bitsetSize_le N
  obtain ⟨m', e, l, _, b⟩ := bitsetSetRange_spec count m first (bitsetSize N) v (by omega) (by omega)
  exact ⟨m', e, by omega, b⟩

theorem covers_iff (p : Pending) (i : Nat) : p.covers i = true ↔ p.first ≤ i ∧ i < p.first + p.count := by
  simp [Pending.covers]

/-- What executing a request does to its tier. -/
theorem executeRequest_spec (R : Rel cfg s a) (success : Bool) (r : Request) (p : Pending)
    (hp : a.pending r.tier = some p) (ha : p.action = r.action) (hf : p.first = r.first) (hc : p.count = r.count) :
    ∃ ts, executeRequest cfg s success r = some { s with tier := updTier s.tier r.tier ts } ∧
      ts.loaded.length = bitsetSize (cfg.numChunks r.tier) ∧
      ts.streaming.length = bitsetSize (cfg.numChunks r.tier) ∧
      (∀ i, bsBit ts.loaded i = applyRequest (a.loaded r.tier) p success i) ∧
      (∀ i, bsBit ts.streaming i = false) ∧
      (∀ i, ts.registered i = applyRequest (a.loaded r.tier) p success i) ∧
      (∀ i, ts.registered i = true → ts.bulk = true) := by
  have hr := R.range _ _ hp
  rw [hf, hc] at hr
  have hreg := R.reg r.tier
  rw [hp] at hreg
  have hout := R.outLoaded _ _ hp
  have hs := R.someS _ _ hp
  obtain ⟨ms, es, ls, bs⟩ := setRange_tier (s.tier r.tier).streaming (cfg.numChunks r.tier) r.first r.count false (R.lenS _) hr.2
  have hms : ∀ i, bsBit ms i = false := by
    intro i
    rw [bs i]; split
    · rfl
    · rename_i h
      rw [hs i, Pending.covers, hf, hc]; simp; omega
  unfold executeRequest
  cases hact : r.action with
  | streamIn =>
    cases success with
    | false =>
      simp only [Bool.false_eq_true, if_false, Option.pure_def, Option.bind_eq_bind, Option.bind_some, es]
      refine ⟨_, rfl, R.lenL _, ls, ?_, hms, ?_, R.bulk _⟩
      · intro i; rw [R.bitL]; simp [applyRequest, ha, hact]
      · intro i; simp only [hreg i, ha, hact, applyRequest]; simp
    | true =>
      obtain ⟨ml, el, ll, bl⟩ := setRange_tier (s.tier r.tier).loaded (cfg.numChunks r.tier) r.first r.count true (R.lenL _) hr.2
      simp only [if_true, Option.pure_def, Option.bind_eq_bind, Option.bind_some, el, es]
      refine ⟨_, rfl, ll, ls, ?_, hms, ?_, fun _ _ => rfl⟩
      · intro i; rw [bl i, R.bitL]
        simp only [applyRequest, covers_iff, hf, hc, ha, hact, Bool.true_or]
      · intro i
        have hne : (Action.streamIn == Action.streamOut) = false := by decide
        simp only [hreg i, ha, hact, applyRequest, covers_iff, hf, hc, hne]; simp
  | streamOut =>
    obtain ⟨ml, el, ll, bl⟩ := setRange_tier (s.tier r.tier).loaded (cfg.numChunks r.tier) r.first r.count false (R.lenL _) hr.2
    simp only [Option.pure_def, Option.bind_eq_bind, Option.bind_some, el, es]
    refine ⟨_, rfl, ll, ls, ?_, hms, ?_, R.bulk _⟩
    · intro i; rw [bl i, R.bitL]
      simp only [applyRequest, covers_iff, hf, hc, ha, hact]
    · intro i; simp only [hreg i, ha, hact, applyRequest]
      cases h : p.covers i <;> simp

theorem makeRequestId_split (id : Nat) (h : id < 2 ^ 64) :
    makeRequestId (id % 2 ^ 32) (id / 2 ^ 32 % 2 ^ 32) = id := by
  unfold makeRequestId; omega

theorem makeRequestId_index (i g : Nat) (hi : i < 2 ^ 32) (hg : g < 2 ^ 32) :
    makeRequestId i g % 2 ^ 32 = i ∧ makeRequestId i g / 2 ^ 32 % 2 ^ 32 = g := by
  unfold makeRequestId; omega

/-- An identifier that designates no request in flight has no effect in the specification. -/
theorem afterFinish_none (a : AState) (k id : Nat) (b : Bool)
    (h : ∀ t p, a.pending t = some p → ¬ (cfg.streamerOf t = k ∧ p.id = id)) :
    afterFinish cfg a k id b = a := by
  unfold afterFinish
  cases a with
  | mk L P =>
    simp only [AState.mk.injEq]
    constructor
    · funext t
      cases hp : P t with
      | none => rfl
      | some p => simp only; rw [if_neg (h t p hp)]
    · funext t
      cases hp : P t with
      | none => rfl
      | some p => simp only; rw [if_neg (h t p hp)]

theorem finish_refines (R : Rel cfg s a) (k id : Nat) (hid : id < 2 ^ 64) (b : Bool) :
    ∃ s', finish cfg s k id b = some s' ∧ Rel cfg s' (afterFinish cfg a k id b) := by
  have hsplit := makeRequestId_split id hid
  unfold finish
  simp only
  generalize hix : id % 2 ^ 32 = index at hsplit ⊢
  generalize hg : id / 2 ^ 32 % 2 ^ 32 = gen at hsplit ⊢
  have hilt : index < 2 ^ 32 := by rw [← hix]; exact Nat.mod_lt _ (by decide)
  -- no request in flight has this id unless the slot is valid with this generation
  have hnone : (∀ r, (s.streamer k).requests[index]? = some r → r.tier ≠ .highest → r.gen ≠ gen) →
      afterFinish cfg a k id b = a := by
    intro hno
    apply afterFinish_none
    rintro t p hp ⟨hk, hpid⟩
    obtain ⟨i, r, h1, h2, h3, h4⟩ := R.pendOk t p hp
    rw [hk] at h1
    have hi : i < 2 ^ 32 := by
      have := (List.getElem?_eq_some_iff.mp h1).1
      have := (R.slots k).2.1
      omega
    rw [h4] at hpid
    simp only at hpid
    rw [← hsplit] at hpid
    obtain ⟨e1, e2⟩ := makeRequestId_inj hi hilt hpid
    rw [e1] at h1
    exact hno r h1 (by rw [h2]; exact R.notHigh t p hp) e2
  cases hreq : (s.streamer k).requests[index]? with
  | none =>
    refine ⟨s, rfl, ?_⟩
    rw [hnone (by simp [hreq])]; exact R
  | some r =>
    simp only
    by_cases hv : r.tier = .highest
    · rw [if_pos hv]
      refine ⟨s, rfl, ?_⟩
      rw [hnone (by intro r' h1 h2; rw [hreq] at h1; rw [← Option.some.inj h1] at h2; exact absurd hv h2)]; exact R
    · rw [if_neg hv]
      by_cases hgen : r.gen = gen
      · rw [if_neg (by simpa using hgen)]
        obtain ⟨hk, hgl, hp⟩ := R.slotOk k index r hreq hv
        obtain ⟨ts, e, l1, l2, b1, b2, b3, b4⟩ := executeRequest_spec R b r _ hp rfl rfl rfl
        rw [hgen, hsplit] at hp
        rw [e]
        simp only [Option.bind_eq_bind, Option.bind_some, Option.pure_def]
        refine ⟨_, rfl, ?_⟩
        -- the abstract state afterwards
        have haL : ∀ u, (afterFinish cfg a k id b).loaded u =
            if u = r.tier then applyRequest (a.loaded r.tier) ⟨r.action, r.first, r.count, id⟩ b else a.loaded u := by
          intro u
          unfold afterFinish
          simp only
          by_cases hu : u = r.tier
          · rw [if_pos hu, hu, hp]; simp only; rw [if_pos ⟨hk, trivial⟩]
          · rw [if_neg hu]
            cases hpu : a.pending u with
            | none => rfl
            | some p =>
              simp only
              rw [if_neg]
              rintro ⟨h1, h2⟩
              obtain ⟨i, r', g1, g2, g3, g4⟩ := R.pendOk u p hpu
              rw [h1] at g1
              have hi : i < 2 ^ 32 := by
                have := (List.getElem?_eq_some_iff.mp g1).1
                have := (R.slots k).2.1
                omega
              rw [g4] at h2
              simp only at h2
              rw [← hsplit] at h2
              obtain ⟨e1, e2⟩ := makeRequestId_inj hi hilt h2
              rw [e1, hreq] at g1
              rw [← Option.some.inj g1] at g2
              exact hu g2.symm
        have haP : ∀ u, (afterFinish cfg a k id b).pending u =
            if u = r.tier then none else a.pending u := by
          intro u
          unfold afterFinish
          simp only
          by_cases hu : u = r.tier
          · rw [if_pos hu, hu, hp]; simp only; rw [if_pos ⟨hk, trivial⟩]
          · rw [if_neg hu]
            cases hpu : a.pending u with
            | none => rfl
            | some p =>
              simp only
              rw [if_neg]
              rintro ⟨h1, h2⟩
              obtain ⟨i, r', g1, g2, g3, g4⟩ := R.pendOk u p hpu
              rw [h1] at g1
              have hi : i < 2 ^ 32 := by
                have := (List.getElem?_eq_some_iff.mp g1).1
                have := (R.slots k).2.1
                omega
              rw [g4] at h2
              simp only at h2
              rw [← hsplit] at h2
              obtain ⟨e1, e2⟩ := makeRequestId_inj hi hilt h2
              rw [e1, hreq] at g1
              rw [← Option.some.inj g1] at g2
              exact hu g2.symm
        have hidx : index < (s.streamer k).requests.length := (List.getElem?_eq_some_iff.mp hreq).1
        have hrange := R.range _ _ hp
        simp only at hrange
        have hpid : ∀ i, applyRequest (a.loaded r.tier) ⟨r.action, r.first, r.count, makeRequestId index r.gen⟩ b i
          = applyRequest (a.loaded r.tier) ⟨r.action, r.first, r.count, id⟩ b i := fun i => rfl
        constructor
        · intro u; simp only [updTier]; split
          · rename_i h; rw [h]; exact l1
          · exact R.lenL u
        · intro u; simp only [updTier]; split
          · rename_i h; rw [h]; exact l2
          · exact R.lenS u
        · intro u i; rw [haL]; simp only [updTier]; split
          · rename_i h; rw [b1 i, hpid]
          · exact R.bitL u i
        · intro u i hi; rw [haL]; split
          · rename_i h
            rw [h] at hi
            have ht := R.tailL _ i hi
            simp only [applyRequest]
            split
            · rename_i hcov
              rw [covers_iff] at hcov
              simp only at hcov
              omega
            · exact ht
          · exact R.tailL u i hi
        · intro u hu i; rw [haP] at hu; simp only [updTier]
          by_cases h : u = r.tier
          · rw [if_pos h]; exact b2 i
          · rw [if_neg h] at hu ⊢; exact R.noneS u hu i
        · intro u p hu i; rw [haP] at hu; simp only [updTier]
          by_cases h : u = r.tier
          · rw [if_pos h] at hu; simp at hu
          · rw [if_neg h] at hu ⊢; exact R.someS u p hu i
        · intro u p hu; rw [haP] at hu
          by_cases h : u = r.tier
          · rw [if_pos h] at hu; simp at hu
          · rw [if_neg h] at hu; exact R.range u p hu
        · intro u p hu; rw [haP] at hu
          by_cases h : u = r.tier
          · rw [if_pos h] at hu; simp at hu
          · rw [if_neg h] at hu; exact R.notHigh u p hu
        · intro u p hu; rw [haP] at hu
          by_cases h : u = r.tier
          · rw [if_pos h] at hu; simp at hu
          · rw [if_neg h] at hu; rw [haL, if_neg h]; exact R.outLoaded u p hu
        · intro k' i r' hr' hv'
          rw [haP]
          simp only [updStreamer] at hr'
          split at hr'
          · rename_i hk'
            simp only at hr'
            by_cases hi : index = i
            · subst hi
              rw [List.getElem?_set_self hidx] at hr'
              rw [← Option.some.inj hr'] at hv'
              exact absurd rfl hv'
            · rw [List.getElem?_set_ne hi] at hr'
              rw [hk']
              obtain ⟨q1, q2, q3⟩ := R.slotOk k i r' hr' hv'
              refine ⟨q1, q2, ?_⟩
              rw [if_neg]; exact q3
              intro hrt
              rw [hrt, hp] at q3
              have := congrArg Pending.id (Option.some.inj q3)
              simp only at this
              rw [← hsplit] at this
              have hi2 : i < 2 ^ 32 := by
                have := (List.getElem?_eq_some_iff.mp hr').1
                have := (R.slots k).2.1
                omega
              exact hi (makeRequestId_inj hilt hi2 this).1
          · rename_i hk'
            obtain ⟨q1, q2, q3⟩ := R.slotOk k' i r' hr' hv'
            refine ⟨q1, q2, ?_⟩
            rw [if_neg]; exact q3
            intro hrt
            rw [hrt, hk] at q1
            exact hk' q1.symm
        · intro u p hu
          rw [haP] at hu
          by_cases h : u = r.tier
          · rw [if_pos h] at hu; simp at hu
          · rw [if_neg h] at hu
            obtain ⟨i, r', g1, g2, g3, g4⟩ := R.pendOk u p hu
            refine ⟨i, r', ?_, g2, g3, g4⟩
            simp only [updStreamer]
            split
            · rename_i hk'
              rw [hk'] at g1
              have hi : index ≠ i := by
                intro hi
                rw [← hi, hreq] at g1
                rw [← Option.some.inj g1] at g2
                exact h g2.symm
              simp only
              rw [List.getElem?_set_ne hi]; exact g1
            · exact g1
        · intro k'
          simp only [updStreamer]; split
          · obtain ⟨q1, q2, q3⟩ := R.slots k
            simp only [List.length_set]
            exact ⟨q1, q2, q3⟩
          · exact R.slots k'
        · intro u i; rw [haP, haL]; simp only [updTier]
          by_cases h : u = r.tier
          · rw [if_pos h, if_pos h, if_pos h, b3 i, hpid]; simp
          · rw [if_neg h, if_neg h, if_neg h]; exact R.reg u i
        · intro u i; simp only [updTier]
          by_cases h : u = r.tier
          · rw [if_pos h]; exact b4 i
          · rw [if_neg h]; exact R.bulk u i
      · rw [if_pos hgen]
        refine ⟨s, rfl, ?_⟩
        rw [hnone (by intro r' h1 h2; rw [hreq] at h1; rw [← Option.some.inj h1]; exact hgen)]; exact R

/-- Every step of the model that does not fault is a step of the specification. -/
theorem step_refines (R : Rel cfg s a) (hN : SmallChunks cfg) (op : Op) (hop : OpOk op) (s' : State)
    (out : Option (Result × Option Dispatch)) (h : step cfg s op = some (s', out)) :
    ∃ a', Step cfg a op a' out ∧ Rel cfg s' a' := by
  cases op with
  | streamIn t n =>
    obtain ⟨s1, r, d, a', e, hs, hR⟩ := streamIn_refines R hN t n
    simp only [step, e, Option.map_some, Option.some.injEq, Prod.mk.injEq] at h
    obtain ⟨rfl, rfl⟩ := h
    exact ⟨a', .streamIn hs, hR⟩
  | streamOut t n =>
    cases e : streamOut cfg s t n with
    | none => simp [step, e] at h
    | some x =>
      obtain ⟨s1, r, d⟩ := x
      obtain ⟨a', hs, hR⟩ := streamOut_refines R hN t n s1 r d e
      simp only [step, e, Option.map_some, Option.some.injEq, Prod.mk.injEq] at h
      obtain ⟨rfl, rfl⟩ := h
      exact ⟨a', .streamOut hs, hR⟩
  | complete k id =>
    obtain ⟨s1, e, hR⟩ := finish_refines R k id hop true
    simp only [step, e, Option.map_some, Option.some.injEq, Prod.mk.injEq] at h
    obtain ⟨rfl, rfl⟩ := h
    exact ⟨_, .complete, hR⟩
  | cancel k id =>
    obtain ⟨s1, e, hR⟩ := finish_refines R k id hop false
    simp only [step, e, Option.map_some, Option.some.injEq, Prod.mk.injEq] at h
    obtain ⟨rfl, rfl⟩ := h
    exact ⟨_, .cancel, hR⟩

theorem run_refines (hN : SmallChunks cfg) (ops : List Op) (hops : ∀ op ∈ ops, OpOk op) (s : State) (a : AState)
    (R : Rel cfg s a) (s' : State) (ds : List Dispatch) (h : run cfg s ops = some (s', ds)) :
    ∃ a', Run cfg a ops a' ds ∧ Rel cfg s' a' := by
  induction ops generalizing s a ds with
  | nil =>
    simp only [run, Option.some.injEq, Prod.mk.injEq] at h
    obtain ⟨rfl, rfl⟩ := h
    exact ⟨a, .nil a, R⟩
  | cons op ops ih =>
    rw [run] at h
    cases e : step cfg s op with
    | none => rw [e] at h; simp at h
    | some x =>
      obtain ⟨s1, out⟩ := x
      rw [e] at h
      simp only [Option.bind_eq_bind, Option.bind_some] at h
      cases e2 : run cfg s1 ops with
      | none => rw [e2] at h; simp at h
      | some y =>
        obtain ⟨s2, ds2⟩ := y
        rw [e2] at h
        simp only [Option.bind_some, Option.pure_def, Option.some.injEq, Prod.mk.injEq] at h
        obtain ⟨rfl, rfl⟩ := h
        obtain ⟨a1, hs, R1⟩ := step_refines R hN op (hops op (by simp)) s1 out e
        obtain ⟨a2, hr, R2⟩ := ih (fun o ho => hops o (by simp [ho])) s1 a1 R1 ds2 e2
        exact ⟨a2, .cons hs hr, R2⟩

end Acl.Streaming
