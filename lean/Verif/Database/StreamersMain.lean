import Verif.Database.StreamersLemmas
/-
Histories of a database context with the streamers of the library.
-/
namespace Acl.DbStream
open Acl.Streaming Acl.Streaming.Spec Acl.Runtime Acl.DbBuild

theorem overwrite_length {memory data : List (BitVec 8)} {offset : Nat} (h : offset + data.length ≤ memory.length) :
    (overwrite memory offset data).length = memory.length := by
  unfold overwrite
  rw [List.length_append, List.length_append, List.length_take, List.length_drop]
  omega

theorem overwrite_get {memory data : List (BitVec 8)} {offset : Nat} (h : offset + data.length ≤ memory.length) (q : Nat) :
    (overwrite memory offset data)[q]? = if offset ≤ q ∧ q < offset + data.length then data[q - offset]? else memory[q]? := by
  unfold overwrite
  have ht : (memory.take offset).length = offset := by rw [List.length_take]; omega
  by_cases h1 : q < offset
  · rw [List.append_assoc, List.getElem?_append_left (by omega), List.getElem?_take_of_lt h1, if_neg (by omega)]
  · by_cases h2 : q < offset + data.length
    · rw [List.getElem?_append_left (by rw [List.length_append, ht]; omega), List.getElem?_append_right (by omega), ht, if_pos (by omega)]
    · rw [List.getElem?_append_right (by rw [List.length_append, ht]; omega), List.length_append, ht, List.getElem?_drop, if_neg (by omega)]
      congr 1
      omega

/-- The invariant: nothing is in flight, a null streamer has the bulk data in memory, a debug streamer has a copy of the loaded
chunks as long as there are any. -/
structure LibInv (db : List (BitVec 8)) (bulk : Nat → List (BitVec 8)) (kinds : Nat → StreamerKind) (s : LibState) (L : Ledger) (a : AState)
    (events : List Runtime.Event) : Prop where
  core : Core db bulk (cfgOf db ownStreamer) s.db.book s.db.memory L a events
  headers : streamed false db events = some s.db.headers
  idle : ∀ t, a.pending t = none
  keepIn : ∀ t, t < 2 → ∀ q, L.keep t q = true → ∃ i, a.loaded (tierOf t) i = true ∧ InChunk db t i q
  pointer : ∀ t, t < 2 → ((s.db.book.tier (tierOf t)).bulk = true ↔ ∃ i, a.loaded (tierOf t) i = true)
  null : ∀ t, t < 2 → kinds t = .null → s.db.memory t = bulk t ∧ s.allocated t = false
  debug : ∀ t, t < 2 → kinds t = .debug → s.allocated t = (s.db.book.tier (tierOf t)).bulk ∧ (s.allocated t = false → s.db.memory t = []) ∧
    (s.allocated t = true → (s.db.memory t).length = (bulk t).length ∧
      ∀ q, q < (bulk t).length → L.keep t q = false → (s.db.memory t)[q]? = some 0xCD#8)

variable {db : List (BitVec 8)} {bulk : Nat → List (BitVec 8)} {kinds : Nat → StreamerKind} {s : LibState} {L : Ledger} {a : AState}
  {events : List Runtime.Event} {checks : Bool}

/-- What the streamer has in memory when it completes a request. -/
structure Reacted (bulk memory : List (BitVec 8)) (kind : StreamerKind) (allocated : Bool) (keep : Nat → Bool) (act : Action) (m : Sent) (x : Bool × List (BitVec 8)) : Prop where
  kept : ∀ q, (keep q = true ∧ ¬ (act = .streamOut ∧ m.has q = true)) → x.2[q]? = bulk[q]? ∧ bulk.length ≤ x.2.length
  read : act = .streamIn → bulk.length ≤ x.2.length ∧ ∀ q, m.has q = true → x.2[q]? = bulk[q]?
  null : kind = .null → x.2 = bulk ∧ x.1 = allocated
  debug : kind = .debug → (x.1 = true ↔ act = .streamIn ∨ m.flag = false) ∧ (x.1 = false → x.2 = []) ∧
    (x.1 = true → x.2.length = bulk.length ∧ ∀ q, q < bulk.length →
      ¬ ((keep q = true ∧ ¬ (act = .streamOut ∧ m.has q = true)) ∨ (act = .streamIn ∧ m.has q = true)) → x.2[q]? = some 0xCD#8)

theorem react_ok {bulk memory : List (BitVec 8)} {kind : StreamerKind} {allocated : Bool} {keep : Nat → Bool} {act : Action} {m : Sent} (hact : m.action = act)
    (hsize : 0 < m.size) (hend : m.offset + m.size ≤ bulk.length)
    (hkeep : ∀ q, keep q = true → memory[q]? = bulk[q]? ∧ bulk.length ≤ memory.length)
    (hnull : kind = .null → memory = bulk)
    (hdebug : kind = .debug → (allocated = true → memory.length = bulk.length ∧ ∀ q, q < bulk.length → keep q = false → memory[q]? = some 0xCD#8))
    (hin : act = .streamIn → kind = .debug → (m.flag = true ↔ allocated = false) ∧ (allocated = false → ∀ q, keep q = false))
    (hout : act = .streamOut → kind = .debug → allocated = true ∧ (m.flag = true → ∀ q, keep q = true → m.has q = true)) :
    ∃ x, react kind bulk allocated memory m = some x ∧ Reacted bulk memory kind allocated keep act m x := by
  have hrange : inRange bulk m = true := by
    unfold inRange
    simp only [Bool.and_eq_true, decide_eq_true_eq]
    omega
  have hdl : ((bulk.drop m.offset).take m.size).length = m.size := by
    rw [List.length_take, List.length_drop]; omega
  have hhas : ∀ q, m.has q = true ↔ m.offset ≤ q ∧ q < m.offset + m.size := by
    intro q
    unfold Sent.has
    simp only [Bool.and_eq_true, decide_eq_true_eq]
  have hdata : ∀ q, m.offset ≤ q → q < m.offset + m.size → ((bulk.drop m.offset).take m.size)[q - m.offset]? = bulk[q]? := by
    intro q q1 q2
    rw [List.getElem?_take_of_lt (by omega), List.getElem?_drop]
    congr 1
    omega
  unfold react
  rw [if_pos hrange]
  cases kind with
  | null =>
    have := hnull rfl
    subst this
    exact ⟨_, rfl, fun q _ => ⟨rfl, Nat.le_refl _⟩, fun _ => ⟨Nat.le_refl _, fun _ _ => rfl⟩, fun _ => ⟨rfl, rfl⟩, fun h => by simp at h⟩
  | debug =>
    have hd := hdebug rfl
    rw [hact]
    cases act with
    | streamIn =>
      obtain ⟨hf, hz⟩ := hin rfl rfl
      dsimp only
      unfold debugStreamIn
      cases hfl : m.flag with
      | true =>
        have hal := hf.1 hfl
        rw [hal]
        simp only [if_true, Bool.false_eq_true, if_false]
        have hlen : m.offset + ((bulk.drop m.offset).take m.size).length ≤ (List.replicate bulk.length 0xCD#8).length := by
          rw [hdl, List.length_replicate]; exact hend
        have hl := overwrite_length hlen
        rw [List.length_replicate] at hl
        have hg := overwrite_get hlen
        rw [hdl] at hg
        refine ⟨_, rfl, fun q hq => ?_, fun _ => ⟨by dsimp only; rw [hl], fun q hq => ?_⟩, fun h => by simp at h, fun _ => ⟨by simp, by simp, fun _ => ⟨hl, fun q q1 hn => ?_⟩⟩⟩
        · rw [hz hal] at hq; simp at hq
        · have := (hhas q).1 hq
          dsimp only
          rw [hg, if_pos this, hdata q this.1 this.2]
        · dsimp only
          rw [hg, if_neg (fun hx => hn (.inr ⟨rfl, (hhas q).2 hx⟩)), List.getElem?_replicate, if_pos q1]
      | false =>
        have hal : allocated = true := by
          cases h : allocated with
          | true => rfl
          | false => have := hf.2 h; rw [hfl] at this; simp at this
        rw [hal]
        simp only [Bool.false_eq_true, if_false, if_true]
        obtain ⟨d1, d2⟩ := hd hal
        have hlen : m.offset + ((bulk.drop m.offset).take m.size).length ≤ memory.length := by
          rw [hdl, d1]; exact hend
        have hl := overwrite_length hlen
        have hg := overwrite_get hlen
        rw [hdl] at hg
        refine ⟨_, rfl, fun q hq => ?_, fun _ => ⟨by dsimp only; rw [hl, d1], fun q hq => ?_⟩, fun h => by simp at h, fun _ => ⟨by simp, by simp, fun _ => ⟨by dsimp only; rw [hl, d1], fun q q1 hn => ?_⟩⟩⟩
        · dsimp only
          rw [hg, hl, d1]
          refine ⟨?_, Nat.le_refl _⟩
          split
          · rename_i hx
            exact hdata q hx.1 hx.2
          · exact (hkeep q hq.1).1
        · have := (hhas q).1 hq
          dsimp only
          rw [hg, if_pos this, hdata q this.1 this.2]
        · dsimp only
          rw [hg, if_neg (fun hx => hn (.inr ⟨rfl, (hhas q).2 hx⟩))]
          refine d2 q q1 ?_
          cases hk : keep q with
          | false => rfl
          | true => exact absurd (.inl ⟨hk, by simp⟩) hn
    | streamOut =>
      obtain ⟨hal, hz⟩ := hout rfl rfl
      obtain ⟨d1, d2⟩ := hd hal
      dsimp only
      unfold debugStreamOut
      rw [hal]
      cases hfl : m.flag with
      | true =>
        simp only [if_true]
        refine ⟨_, rfl, fun q hq => absurd ⟨rfl, hz hfl q hq.1⟩ hq.2, fun h => by simp at h, fun h => by simp at h, fun _ => ⟨by simp [hfl], by simp, by simp⟩⟩
      | false =>
        simp only [if_true, Bool.false_eq_true, if_false]
        have hlen : m.offset + (List.replicate m.size 0xCD#8).length ≤ memory.length := by
          rw [List.length_replicate, d1]; exact hend
        have hl := overwrite_length hlen
        have hg := overwrite_get hlen
        rw [List.length_replicate] at hg
        refine ⟨_, rfl, fun q hq => ?_, fun h => by simp at h, fun h => by simp at h, fun _ => ⟨by simp [hfl], by simp, fun _ => ⟨by dsimp only; rw [hl, d1], fun q q1 hn => ?_⟩⟩⟩
        · dsimp only
          rw [hg, hl, d1, if_neg (fun hx => hq.2 ⟨rfl, (hhas q).2 hx⟩)]
          exact ⟨(hkeep q hq.1).1, Nat.le_refl _⟩
        · dsimp only
          rw [hg]
          split
          · rename_i hx
            rw [List.getElem?_replicate, if_pos (by omega)]
          · rename_i hx
            refine d2 q q1 ?_
            cases hk : keep q with
            | false => rfl
            | true => exact absurd (.inl ⟨hk, fun h => hx ((hhas q).1 h.2)⟩) hn

theorem own_inj {t u : Nat} (ht : t < 2) (hu : u < 2) (h : ownStreamer (tierOf t) = ownStreamer (tierOf u)) : t = u := by
  rcases (show t = 0 ∨ t = 1 by omega) with rfl | rfl <;> rcases (show u = 0 ∨ u = 1 by omega) with rfl | rfl <;> first | rfl | (exact absurd h (by decide))

/-- The streamer of the tier serves a request. -/
theorem serve_ok (hc : Chunked db bulk) {xs : List Input} {outs : List (List (BitVec 8))} {place : Place} (hd : Decodes xs outs db bulk place)
    (hI : LibInv db bulk kinds s L a events) {act : Action} {t : Tier} {first count id : Nat} {flag : Bool} (ht : t ≠ .highest) (h3 : 1 ≤ count)
    (h4 : first + count ≤ (cfgOf db ownStreamer).numChunks t) (h5 : act = .streamOut → ∀ i, first ≤ i → i < first + count → a.loaded t i = true)
    {m : Sent} (hm : sentOf db ⟨act, t, first, count, id, flag⟩ = some m) (hid : id < 2 ^ 64) {s1 : DbState} {L1 : Ledger} {ev1 : List Runtime.Event} (hmem : s1.memory = s.db.memory)
    (hL1 : L1 = { keep := fun t q => if t = tierIndex m.tier ∧ m.action = .streamOut ∧ m.has q = true then false else L.keep t q
                  inFlight := fun t => if t = tierIndex m.tier then some m else L.inFlight t })
    (hcore : Core db bulk (cfgOf db ownStreamer) s1.book s1.memory L1 { a with pending := fun u => if u = t then some ⟨act, first, count, id⟩ else a.pending u } ev1)
    (hst : streamed false db ev1 = some s1.headers)
    (hB : ∀ u, (s1.book.tier u).bulk = if u = t ∧ act = .streamOut ∧ flag = true then false else (s.db.book.tier u).bulk)
    (hfi : act = .streamIn → flag = !(s.db.book.tier t).bulk)
    (hfo : act = .streamOut → (flag = true ↔ ∀ i, a.loaded t i = true → first ≤ i ∧ i < first + count))
    (hchk : checks = true → (Alternates ev1 fun _ _ => false) ∧
      C25.Prefix (cfgOf db ownStreamer) { a with pending := fun u => if u = t then some ⟨act, first, count, id⟩ else a.pending u }) :
    ∃ s' L' a' ev', serve checks db kinds bulk ⟨s1, s.allocated⟩ m = some s' ∧ LibInv db bulk kinds s' L' a' ev' ∧
      (∀ u i, a'.loaded u i = if u = t ∧ first ≤ i ∧ i < first + count then decide (act = .streamIn) else a.loaded u i) ∧
      (checks = true → (Alternates ev' fun _ _ => false) ∧ C25.Prefix (cfgOf db ownStreamer) a') := by
  obtain ⟨m', k1, k2, k3, k4, k5, -, k7, k8⟩ := sent_ok hc ownStreamer (d := ⟨act, t, first, count, id, flag⟩) ht h3 h4
  rw [hm, Option.some.injEq] at k1
  subst k1
  dsimp only at k2 k3 k4 k5 k7 k8
  have hbytes := sent_chunks hc ownStreamer (d := ⟨act, t, first, count, id, flag⟩) ht h3 h4 hm
  dsimp only at hbytes
  have hti := tierIndex_lt ht
  have hto := tierOf_tierIndex ht
  have hptr := hI.pointer (tierIndex t) hti
  rw [hto] at hptr
  have hfirst : act = .streamOut → (s.db.book.tier t).bulk = true := fun h => hptr.2 ⟨first, h5 h first (Nat.le_refl _) (by omega)⟩
  -- the streamer
  obtain ⟨x, x1, x2⟩ : ∃ x, react (kinds (tierIndex t)) (bulk (tierIndex t)) (s.allocated (tierIndex t)) (s1.memory (tierIndex t)) m = some x ∧
      Reacted (bulk (tierIndex t)) (s1.memory (tierIndex t)) (kinds (tierIndex t)) (s.allocated (tierIndex t)) (L.keep (tierIndex t)) act m x := by
    rw [hmem]
    refine react_ok k2 k7 k8 (fun q hq => hI.core.memory _ hti q hq) (fun h => (hI.null _ hti h).1) (fun h => (hI.debug _ hti h).2.2) ?_ ?_
    · intro ha hk
      have hal := (hI.debug _ hti hk).1
      rw [hto] at hal
      refine ⟨by rw [k5, hfi ha, hal]; simp, fun h0 q => ?_⟩
      cases hq : L.keep (tierIndex t) q with
      | false => rfl
      | true =>
        obtain ⟨i, hi, -⟩ := hI.keepIn _ hti q hq
        rw [hto] at hi
        have := hptr.2 ⟨i, hi⟩
        rw [← hal, h0] at this
        simp at this
    · intro ha hk
      have hal := (hI.debug _ hti hk).1
      rw [hto] at hal
      refine ⟨by rw [hal]; exact hfirst ha, fun hfl q hq => ?_⟩
      obtain ⟨i, hi, hin⟩ := hI.keepIn _ hti q hq
      rw [hto] at hi
      rw [k5] at hfl
      have := (hfo ha).1 hfl i hi
      exact (hbytes q).2 ⟨i, this.1, this.2, hin⟩
  have hk1 : ∀ u q, L1.keep u q = true ↔ L.keep u q = true ∧ ¬ (u = tierIndex t ∧ act = .streamOut ∧ m.has q = true) := by
    intro u q
    rw [hL1]
    dsimp only
    rw [k3, k2]
    split
    · rename_i hx; simp [hx]
    · rename_i hx; simp [hx]
  have hk1t : ∀ q, L1.keep (tierIndex t) q = true ↔ L.keep (tierIndex t) q = true ∧ ¬ (act = .streamOut ∧ m.has q = true) := by
    intro q
    rw [hk1]
    simp
  -- it writes its memory
  have hwrite : Promise bulk (cfgOf db ownStreamer) s1 L1 (.write (tierIndex t) x.2) := fun _ q hq => x2.kept q ((hk1t q).1 hq)
  have hcore2 := hcore.write hwrite
  -- it completes the request
  have hfinds : ∀ u, u < 2 → L1.finds (cfgOf db ownStreamer) (ownStreamer t) id u = if u = tierIndex t then some m else none := by
    intro u hu
    have hown : (cfgOf db ownStreamer).streamerOf = ownStreamer := rfl
    unfold Ledger.finds
    rw [hown, hL1]
    dsimp only
    rw [k3]
    by_cases hut : u = tierIndex t
    · subst hut
      rw [if_pos rfl, if_pos rfl, Option.bind_some, if_pos ⟨by rw [hto], k4⟩]
    · rw [if_neg hut, if_neg hut]
      have hfl := hcore.flight u hu
      dsimp only at hfl
      rw [if_neg (by intro h; exact hut (by rw [← h, tierIndex_tierOf hu])), hI.idle] at hfl
      have hfl : L1.inFlight u = none := hfl
      rw [hL1] at hfl
      dsimp only at hfl
      rw [k3, if_neg hut] at hfl
      rw [hfl]
      rfl
  let s2 : DbState := { s1 with memory := fun u => if u = tierIndex t then x.2 else s1.memory u }
  have hprom : Promise bulk (cfgOf db ownStreamer) s2 L1 (.call (.complete (ownStreamer t) id)) := by
    intro u hu m' hm' hact
    rw [hfinds u hu] at hm'
    split at hm'
    · rename_i hut
      rw [Option.some.injEq] at hm'
      subst hm'
      subst hut
      have hs2 : s2.memory (tierIndex t) = x.2 := if_pos rfl
      rw [hs2]
      exact x2.read (by rw [← k2]; exact hact)
    · simp at hm'
  obtain ⟨book3, g1, -⟩ := finish_refines hcore2.rel (ownStreamer t) id hid true
  have hstep3 : Streaming.step (cfgOf db ownStreamer) s2.book (.complete (ownStreamer t) id) = some (book3, none) := by
    show (finish _ _ _ _ _).map _ = _
    rw [g1]
    rfl
  obtain ⟨s3, sent3, a3, ev3, c1, c2, c3, c4, c5, c6⟩ := call_total (checks := checks) (s := s2) (a := { a with pending := fun u => if u = t then some ⟨act, first, count, id⟩ else a.pending u })
    hc hd hcore2 hst (fun h => (hchk h).1)
    (op := .complete (ownStreamer t) id) hid hprom (fun h => fresh_of_prefix (hchk h).2 _) hstep3
  have hsent3 : sent3 = none := by
    have := c4.sentIs
    have e : sentAfter db none = some none := rfl
    rw [e, Option.some.injEq] at this
    exact this.symm
  subst hsent3
  have ha3 : a3 = afterFinish (cfgOf db ownStreamer) { a with pending := fun u => if u = t then some ⟨act, first, count, id⟩ else a.pending u } (ownStreamer t) id true := by
    have := c4.step
    cases this
    rfl
  have hcore3 := c4.core
  rw [← c3] at hcore3
  have hloaded : ∀ u i, a3.loaded u i = if u = t ∧ first ≤ i ∧ i < first + count then decide (act = .streamIn) else a.loaded u i := by
    intro u i
    rw [ha3]
    unfold afterFinish
    dsimp only
    by_cases hut : u = t
    · subst hut
      rw [if_pos rfl]
      dsimp only
      rw [if_pos ⟨rfl, rfl⟩]
      unfold applyRequest
      by_cases hin : first ≤ i ∧ i < first + count
      · rw [if_pos ((covers_iff _ _).2 hin), if_pos ⟨rfl, hin⟩]
        cases act <;> rfl
      · rw [if_neg (fun h => hin ((covers_iff _ _).1 h)), if_neg (fun h => hin h.2)]
    · rw [if_neg hut, hI.idle, if_neg (fun h => hut h.1)]
  have hidle : ∀ u, a3.pending u = none := by
    intro u
    rw [ha3]
    unfold afterFinish
    dsimp only
    by_cases hut : u = t
    · subst hut
      rw [if_pos rfl]
      dsimp only
      rw [if_pos ⟨rfl, rfl⟩]
    · rw [if_neg hut, hI.idle]
  have hk3 : ∀ u, u < 2 → ∀ q, (L1.step (cfgOf db ownStreamer) (.call (.complete (ownStreamer t) id)) none).keep u q = true ↔
      (L.keep u q = true ∧ ¬ (u = tierIndex t ∧ act = .streamOut ∧ m.has q = true)) ∨ (u = tierIndex t ∧ act = .streamIn ∧ m.has q = true) := by
    intro u hu q
    have hdef : (L1.step (cfgOf db ownStreamer) (.call (.complete (ownStreamer t) id)) none).keep u q = (match L1.finds (cfgOf db ownStreamer) (ownStreamer t) id u with
        | some m => if m.action = .streamIn ∧ m.has q = true then true else L1.keep u q
        | none => L1.keep u q) := rfl
    rw [hdef, hfinds u hu, ← hk1]
    by_cases hut : u = tierIndex t
    · rw [if_pos hut]
      dsimp only
      rw [k2]
      split
      · rename_i hx; simp [hut, hx]
      · rename_i hx
        have : ¬ (u = tierIndex t ∧ act = .streamIn ∧ m.has q = true) := fun h => hx h.2
        simp [this]
    · rw [if_neg hut]
      simp [hut]
  have hbook : ∀ u, (s3.book.tier u).bulk = if u = t then (if act = .streamIn then true else if flag then false else true) else (s.db.book.tier u).bulk := by
    intro u
    obtain ⟨r, r1, r2, r3⟩ := requestOf_pending hcore.rel (k := ownStreamer t) hid (t := t) (p := ⟨act, first, count, id⟩) (by dsimp only; rw [if_pos rfl]) rfl rfl
    rw [Pending.mk.injEq] at r3
    rw [c2, complete_book r1 g1 u, r2, ← r3.1]
    by_cases hut : u = t
    · rw [if_pos hut]
      cases act with
      | streamIn => rw [if_pos ⟨hut, rfl⟩]; rfl
      | streamOut =>
        rw [if_neg (by simp)]
        show (s1.book.tier u).bulk = _
        rw [hB u]
        cases flag with
        | true => rw [if_pos ⟨hut, rfl, rfl⟩]; rfl
        | false => rw [if_neg (by simp), hut, hfirst rfl]; rfl
    · rw [if_neg (fun h => hut h.1), if_neg hut]
      show (s1.book.tier u).bulk = _
      rw [hB u, if_neg (fun h => hut h.1)]
  have hm3 : ∀ u, s3.memory u = if u = tierIndex t then x.2 else s.db.memory u := by
    intro u
    rw [c3]
    rw [← hmem]
  have hpfx : checks = true → C25.Prefix (cfgOf db ownStreamer) a3 := by
    intro h
    obtain ⟨s4, out4, a4, p1, p2, p3⟩ := C25.prefix_step hcore2.rel (small_chunks hc ownStreamer) (hchk h).2 (.complete (ownStreamer t) id) hid trivial
    have hstep3' : Streaming.step (cfgOf db ownStreamer) s1.book (.complete (ownStreamer t) id) = some (book3, none) := hstep3
    rw [hstep3', Option.some.injEq, Prod.mk.injEq] at p1
    have hrel := hcore3.rel
    rw [c2] at hrel
    rw [← p1.1] at p2
    rw [rel_unique hrel p2]
    exact p3
  refine ⟨⟨s3, fun u => if u = tierIndex t then x.1 else s.allocated u⟩, _, a3, _, ?_, ⟨hcore3, c5, hidle, ?_, ?_, ?_, ?_⟩, hloaded, fun h => ⟨c6 h, hpfx h⟩⟩
  · unfold serve
    rw [k3]
    dsimp only
    rw [x1, Option.bind_some]
    have hw : dbStep checks db (cfgOf db ownStreamer) s1 (.write (tierIndex t) x.2) = some (s2, none) := rfl
    rw [hw, Option.bind_some, k4, c1]
    rfl
  · intro u hu q hq
    rw [hk3 u hu] at hq
    rcases hq with ⟨h1, h2⟩ | ⟨h1, h2, hh⟩
    · obtain ⟨i, i1, i2⟩ := hI.keepIn u hu q h1
      refine ⟨i, ?_, i2⟩
      rw [hloaded]
      split
      · rename_i hx
        obtain ⟨hx1, hx2⟩ := hx
        have hut : u = tierIndex t := by rw [← hx1, tierIndex_tierOf hu]
        cases act with
        | streamIn => rfl
        | streamOut =>
          exfalso
          exact h2 ⟨hut, rfl, (hbytes q).2 ⟨i, hx2.1, hx2.2, by rw [← hut]; exact i2⟩⟩
      · exact i1
    · obtain ⟨i, i1, i2, i3⟩ := (hbytes q).1 hh
      refine ⟨i, ?_, by rw [h1]; exact i3⟩
      rw [hloaded, h1, hto, if_pos ⟨rfl, i1, i2⟩, h2]
      rfl
  · intro u hu
    show (s3.book.tier (tierOf u)).bulk = true ↔ _
    rw [hbook]
    by_cases hut : tierOf u = t
    · rw [if_pos hut, hut]
      cases act with
      | streamIn =>
        rw [if_pos rfl]
        simp only [true_iff]
        exact ⟨first, by rw [hloaded, if_pos ⟨rfl, Nat.le_refl _, by omega⟩]; rfl⟩
      | streamOut =>
        rw [if_neg (by simp)]
        cases flag with
        | true =>
          simp only [if_true, Bool.false_eq_true, false_iff]
          rintro ⟨i, hi⟩
          rw [hloaded] at hi
          split at hi
          · simp at hi
          · rename_i hx
            exact hx ⟨rfl, (hfo rfl).1 rfl i hi⟩
        | false =>
          simp only [Bool.false_eq_true, if_false, true_iff]
          have hno : ¬ ∀ i, a.loaded t i = true → first ≤ i ∧ i < first + count := fun h => by
            have := (hfo rfl).2 h
            simp at this
          rw [Classical.not_forall] at hno
          obtain ⟨i, hi⟩ := hno
          rw [Classical.not_imp] at hi
          exact ⟨i, by rw [hloaded, if_neg (fun h => hi.2 h.2)]; exact hi.1⟩
    · rw [if_neg hut, hI.pointer u hu]
      constructor
      · rintro ⟨i, hi⟩
        exact ⟨i, by rw [hloaded, if_neg (fun h => hut h.1)]; exact hi⟩
      · rintro ⟨i, hi⟩
        rw [hloaded, if_neg (fun h => hut h.1)] at hi
        exact ⟨i, hi⟩
  · intro u hu hk
    show s3.memory u = _ ∧ (if u = tierIndex t then x.1 else s.allocated u) = false
    rw [hm3]
    by_cases hut : u = tierIndex t
    · rw [if_pos hut, if_pos hut, hut]
      rw [hut] at hk
      obtain ⟨y1, y2⟩ := x2.null hk
      exact ⟨y1, by rw [y2]; exact (hI.null _ hti hk).2⟩
    · rw [if_neg hut, if_neg hut]
      exact hI.null u hu hk
  · intro u hu hk
    show (if u = tierIndex t then x.1 else s.allocated u) = (s3.book.tier (tierOf u)).bulk ∧ ((if u = tierIndex t then x.1 else s.allocated u) = false → s3.memory u = []) ∧
      ((if u = tierIndex t then x.1 else s.allocated u) = true → (s3.memory u).length = (bulk u).length ∧ ∀ q, q < (bulk u).length →
        (L1.step (cfgOf db ownStreamer) (.call (.complete (ownStreamer t) id)) none).keep u q = false → (s3.memory u)[q]? = some 0xCD#8)
    rw [hm3, hbook]
    by_cases hut : u = tierIndex t
    · subst hut
      rw [if_pos rfl, if_pos rfl, if_pos hto]
      obtain ⟨y1, y2, y3⟩ := x2.debug hk
      refine ⟨?_, y2, fun hx => ⟨(y3 hx).1, fun q q1 q2 => (y3 hx).2 q q1 fun hn => ?_⟩⟩
      · rw [k5] at y1
        cases act with
        | streamIn => rw [if_pos rfl]; exact y1.2 (.inl rfl)
        | streamOut =>
          rw [if_neg (by simp)]
          cases flag with
          | true =>
            rw [if_pos rfl]
            cases hx : x.1 with
            | false => rfl
            | true => have := y1.1 hx; simp at this
          | false => rw [if_neg (by simp)]; exact y1.2 (.inr rfl)
      · have : (L1.step (cfgOf db ownStreamer) (.call (.complete (ownStreamer t) id)) none).keep (tierIndex t) q = true := by
          rw [hk3 _ hti]
          simpa using hn
        rw [q2] at this
        simp at this
    · have hut' : tierOf u ≠ t := fun h => hut (by rw [← h, tierIndex_tierOf hu])
      rw [if_neg hut, if_neg hut, if_neg hut']
      obtain ⟨y1, y2, y3⟩ := hI.debug u hu hk
      refine ⟨y1, y2, fun hx => ⟨(y3 hx).1, fun q q1 q2 => (y3 hx).2 q q1 ?_⟩⟩
      cases hkq : L.keep u q with
      | false => rfl
      | true =>
        have : (L1.step (cfgOf db ownStreamer) (.call (.complete (ownStreamer t) id)) none).keep u q = true := by
          rw [hk3 u hu]
          exact .inl ⟨hkq, fun h => hut h.1⟩
        rw [q2] at this
        simp at this

/-! ### Calls of the user -/

theorem userOp_ok (op : UserOp) : OpOk op.call := by cases op <;> exact trivial

/-- The tier of a call. -/
def UserOp.tier : UserOp → Tier
  | .streamIn t _ => t
  | .streamOut t _ => t

/-- The number of chunks of a call. -/
def UserOp.count : UserOp → Nat
  | .streamIn _ n => n
  | .streamOut _ n => n

/-- stream_in or stream_out. -/
def UserOp.action : UserOp → Action
  | .streamIn _ _ => .streamIn
  | .streamOut _ _ => .streamOut

/-- What a call does to the chunks that are loaded, and what it returns. -/
inductive UserSpec (num : Tier → Nat) (loaded : Tier → Nat → Bool) (op : UserOp) : Result → (Tier → Nat → Bool) → Prop
  /-- the highest tier is never streamed -/
  | invalid : op.tier = .highest → UserSpec num loaded op .invalidDatabaseTier loaded
  /-- nothing to do -/
  | done : op.tier ≠ .highest → UserSpec num loaded op .done loaded
  /-- one block of chunks of the tier is streamed in or out -/
  | dispatched (first count : Nat) : op.tier ≠ .highest → 1 ≤ count → first + count ≤ num op.tier → (1 ≤ op.count → count ≤ op.count) →
      (op.action = .streamIn → loaded op.tier first = false) → (op.action = .streamOut → ∀ i, first ≤ i → i < first + count → loaded op.tier i = true) →
      UserSpec num loaded op .dispatched fun u i => if u = op.tier ∧ first ≤ i ∧ i < first + count then decide (op.action = .streamIn) else loaded u i

/-- A call succeeds if the bookkeeping does; with the asserts compiled in, if tiers are streamed out whole. -/
theorem user_total (hc : Chunked db bulk) {xs : List Input} {outs : List (List (BitVec 8))} {place : Place} (hd : Decodes xs outs db bulk place)
    (hI : LibInv db bulk kinds s L a events) (op : UserOp)
    (hchk : checks = true → (Alternates events fun _ _ => false) ∧ C25.Prefix (cfgOf db ownStreamer) a ∧ C25.Whole (cfgOf db ownStreamer) s.db.book op.call)
    {book' : Streaming.State} {out : Option (Result × Option Dispatch)} (hstep : Streaming.step (cfgOf db ownStreamer) s.db.book op.call = some (book', out)) :
    ∃ s' L' a' events' r, userStep checks db kinds bulk s op = some s' ∧ LibInv db bulk kinds s' L' a' events' ∧ resultOf db s op = some r ∧
      UserSpec (cfgOf db ownStreamer).numChunks a.loaded op r a'.loaded ∧
      (checks = true → (Alternates events' fun _ _ => false) ∧ C25.Prefix (cfgOf db ownStreamer) a') ∧
      (∀ r d, out = some (r, some d) → ∀ u i, a'.loaded u i = if u = d.tier ∧ d.first ≤ i ∧ i < d.first + d.count then decide (d.action = .streamIn) else a.loaded u i) := by
  have hN := small_chunks hc ownStreamer
  have hprom : Promise bulk (cfgOf db ownStreamer) s.db L (.call op.call) := by cases op <;> exact trivial
  have hfr : FreshRequest (cfgOf db ownStreamer) a op.call := by cases op <;> exact trivial
  obtain ⟨s1, sent, a1, ev, h1, h2, h3, h4, h5, h6⟩ := call_total (checks := checks) hc hd hI.core hI.headers (fun h => (hchk h).1) (userOp_ok op) hprom (fun _ => hfr) hstep
  have hpfx : checks = true → C25.Prefix (cfgOf db ownStreamer) a1 := by
    intro h
    obtain ⟨s4, out4, a4, p1, p2, p3⟩ := C25.prefix_step hI.core.rel hN (hchk h).2.1 op.call (userOp_ok op) (hchk h).2.2
    rw [hstep, Option.some.injEq, Prod.mk.injEq] at p1
    have hrel := h4.core.rel
    rw [h2] at hrel
    rw [← p1.1] at p2
    rw [rel_unique hrel p2]
    exact p3
  -- what the call did to the bookkeeping
  obtain ⟨r, d, hout, hss, hr1, hr2, hB, hfi, hfo, hid⟩ : ∃ r d, out = some (r, d) ∧ StreamStep (cfgOf db ownStreamer) a op.action op.tier op.count a1 r d ∧
      r ≠ .streamingInProgress ∧ r ≠ .noFreeStreamingRequests ∧
      (∀ u, (book'.tier u).bulk = if u = op.tier ∧ op.action = .streamOut ∧ (∃ x, d = some x ∧ x.bulkFlag = true) then false else (s.db.book.tier u).bulk) ∧
      (∀ x, d = some x → op.action = .streamIn → x.bulkFlag = !(s.db.book.tier op.tier).bulk) ∧
      (∀ x, d = some x → op.action = .streamOut → (x.bulkFlag = true ↔ ∀ i, a.loaded op.tier i = true → x.first ≤ i ∧ i < x.first + x.count)) ∧
      (∀ x, d = some x → x.id < 2 ^ 64) := by
    have hst := h4.step
    cases op with
    | streamIn t n =>
      cases hst with
      | streamIn hs =>
        rename_i r d
        have hx : (streamIn (cfgOf db ownStreamer) s.db.book t n).map (fun (s, r, d) => (s, some (r, d))) = some (book', some (r, d)) := hstep
        rw [Option.map_eq_some_iff] at hx
        obtain ⟨⟨s', r', d'⟩, e1, e2⟩ := hx
        simp only [Prod.mk.injEq, Option.some.injEq] at e2
        obtain ⟨rfl, rfl, rfl⟩ := e2
        obtain ⟨q1, q2, q3, q4⟩ := streamIn_book hI.core.rel hN hI.idle e1
        refine ⟨r', d', rfl, hs, q1, q2, fun u => ?_, fun x hx _ => (q4 x hx).1, fun x _ h => by simp [UserOp.action] at h, fun x hx => (q4 x hx).2⟩
        rw [if_neg (by rintro ⟨-, h, -⟩; simp [UserOp.action] at h)]
        exact q3 u
    | streamOut t n =>
      cases hst with
      | streamOut hs =>
        rename_i r d
        have hx : (streamOut (cfgOf db ownStreamer) s.db.book t n).map (fun (s, r, d) => (s, some (r, d))) = some (book', some (r, d)) := hstep
        rw [Option.map_eq_some_iff] at hx
        obtain ⟨⟨s', r', d'⟩, e1, e2⟩ := hx
        simp only [Prod.mk.injEq, Option.some.injEq] at e2
        obtain ⟨rfl, rfl, rfl⟩ := e2
        obtain ⟨q1, q2, q3, q4⟩ := streamOut_book hI.core.rel hN hI.idle e1
        refine ⟨r', d', rfl, hs, q1, q2, fun u => ?_, fun x _ h => by simp [UserOp.action] at h, fun x hx _ => (q4 x hx).1, fun x hx => (q4 x hx).2⟩
        rw [q3 u]
        simp only [UserOp.tier, UserOp.action, true_and]
  subst hout
  have hres : resultOf db s op = some r := by
    unfold resultOf
    rw [hstep]
    rfl
  -- nothing was sent
  have hnone : d = none → a1 = a → ∃ s' L' a' events', userStep checks db kinds bulk s op = some s' ∧ LibInv db bulk kinds s' L' a' events' ∧
      a'.loaded = a.loaded ∧ (checks = true → (Alternates events' fun _ _ => false) ∧ C25.Prefix (cfgOf db ownStreamer) a') := by
    intro hd0 ha
    subst hd0 ha
    have hsent : sent = none := by
      have := h4.sentIs
      have e : sentAfter db (some (r, none)) = some none := rfl
      rw [e, Option.some.injEq] at this
      exact this.symm
    subst hsent
    have hL : L.step (cfgOf db ownStreamer) (.call op.call) none = L := by cases op <;> rfl
    have hcore := h4.core
    rw [hL, ← h3] at hcore
    refine ⟨⟨s1, s.allocated⟩, L, a1, _, ?_, ⟨hcore, h5, hI.idle, hI.keepIn, ?_, ?_, ?_⟩, rfl, fun h => ⟨h6 h, hpfx h⟩⟩
    · unfold userStep
      rw [h1]
      rfl
    · intro t ht
      show (s1.book.tier _).bulk = true ↔ _
      rw [h2, hB, if_neg (by rintro ⟨-, -, x, hx, -⟩; simp at hx)]
      exact hI.pointer t ht
    · intro t ht hk
      show s1.memory t = _ ∧ _
      rw [h3]
      exact hI.null t ht hk
    · intro t ht hk
      show _ = (s1.book.tier _).bulk ∧ (_ → s1.memory t = []) ∧ (_ → (s1.memory t).length = _ ∧ ∀ q, _ → _ → (s1.memory t)[q]? = _)
      rw [h2, h3, hB, if_neg (by rintro ⟨-, -, x, hx, -⟩; simp at hx)]
      exact hI.debug t ht hk
  cases hss with
  | invalid g1 =>
    obtain ⟨s', L', a', events', k1, k2, k3, k4⟩ := hnone rfl rfl
    exact ⟨s', L', a', events', _, k1, k2, hres, by rw [k3]; exact .invalid g1, k4, fun r d h => by simp at h⟩
  | busy g1 g2 => exact absurd rfl hr1
  | noFree g1 g2 => exact absurd rfl hr2
  | done g1 g2 =>
    obtain ⟨s', L', a', events', k1, k2, k3, k4⟩ := hnone rfl rfl
    exact ⟨s', L', a', events', _, k1, k2, hres, by rw [k3]; exact .done g1, k4, fun r d h => by simp at h⟩
  | dispatched first count id flag g1 g2 g3 g4 g5 g6 g7 =>
    obtain ⟨m, m1, -⟩ := sent_ok hc ownStreamer (d := ⟨op.action, op.tier, first, count, id, flag⟩) g1 g3 g4
    have hsent : sent = some m := by
      have := h4.sentIs
      have e : sentAfter db (some (Result.dispatched, some ⟨op.action, op.tier, first, count, id, flag⟩)) = (sentOf db ⟨op.action, op.tier, first, count, id, flag⟩).map some := rfl
      rw [e, m1, Option.map_some, Option.some.injEq] at this
      exact this.symm
    subst hsent
    have hcore := h4.core
    rw [← h3] at hcore
    obtain ⟨s', L', a', events', k1, k2, k3, k4⟩ := serve_ok (checks := checks) hc hd hI g1 g3 g4 g7 m1 (hid _ rfl) h3 rfl hcore h5
      (fun u => by
        rw [h2, hB]
        by_cases hx : u = op.tier ∧ op.action = .streamOut ∧ flag = true
        · rw [if_pos ⟨hx.1, hx.2.1, _, rfl, hx.2.2⟩, if_pos hx]
        · rw [if_neg hx, if_neg]
          rintro ⟨y1, y2, x, hx', y3⟩
          rw [Option.some.injEq] at hx'
          subst hx'
          exact hx ⟨y1, y2, y3⟩)
      (fun h => hfi _ rfl h) (fun h => hfo _ rfl h) (fun h => ⟨h6 h, hpfx h⟩)
    refine ⟨s', L', a', events', _, ?_, k2, hres, ?_, k4, fun r d h => ?_⟩
    rotate_left 2
    · rw [Option.some.injEq, Prod.mk.injEq, Option.some.injEq] at h
      rw [← h.2]
      exact k3
    · unfold userStep
      rw [h1]
      exact k1
    · have hl : a'.loaded = fun u i => if u = op.tier ∧ first ≤ i ∧ i < first + count then decide (op.action = .streamIn) else a.loaded u i := by
        funext u i
        exact k3 u i
      rw [hl]
      exact .dispatched first count g1 g3 g4 g5 g6 g7

/-! ### With and without asserts -/

theorem dbStep_release {cfg : Cfg} {s : DbState} {op : DbOp} {x : DbState × Option Sent} (h : dbStep true db cfg s op = some x) : dbStep false db cfg s op = some x := by
  cases op with
  | write t mem => exact h
  | call o =>
    simp only [dbStep, Option.bind_eq_some_iff] at h ⊢
    obtain ⟨y, h1, hd, h2, h3⟩ := h
    refine ⟨y, h1, hd, ?_, h3⟩
    unfold headersAfter at h2 ⊢
    cases o with
    | streamIn t n => exact h2
    | streamOut t n =>
      dsimp only at h2 ⊢
      split at h2
      · exact applyEvents_release h2
      · exact h2
    | complete k id =>
      dsimp only at h2 ⊢
      split at h2
      · split at h2
        · rename_i hx
          rw [if_pos hx]
          exact applyEvents_release h2
        · rename_i hx
          rw [if_neg hx]
          exact h2
      · exact h2
    | cancel k id =>
      dsimp only at h2 ⊢
      split at h2
      · split at h2
        · simp at h2
        · rw [if_neg (by simp)]
          exact h2
      · exact h2

theorem userStep_release {op : UserOp} {s s' : LibState} (h : userStep checks db kinds bulk s op = some s') : userStep false db kinds bulk s op = some s' := by
  cases checks with
  | false => exact h
  | true =>
    unfold userStep at h ⊢
    rw [Option.bind_eq_some_iff] at h
    obtain ⟨⟨s1, sent⟩, h1, h2⟩ := h
    rw [dbStep_release h1, Option.bind_some]
    cases sent with
    | none => exact h2
    | some m =>
      dsimp only at h2 ⊢
      unfold serve at h2 ⊢
      simp only [Option.bind_eq_some_iff, Option.map_eq_some_iff] at h2 ⊢
      obtain ⟨x, e1, y, e2, z, e3, e4⟩ := h2
      exact ⟨x, e1, y, dbStep_release e2, z, dbStep_release e3, e4⟩

/-- One call of the user keeps the invariant. -/
theorem user_inv (hc : Chunked db bulk) {xs : List Input} {outs : List (List (BitVec 8))} {place : Place} (hd : Decodes xs outs db bulk place)
    (hI : LibInv db bulk kinds s L a events) {op : UserOp} {s' : LibState} (h : userStep checks db kinds bulk s op = some s') :
    ∃ L' a' events' r, LibInv db bulk kinds s' L' a' events' ∧ resultOf db s op = some r ∧ UserSpec (cfgOf db ownStreamer).numChunks a.loaded op r a'.loaded := by
  have h := userStep_release h
  cases hst : Streaming.step (cfgOf db ownStreamer) s.db.book op.call with
  | none =>
    exfalso
    have hn : dbStep false db (cfgOf db ownStreamer) s.db (.call op.call) = none := by
      rw [dbStep, hst]
      rfl
    unfold userStep at h
    rw [hn] at h
    simp at h
  | some x =>
    obtain ⟨s2, L', a', events', r, k1, k2, k3, k4, -⟩ := user_total (checks := false) hc hd hI op (fun h => by simp at h) hst
    rw [h, Option.some.injEq] at k1
    subst k1
    exact ⟨L', a', events', r, k2, k3, k4⟩

/-- A history of calls: what is loaded after each. -/
inductive UserHistory (num : Tier → Nat) : (Tier → Nat → Bool) → List UserOp → (Tier → Nat → Bool) → Prop
  | nil (loaded) : UserHistory num loaded [] loaded
  | cons {loaded op r loaded' ops loaded''} : UserSpec num loaded op r loaded' → UserHistory num loaded' ops loaded'' → UserHistory num loaded (op :: ops) loaded''

theorem userRun_inv (hc : Chunked db bulk) {xs : List Input} {outs : List (List (BitVec 8))} {place : Place} (hd : Decodes xs outs db bulk place) :
    ∀ (ops : List UserOp) (s : LibState) (L : Ledger) (a : AState) (events : List Runtime.Event), LibInv db bulk kinds s L a events →
    ∀ s', userRun checks db kinds bulk s ops = some s' →
    ∃ L' a' events', LibInv db bulk kinds s' L' a' events' ∧ UserHistory (cfgOf db ownStreamer).numChunks a.loaded ops a'.loaded := by
  intro ops
  induction ops with
  | nil =>
    intro s L a events hI s' h
    rw [userRun, Option.some.injEq] at h
    subst h
    exact ⟨L, a, events, hI, .nil _⟩
  | cons op ops ih =>
    intro s L a events hI s' h
    rw [userRun, Option.bind_eq_some_iff] at h
    obtain ⟨s1, h1, h2⟩ := h
    obtain ⟨L1, a1, ev1, r, k1, -, k3⟩ := user_inv hc hd hI h1
    obtain ⟨L2, a2, ev2, g1, g2⟩ := ih s1 L1 a1 ev1 k1 s' h2
    exact ⟨L2, a2, ev2, g1, .cons k3 g2⟩

theorem freshRequests_ok (kinds : Nat → StreamerKind) : FreshRequests (freshRequests kinds) := by
  intro k
  unfold freshRequests
  cases kinds k with
  | null => exact ⟨by decide, by decide, fun r hr => by simp at hr; rw [hr]⟩
  | debug => exact ⟨by decide, by decide, fun r hr => by simp at hr; rw [hr]⟩

/-- A fresh context. -/
theorem libInit_inv {xs : List Input} {outs : List (List (BitVec 8))} {place : Place} (hd : Decodes xs outs db bulk place) (kinds : Nat → StreamerKind) :
    ∃ s0, libInit db kinds bulk = some s0 ∧ LibInv db bulk kinds s0 Ledger.empty AState.empty [] := by
  obtain ⟨h', g1, -⟩ := hd [] (fun e he => by simp at he)
  have hst : streamed false db [] = (openHeaders db).bind (applyEvents false db []) := rfl
  cases e1 : openHeaders db with
  | none => rw [hst, e1] at g1; simp at g1
  | some hd0 =>
    have hs0 : streamed false db [] = some hd0 := by
      rw [hst, e1, Option.bind_some] at g1 ⊢
      rw [g1]
      unfold applyEvents at g1
      simp only [Option.bind_eq_some_iff] at g1
      obtain ⟨b, -, c, -, g⟩ := g1
      exact g.symm
    refine ⟨⟨⟨Streaming.init (cfgOf db ownStreamer) (freshRequests kinds), hd0, fun t => if kinds t = .null then bulk t else []⟩, fun _ => false⟩, ?_,
      ⟨Core.init db bulk ownStreamer (freshRequests_ok kinds) _, hs0, fun _ => rfl, ?_, ?_, ?_, ?_⟩⟩
    · unfold libInit dbInit
      rw [e1]
      rfl
    · intro t _ q hq
      simp [Ledger.empty] at hq
    · intro t _
      simp [Streaming.init, AState.empty]
    · intro t _ hk
      exact ⟨if_pos hk, rfl⟩
    · intro t _ hk
      refine ⟨rfl, fun _ => if_neg (by rw [hk]; simp), fun h => by simp at h⟩

end Acl.DbStream
