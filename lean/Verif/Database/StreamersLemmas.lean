import Verif.Database.StreamContextMain
import Verif.Database.Streamers
/-
What stream_in, stream_out and complete do to the bulk data pointers, and the ranges of bytes of requests.
-/
namespace Acl.DbStream
open Acl.Streaming Acl.Streaming.Spec Acl.Runtime Acl.DbBuild

/-- Nothing is in flight: every request of every streamer is free. -/
theorem idle_free {cfg : Cfg} {s : Streaming.State} {a : AState} (R : Rel cfg s a) (hi : ∀ t, a.pending t = none) {k i : Nat} {r : Request}
    (h : (s.streamer k).requests[i]? = some r) : r.tier = .highest := by
  by_contra hne
  have := (R.slotOk k i r h hne).2.2
  rw [hi] at this
  simp at this

/-- stream_in, with nothing in flight. -/
theorem streamIn_book {cfg : Cfg} {s : Streaming.State} {a : AState} (R : Rel cfg s a) (hN : SmallChunks cfg) (hi : ∀ t, a.pending t = none) {t : Tier} {n : Nat}
    {s' : Streaming.State} {r : Result} {d : Option Dispatch} (h : streamIn cfg s t n = some (s', r, d)) :
    r ≠ .streamingInProgress ∧ r ≠ .noFreeStreamingRequests ∧ (∀ u, (s'.tier u).bulk = (s.tier u).bulk) ∧
      ∀ x, d = some x → x.bulkFlag = !(s.tier t).bulk ∧ x.id < 2 ^ 64 := by
  unfold streamIn at h
  by_cases ht : t = .highest
  · simp [ht] at h
    obtain ⟨rfl, rfl, rfl⟩ := h
    exact ⟨by decide, by decide, fun _ => rfl, fun x hx => by simp at hx⟩
  · rw [isStreaming_eq R hN t ht] at h
    simp only [if_neg ht, Option.bind_eq_bind, Option.bind_some, Option.pure_def, hi, Option.isSome_none, Bool.false_eq_true, if_false] at h
    cases hf : findFirstPending (s.tier t).loaded 0 with
    | none =>
      simp [hf] at h
      obtain ⟨rfl, rfl, rfl⟩ := h
      exact ⟨by decide, by decide, fun _ => rfl, fun x hx => by simp at hx⟩
    | some first =>
      simp only [hf] at h
      generalize numStreaming first n (cfg.numChunks t) = count at h
      by_cases hc : count = 0
      · simp [hc] at h
        obtain ⟨rfl, rfl, rfl⟩ := h
        exact ⟨by decide, by decide, fun _ => rfl, fun x hx => by simp at hx⟩
      · rw [if_neg hc] at h
        obtain ⟨hs1, hs2, hs3⟩ := R.slots (cfg.streamerOf t)
        rcases buildRequest_spec (s.streamer (cfg.streamerOf t)) .streamIn t first count hs1 hs2 hs3 with
          ⟨q, hr1, hr2, e⟩ | ⟨q, id, hr1, hr2, hid, hne, st', hst', e⟩
        · exact absurd (idle_free R hi hr1) hr2
        · rw [e] at h
          simp only [Option.bind_some, if_neg hne] at h
          cases em : bitsetSetRange (s.tier t).streaming first count true with
          | none => rw [em] at h; simp at h
          | some m =>
            rw [em] at h
            simp only [Option.bind_some, Option.some.injEq, Prod.mk.injEq] at h
            obtain ⟨rfl, rfl, rfl⟩ := h
            refine ⟨by decide, by decide, fun u => ?_, fun x hx => ?_⟩
            · dsimp only
              unfold updTier
              split
              · rename_i hu; rw [hu]
              · rfl
            · rw [Option.some.injEq] at hx
              subst hx
              refine ⟨rfl, ?_⟩
              dsimp only
              rw [hid]
              unfold makeRequestId
              omega

/-- As many chunks as there are in the range: none is loaded outside. -/
theorem countBelow_eq_range {p : Nat → Bool} {first k N : Nat} (hr : first + k ≤ N) (h1 : ∀ j, first ≤ j → j < first + k → p j = true)
    (h2 : ∀ j, j < N → p j = true → first ≤ j ∧ j < first + k) : countBelow N p = k := by
  have e : N = first + (k + (N - first - k)) := by omega
  rw [e, countBelow_add, countBelow_add]
  have full : countBelow k (fun i => p (first + i)) = k := (countBelow_full _ _).mpr fun j hj => h1 _ (by omega) (by omega)
  have lo : countBelow first p = 0 := by
    by_contra hne
    obtain ⟨i, i1, i2⟩ := (countBelow_ge_one first p).1 hne
    have := h2 i (by omega) i2
    omega
  have hi : countBelow (N - first - k) (fun j => p (first + (k + j))) = 0 := by
    by_contra hne
    obtain ⟨i, i1, i2⟩ := (countBelow_ge_one _ _).1 hne
    have := h2 _ (by omega) i2
    omega
  omega

/-- stream_out, with nothing in flight: the bulk data can be freed when no other chunk is loaded, and then its pointer is dropped. -/
theorem streamOut_book {cfg : Cfg} {s : Streaming.State} {a : AState} (R : Rel cfg s a) (hN : SmallChunks cfg) (hi : ∀ t, a.pending t = none) {t : Tier} {n : Nat}
    {s' : Streaming.State} {r : Result} {d : Option Dispatch} (h : streamOut cfg s t n = some (s', r, d)) :
    r ≠ .streamingInProgress ∧ r ≠ .noFreeStreamingRequests ∧
      (∀ u, (s'.tier u).bulk = if u = t ∧ ∃ x, d = some x ∧ x.bulkFlag = true then false else (s.tier u).bulk) ∧
      ∀ x, d = some x → (x.bulkFlag = true ↔ ∀ i, a.loaded t i = true → x.first ≤ i ∧ i < x.first + x.count) ∧ x.id < 2 ^ 64 := by
  unfold streamOut at h
  by_cases ht : t = .highest
  · simp [ht] at h
    obtain ⟨rfl, rfl, rfl⟩ := h
    exact ⟨by decide, by decide, fun _ => by simp, fun x hx => by simp at hx⟩
  · rw [isStreaming_eq R hN t ht] at h
    simp only [if_neg ht, Option.bind_eq_bind, Option.bind_some, Option.pure_def, hi, Option.isSome_none, Bool.false_eq_true, if_false] at h
    cases hf : findFirstLoaded (s.tier t).loaded 0 with
    | none =>
      simp [hf] at h
      obtain ⟨rfl, rfl, rfl⟩ := h
      exact ⟨by decide, by decide, fun _ => by simp, fun x hx => by simp at hx⟩
    | some first =>
      simp only [hf] at h
      obtain ⟨_, hf2, hf3, hf4⟩ := findFirstLoaded_some _ _ _ hf
      have hlt : first < cfg.numChunks t := by
        by_contra hc
        have := R.tailL t first (by omega)
        rw [← R.bitL] at this
        simp at hf3
        rw [hf3] at this; simp at this
      have hpos := tier_pos R t first (by omega)
      obtain ⟨hr, hcn⟩ := numStreaming_range first n (cfg.numChunks t) (by omega) (hN t) hpos
      generalize numStreaming first n (cfg.numChunks t) = count at hr hcn h
      by_cases hc : count = 0
      · simp [hc] at h
        obtain ⟨rfl, rfl, rfl⟩ := h
        exact ⟨by decide, by decide, fun _ => by simp, fun x hx => by simp at hx⟩
      · rw [if_neg hc] at h
        obtain ⟨hs1, hs2, hs3⟩ := R.slots (cfg.streamerOf t)
        rcases buildRequest_spec (s.streamer (cfg.streamerOf t)) .streamOut t first count hs1 hs2 hs3 with
          ⟨q, hr1, hr2, e⟩ | ⟨q, id, hr1, hr2, hid, hne, st', hst', e⟩
        · exact absurd (idle_free R hi hr1) hr2
        · have tail : ∀ i, cfg.numChunks t ≤ i → bsBit (s.tier t).loaded i = false := fun i hi => by
            rw [R.bitL]; exact R.tailL t i hi
          obtain ⟨c, ec, hcc⟩ := bitsetCount_eq (s.tier t).loaded (cfg.numChunks t) (R.lenL t) tail (hN t)
          rw [e, ec] at h
          simp only [Option.bind_some, if_neg hne] at h
          cases em : bitsetSetRange (s.tier t).streaming first count true with
          | none => rw [em] at h; simp at h
          | some m =>
          rw [em] at h
          simp only [Option.bind_some] at h
          cases hu : unregister { (s.tier t) with streaming := m } first count with
          | none => rw [hu] at h; simp at h
          | some ts' =>
            rw [hu] at h
            simp only [Option.bind_some, Option.some.injEq, Prod.mk.injEq] at h
            obtain ⟨rfl, rfl, rfl⟩ := h
            obtain ⟨u1, u2, u3, u4, u5⟩ := unregister_spec _ _ _ _ hu
            refine ⟨by decide, by decide, fun u => ?_, fun x hx => ?_⟩
            · dsimp only
              unfold updTier
              by_cases hut : u = t
              · rw [if_pos hut]
                dsimp only
                by_cases hcan : (count == c.toNat) = true
                · rw [if_pos hcan, if_pos ⟨hut, _, rfl, hcan⟩]
                · rw [if_neg hcan, if_neg, hut]
                  rintro ⟨-, x, hx, hb⟩
                  rw [Option.some.injEq] at hx
                  subst hx
                  exact hcan hb
              · rw [if_neg hut, if_neg (fun hx => hut hx.1)]
            · rw [Option.some.injEq] at hx
              subst hx
              dsimp only
              refine ⟨?_, by rw [hid]; unfold makeRequestId; omega⟩
              rw [beq_iff_eq, hcc]
              constructor
              · intro heq i hli
                by_contra hout
                have hiN : i < cfg.numChunks t := by
                  by_contra hc
                  have := R.tailL t i (by omega)
                  rw [hli] at this; simp at this
                exact absurd heq (Nat.ne_of_lt (countBelow_gt_range hr hiN hout (fun j h1 h2 => u1 j h1 h2) (by rw [R.bitL]; exact hli)))
              · intro hall
                exact (countBelow_eq_range hr (fun j h1 h2 => u1 j h1 h2) fun j _ hj => hall j (by rw [← R.bitL]; exact hj)).symm

/-- complete of the request in flight for a tier. -/
theorem complete_book {cfg : Cfg} {s s' : Streaming.State} {k id : Nat} {r : Request} (hr : requestOf s k id = some r) (h : finish cfg s k id true = some s') (u : Tier) :
    (s'.tier u).bulk = if u = r.tier ∧ r.action = .streamIn then true else (s.tier u).bulk := by
  obtain ⟨s1, e1, e2⟩ := (finish_request cfg s k id true).2 r hr s' h
  rw [e2]
  unfold executeRequest at e1
  cases hact : r.action with
  | streamIn =>
    simp only [hact, if_true, Option.pure_def, Option.bind_eq_bind, Option.bind_eq_some_iff, Option.some.injEq] at e1
    obtain ⟨l, -, ts, rfl, st, -, rfl⟩ := e1
    dsimp only
    unfold updTier
    by_cases hu : u = r.tier
    · simp [hu]
    · simp [hu]
  | streamOut =>
    simp only [hact, Option.pure_def, Option.bind_eq_bind, Option.bind_eq_some_iff, Option.some.injEq] at e1
    obtain ⟨l, -, st, -, rfl⟩ := e1
    dsimp only
    unfold updTier
    by_cases hu : u = r.tier
    · simp [hu]
    · simp [hu]

/-- Byte `q` of the bulk data of tier `t` is in chunk `i`. -/
def InChunk (db : List (BitVec 8)) (t i q : Nat) : Prop :=
  ∃ e, DbBuffer.getChunkDescription db (tierOf t) i = some e ∧ e.2.toNat ≤ q ∧ q < e.2.toNat + e.1.toNat

/-- The bytes of a request are those of its chunks. -/
theorem sent_chunks {db : List (BitVec 8)} {bulk : Nat → List (BitVec 8)} (h : Chunked db bulk) (streamerOf : Tier → Nat) {d : Dispatch} (ht : d.tier ≠ .highest)
    (hc : 1 ≤ d.count) (hr : d.first + d.count ≤ (cfgOf db streamerOf).numChunks d.tier) {m : Sent} (hm : sentOf db d = some m) (q : Nat) :
    m.has q = true ↔ ∃ i, d.first ≤ i ∧ i < d.first + d.count ∧ InChunk db (tierIndex d.tier) i q := by
  obtain ⟨m', k1, -, -, -, -, k6, -, -⟩ := sent_ok h streamerOf ht hc hr
  rw [hm, Option.some.injEq] at k1
  subst k1
  obtain ⟨max, hmax, h2⟩ := h
  obtain ⟨hb, n, hn, -, hch⟩ := h2 (tierIndex d.tier) (tierIndex_lt ht)
  have hnum := numChunks_eq (streamerOf := streamerOf) hn
  rw [tierOf_tierIndex ht] at hnum
  rw [hnum] at hr
  obtain ⟨e0, a1, a2, a3, a4, a5⟩ := hch d.first (by omega)
  obtain ⟨e1, b1, b2, b3, b4, b5⟩ := hch (d.first + d.count - 1) (by omega)
  unfold Sent.has
  simp only [Bool.and_eq_true, decide_eq_true_eq]
  constructor
  · rintro ⟨g1, g2⟩
    by_cases hlast : q < (d.first + d.count - 1) * max.toNat
    · have hm0 : 0 < max.toNat := by
        rcases Nat.eq_zero_or_pos max.toNat with h0 | h0
        · rw [h0] at hlast; omega
        · exact h0
      have hoff : m.offset = d.first * max.toNat := by
        rw [tierOf_tierIndex ht] at a1 b1
        unfold sentOf at hm
        rw [a1, b1, hmax] at hm
        simp only [Option.bind_eq_bind, Option.bind_some, Option.some.injEq] at hm
        rw [← hm, ← a2]
      have i1 : d.first ≤ q / max.toNat := (Nat.le_div_iff_mul_le hm0).2 (by omega)
      have i2 : q / max.toNat < d.first + d.count - 1 := (Nat.div_lt_iff_lt_mul hm0).2 hlast
      obtain ⟨e, c1, c2, c3, -, -⟩ := hch (q / max.toNat) (by omega)
      refine ⟨q / max.toNat, i1, by omega, e, c1, ?_, ?_⟩
      · rw [c2]; exact Nat.div_mul_le_self _ _
      · rw [c2, c3 (by omega)]
        have := Nat.mod_lt q hm0
        have := Nat.div_add_mod q max.toNat
        rw [Nat.mul_comm] at this
        omega
    · refine ⟨d.first + d.count - 1, by omega, by omega, e1, b1, by omega, ?_⟩
      have hend : m.offset + m.size = e1.2.toNat + e1.1.toNat := by
        have hsum : (d.first + d.count - 1) * max.toNat = d.first * max.toNat + (d.count - 1) * max.toNat := by
          rw [← Nat.add_mul]; congr 1; omega
        have hsize : ((BitVec.ofNat 32 d.count - 1#32) * max + e1.1).toNat = (d.count - 1) * max.toNat + e1.1.toNat := by
          have h1 : (BitVec.ofNat 32 d.count - 1#32).toNat = d.count - 1 := by
            have := n.isLt
            rw [BitVec.toNat_sub, BitVec.toNat_ofNat]
            simp only [BitVec.toNat_ofNat]
            omega
          rw [BitVec.toNat_add, BitVec.toNat_mul, h1, Nat.mod_eq_of_lt (by omega), Nat.mod_eq_of_lt (by omega)]
        rw [tierOf_tierIndex ht] at a1 b1
        unfold sentOf at hm
        rw [a1, b1, hmax] at hm
        simp only [Option.bind_eq_bind, Option.bind_some, Option.some.injEq] at hm
        rw [← hm]
        dsimp only
        rw [hsize]
        omega
      omega
  · rintro ⟨i, i1, i2, e, e1, e2, e3⟩
    have := k6.inside i i1 i2 e e1
    omega

end Acl.DbStream
