import Verif.Database.StreamContextSpec
import Verif.Props.C25
/-
A database context with streamers: every history of calls is a history of chunks registered and unregistered.
-/
namespace Acl.DbStream
open Acl.Streaming Acl.Streaming.Spec Acl.Runtime Acl.DbBuild Acl.Transform Acl.Seek.Spec

theorem tierIndex_tierOf {t : Nat} (ht : t < 2) : tierIndex (tierOf t) = t := by
  rcases (show t = 0 ∨ t = 1 by omega) with rfl | rfl <;> rfl

theorem tierOf_tierIndex {t : Tier} (ht : t ≠ .highest) : tierOf (tierIndex t) = t := by
  cases t <;> first | exact absurd rfl ht | rfl

theorem tierIndex_lt {t : Tier} (ht : t ≠ .highest) : tierIndex t < 2 := by
  cases t with
  | highest => exact absurd rfl ht
  | medium => decide
  | lowest => decide

theorem tierOf_ne (t : Nat) : tierOf t ≠ .highest := by
  unfold tierOf
  split <;> simp

theorem tierOf_inj {t u : Nat} (ht : t < 2) (hu : u < 2) (h : tierOf t = tierOf u) : t = u := by
  rw [← tierIndex_tierOf ht, h, tierIndex_tierOf hu]

/-! ### The events -/

theorem streamed_append (checks : Bool) (db : List (BitVec 8)) (a b : List Runtime.Event) :
    streamed checks db (a ++ b) = (streamed checks db a).bind (applyEvents checks db b) := by
  unfold streamed applyEvents
  cases openHeaders db with
  | none => rfl
  | some h =>
    cases readDescs db 0 with
    | none => rfl
    | some d0 =>
      cases readDescs db 1 with
      | none => rfl
      | some d1 => simp only [Option.bind_some]; rw [runEvents_append]

theorem applyEvents_release {db : List (BitVec 8)} {events : List Runtime.Event} {h h' : List (BitVec 8)} (hx : applyEvents true db events h = some h') :
    applyEvents false db events h = some h' := by
  unfold applyEvents at hx ⊢
  simp only [Option.bind_eq_some_iff] at hx ⊢
  obtain ⟨b, h2, c, h3, h4⟩ := hx
  exact ⟨b, h2, c, h3, runEvents_release h4⟩

theorem chunkEvents_succ (add : Bool) (t first count : Nat) (memory : List (BitVec 8)) :
    chunkEvents add t first (count + 1) memory = chunkEvents add t first count memory ++ [⟨add, t, first + count, memory⟩] := by
  unfold chunkEvents
  rw [List.range_succ, List.map_append]
  rfl

theorem loadedAfter_chunks (add : Bool) (t first count : Nat) (memory : List (BitVec 8)) (l : Nat → Nat → Bool) (u i : Nat) :
    loadedAfter (chunkEvents add t first count memory) l u i = if u = t ∧ first ≤ i ∧ i < first + count then add else l u i := by
  induction count with
  | zero => rw [if_neg (by omega)]; rfl
  | succ n ih =>
    rw [chunkEvents_succ, loadedAfter_append]
    show (if u = t ∧ i = first + n then add else _) = _
    rw [ih]
    by_cases h1 : u = t
    · by_cases h2 : i = first + n
      · rw [if_pos ⟨h1, h2⟩, if_pos (by omega)]
      · rw [if_neg (by tauto)]
        by_cases h3 : first ≤ i ∧ i < first + n
        · rw [if_pos ⟨h1, h3⟩, if_pos (by omega)]
        · rw [if_neg (by tauto), if_neg (by omega)]
    · rw [if_neg (by tauto), if_neg (by tauto), if_neg (by tauto)]

theorem alternates_chunks (add : Bool) (t first count : Nat) (memory : List (BitVec 8)) (l : Nat → Nat → Bool)
    (h : ∀ i, first ≤ i → i < first + count → l t i = !add) : Alternates (chunkEvents add t first count memory) l := by
  induction count with
  | zero => exact trivial
  | succ n ih =>
    rw [chunkEvents_succ, alternates_append]
    refine ⟨ih fun i h1 h2 => h i h1 (by omega), ?_, trivial⟩
    show loadedAfter _ _ t (first + n) = _
    rw [loadedAfter_chunks, if_neg (by omega)]
    exact h _ (by omega) (by omega)

theorem loadedBy_append (a b : List Runtime.Event) : loadedBy (a ++ b) = loadedAfter b (loadedBy a) := loadedAfter_append a b _

/-! ### The chunks of a database -/

theorem numChunks_eq {db : List (BitVec 8)} {streamerOf : Tier → Nat} {t : Nat} {n : BitVec 32} (h : DbBuffer.getNumChunks db (tierOf t) = some n) :
    (cfgOf db streamerOf).numChunks (tierOf t) = n.toNat := by
  unfold cfgOf
  dsimp only
  rw [h]
  rfl

theorem small_chunks {db : List (BitVec 8)} {bulk : Nat → List (BitVec 8)} (h : Chunked db bulk) (streamerOf : Tier → Nat) :
    SmallChunks (cfgOf db streamerOf) := by
  intro t
  by_cases ht : t = .highest
  · subst ht
    show ((some (0 : BitVec 32)).map BitVec.toNat).getD 0 ≤ _
    simp
  · obtain ⟨max, -, h2⟩ := h
    obtain ⟨hb, n, hn, hmax, hc⟩ := h2 (tierIndex t) (tierIndex_lt ht)
    have := numChunks_eq (streamerOf := streamerOf) hn
    rw [tierOf_tierIndex ht] at this
    rw [this]
    by_contra hbig
    have hm := hmax (by omega)
    obtain ⟨e, -, e2, -, e4, e5⟩ := hc (n.toNat - 1) (by omega)
    have : (n.toNat - 1) * 4096 ≤ (n.toNat - 1) * max.toNat := Nat.mul_le_mul_left _ hm
    omega

/-- The bytes of the chunks of a request, and of those which are not in it. -/
structure Ranges (db : List (BitVec 8)) (t first count : Nat) (m : Sent) : Prop where
  inside : ∀ i, first ≤ i → i < first + count → ∀ e, DbBuffer.getChunkDescription db (tierOf t) i = some e →
    m.offset ≤ e.2.toNat ∧ e.2.toNat + e.1.toNat ≤ m.offset + m.size
  outside : ∀ i, ¬ (first ≤ i ∧ i < first + count) → ∀ n, DbBuffer.getNumChunks db (tierOf t) = some n → i < n.toNat →
    ∀ e, DbBuffer.getChunkDescription db (tierOf t) i = some e →
    e.2.toNat + e.1.toNat ≤ m.offset ∨ m.offset + m.size ≤ e.2.toNat

theorem sent_ok {db : List (BitVec 8)} {bulk : Nat → List (BitVec 8)} (h : Chunked db bulk) (streamerOf : Tier → Nat) {d : Dispatch} (ht : d.tier ≠ .highest)
    (hc : 1 ≤ d.count) (hr : d.first + d.count ≤ (cfgOf db streamerOf).numChunks d.tier) :
    ∃ m, sentOf db d = some m ∧ m.action = d.action ∧ m.tier = d.tier ∧ m.id = d.id ∧ m.flag = d.bulkFlag ∧
      Ranges db (tierIndex d.tier) d.first d.count m ∧ 0 < m.size ∧ m.offset + m.size ≤ (bulk (tierIndex d.tier)).length := by
  obtain ⟨max, hmax, h2⟩ := h
  obtain ⟨hb, n, hn, -, hch⟩ := h2 (tierIndex d.tier) (tierIndex_lt ht)
  have hnum := numChunks_eq (streamerOf := streamerOf) hn
  rw [tierOf_tierIndex ht] at hnum
  rw [hnum] at hr
  obtain ⟨e0, a1, a2, a3, a4, a5⟩ := hch d.first (by omega)
  obtain ⟨e1, b1, b2, b3, b4, b5⟩ := hch (d.first + d.count - 1) (by omega)
  have hsum : (d.first + d.count - 1) * max.toNat = d.first * max.toNat + (d.count - 1) * max.toNat := by
    rw [← Nat.add_mul]; congr 1; omega
  have hsize : ((BitVec.ofNat 32 d.count - 1#32) * max + e1.1).toNat = (d.count - 1) * max.toNat + e1.1.toNat := by
    have h1 : (BitVec.ofNat 32 d.count - 1#32).toNat = d.count - 1 := by
      have := n.isLt
      rw [BitVec.toNat_sub, BitVec.toNat_ofNat]
      simp only [BitVec.toNat_ofNat]
      omega
    rw [BitVec.toNat_add, BitVec.toNat_mul, h1, Nat.mod_eq_of_lt (by omega), Nat.mod_eq_of_lt (by omega)]
  unfold sentOf
  rw [tierOf_tierIndex ht] at a1 b1
  rw [a1, b1, hmax]
  refine ⟨_, rfl, rfl, rfl, rfl, rfl, ⟨?_, ?_⟩, by dsimp only; omega, by dsimp only; omega⟩
  · intro i i1 i2 e he
    obtain ⟨e', c1, c2, c3, c4, c5⟩ := hch i (by omega)
    rw [he, Option.some.injEq] at c1
    subst c1
    dsimp only
    rw [hsize, a2, c2]
    refine ⟨Nat.mul_le_mul_right _ i1, ?_⟩
    by_cases hl : i = d.first + d.count - 1
    · have he2 : some e = some e1 := by rw [← he, ← b1, tierOf_tierIndex ht, hl]
      rw [Option.some.injEq] at he2
      subst he2
      rw [hl, hsum]
      omega
    · have := c3 (by omega)
      have hle : (i + 1) * max.toNat ≤ (d.first + d.count - 1) * max.toNat := Nat.mul_le_mul_right _ (by omega)
      rw [Nat.succ_mul] at hle
      omega
  · intro i hi n' hn' hin e he
    rw [hn, Option.some.injEq] at hn'
    subst hn'
    obtain ⟨e', c1, c2, c3, c4, c5⟩ := hch i hin
    rw [he, Option.some.injEq] at c1
    subst c1
    dsimp only
    rw [hsize, a2, c2]
    by_cases hlt : i < d.first
    · left
      rw [c3 (by omega)]
      have hle : (i + 1) * max.toNat ≤ d.first * max.toNat := Nat.mul_le_mul_right _ (by omega)
      rw [Nat.succ_mul] at hle
      omega
    · right
      rw [b3 (by omega)]
      have hle : (d.first + d.count - 1 + 1) * max.toNat ≤ i * max.toNat := Nat.mul_le_mul_right _ (by omega)
      rw [Nat.succ_mul] at hle
      omega

/-! ### The request that is finished -/

/-- `finish` executes that request, and nothing else. -/
theorem finish_request (cfg : Cfg) (s : Streaming.State) (k id : Nat) (success : Bool) :
    (requestOf s k id = none → finish cfg s k id success = some s) ∧
    ∀ r, requestOf s k id = some r → ∀ s', finish cfg s k id success = some s' →
      ∃ s1, executeRequest cfg s success r = some s1 ∧ s'.tier = s1.tier := by
  unfold requestOf finish
  dsimp only
  cases hr : (s.streamer k).requests[id % 2 ^ 32]? with
  | none => exact ⟨fun _ => rfl, fun r h => by simp at h⟩
  | some r =>
    simp only [Option.bind_some]
    by_cases h1 : r.tier = .highest
    · rw [if_pos h1, if_pos h1]
      exact ⟨fun _ => rfl, fun r h => by simp at h⟩
    · rw [if_neg h1, if_neg h1]
      by_cases h2 : r.gen ≠ id / 2 ^ 32 % 2 ^ 32
      · rw [if_pos h2, if_pos h2]
        exact ⟨fun _ => rfl, fun r h => by simp at h⟩
      · rw [if_neg h2, if_neg h2]
        refine ⟨fun h => by simp at h, fun r' h s' hs => ?_⟩
        rw [Option.some.injEq] at h
        subst h
        simp only [Option.bind_eq_bind, Option.bind_eq_some_iff, Option.pure_def, Option.some.injEq] at hs
        obtain ⟨s1, e1, e2⟩ := hs
        exact ⟨s1, e1, by rw [← e2]⟩

theorem requestOf_some {cfg : Cfg} {s : Streaming.State} {a : AState} (R : Rel cfg s a) {k id : Nat} (hid : id < 2 ^ 64) {r : Request}
    (h : requestOf s k id = some r) : r.tier ≠ .highest ∧ cfg.streamerOf r.tier = k ∧ a.pending r.tier = some ⟨r.action, r.first, r.count, id⟩ := by
  unfold requestOf at h
  rw [Option.bind_eq_some_iff] at h
  obtain ⟨r', h1, h2⟩ := h
  split at h2
  · simp at h2
  · rename_i hne
    split at h2
    · simp at h2
    · rename_i hg
      rw [Option.some.injEq] at h2
      subst h2
      obtain ⟨g1, g2, g3⟩ := R.slotOk k _ _ h1 hne
      refine ⟨hne, g1, ?_⟩
      rw [g3]
      have : r'.gen = id / 2 ^ 32 % 2 ^ 32 := by simpa using hg
      rw [this, makeRequestId_split id hid]

/-- The tier of a request in flight is found by its identifier. -/
theorem requestOf_pending {cfg : Cfg} {s : Streaming.State} {a : AState} (R : Rel cfg s a) {k id : Nat} (hid : id < 2 ^ 64) {t : Tier} {p : Pending}
    (hp : a.pending t = some p) (hk : cfg.streamerOf t = k) (hpid : p.id = id) :
    ∃ r, requestOf s k id = some r ∧ r.tier = t ∧ p = ⟨r.action, r.first, r.count, id⟩ := by
  obtain ⟨i, r, h1, h2, h3, h4⟩ := R.pendOk t p hp
  rw [hk] at h1
  have hi : i < 2 ^ 32 := by
    have := (List.getElem?_eq_some_iff.mp h1).1
    have := (R.slots k).2.1
    omega
  have hsplit := makeRequestId_split id hid
  rw [h4] at hpid
  simp only at hpid
  have hpid' := hpid
  rw [← hsplit] at hpid
  obtain ⟨e1, e2⟩ := makeRequestId_inj hi (Nat.mod_lt _ (by decide)) hpid
  refine ⟨r, ?_, h2, by rw [h4, hpid']⟩
  unfold requestOf
  rw [← e1, h1, Option.bind_some, if_neg, if_neg (by rw [e2]; simp)]
  rw [h2]
  exact R.notHigh t p hp

end Acl.DbStream
