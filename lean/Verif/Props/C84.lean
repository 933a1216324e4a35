import Verif.Memory.DbLifecycle
/-!
C84: the life of a database context: its buffer, binding, relocation and memory. Model: Verif/Memory/DbLifecycle.lean.
Specification: `roundUp`, `needed`, `Bound`, `specStep`, `specRun`, `Kept` below.
-/
namespace Acl.C84
open Acl.Mem Acl.Mem.Life

/-- Specification: the smallest multiple of `k` that is not less than `n`. -/
def roundUp (k n : Nat) : Nat := (n + k - 1) / k * k

/-- Specification: bytes of 32 bit words with a bit for each of `chunks`. -/
def bits (chunks : Nat) : Nat := roundUp 32 chunks / 8

/-- Specification: the bytes a context needs: two bit sets for each tier, then at a multiple of 8 a header for each clip and each segment. -/
def needed (n : Numbers) : Nat :=
  roundUp 8 (2 * bits n.mediumChunks.toNat + 2 * bits n.lowChunks.toNat) + 8 * n.clips.toNat + 16 * n.segments.toNat

theorem bitsetBytes_toNat (c : BitVec 32) (h : c.toNat + 31 < 2 ^ 32) : (bitsetBytes c).toNat = bits c.toNat := by
  unfold bitsetBytes bits roundUp
  have : (c + 32 - 1).toNat = c.toNat + 31 := by
    rw [show c + 32 - 1 = c + 31#32 by bv_omega]
    simp only [BitVec.toNat_add, BitVec.toNat_ofNat]
    omega
  simp only [BitVec.toNat_mul, BitVec.toNat_udiv, this, show BitVec.toNat (32 : BitVec 32) = 32 from rfl, show BitVec.toNat (4 : BitVec 32) = 4 from rfl]
  omega

theorem bits_le (c : Nat) (h : c + 31 < 2 ^ 32) : bits c ≤ 2 ^ 29 ∧ bits c % 4 = 0 ∧ c ≤ 8 * bits c := by
  unfold bits roundUp
  omega

theorem seven_bits : ∀ j : Fin 64, 3 ≤ j.val → (7#64)[j.val] = false := by decide

theorem and_not7 (v : BitVec 64) : (v &&& ~~~7#64).toNat = v.toNat / 8 * 8 := by
  have : v &&& ~~~7#64 = (v >>> 3) <<< 3 := by
    ext i hi
    simp only [BitVec.getElem_and, BitVec.getElem_not, BitVec.getElem_shiftLeft, BitVec.getElem_ushiftRight]
    by_cases h3 : i < 3
    · have : i = 0 ∨ i = 1 ∨ i = 2 := by omega
      rcases this with rfl | rfl | rfl <;> simp
    · have h7 : (7#64)[i] = false := by
        exact seven_bits ⟨i, hi⟩ (by simpa using h3)
      have e : 3 + (i - 3) = i := by omega
      simp only [h3, h7, decide_false, Bool.not_false, Bool.and_true, e]
      exact (BitVec.getLsbD_eq_getElem hi).symm
  rw [this]
  simp only [BitVec.toNat_shiftLeft, BitVec.toNat_ushiftRight, Nat.shiftRight_eq_div_pow, Nat.shiftLeft_eq]
  have := v.isLt
  omega

theorem alignTo8_toNat (v : BitVec 32) (h : v.toNat + 7 < 2 ^ 32) : (alignTo8 v).toNat = roundUp 8 v.toNat := by
  unfold alignTo8 roundUp
  rw [BitVec.toNat_setWidth, show (7 : BitVec 64) = 7#64 from rfl, and_not7]
  simp only [BitVec.toNat_add, BitVec.toNat_setWidth, BitVec.toNat_ofNat]
  omega

theorem size_toNat (n : Numbers) (hm : n.mediumChunks.toNat + 31 < 2 ^ 32) (hl : n.lowChunks.toNat + 31 < 2 ^ 32) (hn : needed n < 2 ^ 32) :
    (runtimeDataSize n).toNat = needed n := by
  have h1 := bits_le _ hm
  have h2 := bits_le _ hl
  have e : (bitsetBytes n.mediumChunks + bitsetBytes n.mediumChunks + bitsetBytes n.lowChunks + bitsetBytes n.lowChunks).toNat =
      2 * bits n.mediumChunks.toNat + 2 * bits n.lowChunks.toNat := by
    simp only [BitVec.toNat_add, bitsetBytes_toNat _ hm, bitsetBytes_toNat _ hl]
    omega
  unfold runtimeDataSize
  dsimp only
  unfold needed at *
  rw [BitVec.toNat_add, BitVec.toNat_add, alignTo8_toNat _ (by rw [e]; omega), e]
  simp only [BitVec.toNat_mul, show BitVec.toNat (8 : BitVec 32) = 8 from rfl, show BitVec.toNat (16 : BitVec 32) = 16 from rfl]
  omega

/-- The regions of a buffer: start and length. -/
def regions (b : Buffer) (n : Numbers) : List (Nat × Nat) :=
  [(b.loadedMedium.toNat, bits n.mediumChunks.toNat), (b.streamingMedium.toNat, bits n.mediumChunks.toNat),
   (b.loadedLow.toNat, bits n.lowChunks.toNat), (b.streamingLow.toNat, bits n.lowChunks.toNat),
   (b.headers.toNat, 8 * n.clips.toNat + 16 * n.segments.toNat)]

/-- The buffer that is asked for has the bytes that are needed, and in a buffer at a multiple of 16 the regions do not overlap, are within the
buffer and end where it ends, words are at multiples of 4, the headers at a multiple of 8, and each bit set has a bit for each chunk. -/
theorem C84_layout (n : Numbers) (hm : n.mediumChunks.toNat + 31 < 2 ^ 32) (hl : n.lowChunks.toNat + 31 < 2 ^ 32) (hn : needed n < 2 ^ 32)
    (base : BitVec 64) (ha : base.toNat % 16 = 0) (hb : base.toNat + needed n < 2 ^ 64) :
    (runtimeDataSize n).toNat = needed n ∧
      (regions (carve base n) n).Pairwise (fun x y => x.1 + x.2 ≤ y.1) ∧
      (∀ x ∈ regions (carve base n) n, base.toNat ≤ x.1 ∧ x.1 + x.2 ≤ base.toNat + (runtimeDataSize n).toNat ∧ x.1 % 4 = 0) ∧
      (carve base n).headers.toNat % 8 = 0 ∧
      n.mediumChunks.toNat ≤ 8 * bits n.mediumChunks.toNat ∧ n.lowChunks.toNat ≤ 8 * bits n.lowChunks.toNat := by
  have h1 := bits_le _ hm
  have h2 := bits_le _ hl
  have hs := size_toNat n hm hl hn
  have hsum : 2 * bits n.mediumChunks.toNat + 2 * bits n.lowChunks.toNat ≤ needed n ∧
      roundUp 8 (2 * bits n.mediumChunks.toNat + 2 * bits n.lowChunks.toNat) + 8 * n.clips.toNat + 16 * n.segments.toNat = needed n ∧
      roundUp 8 (2 * bits n.mediumChunks.toNat + 2 * bits n.lowChunks.toNat) % 8 = 0 ∧
      2 * bits n.mediumChunks.toNat + 2 * bits n.lowChunks.toNat ≤ roundUp 8 (2 * bits n.mediumChunks.toNat + 2 * bits n.lowChunks.toNat) := by
    unfold needed roundUp; omega
  have e0 : (carve base n).loadedMedium.toNat = base.toNat := rfl
  have e1 : (carve base n).streamingMedium.toNat = base.toNat + bits n.mediumChunks.toNat := by
    simp only [carve, BitVec.toNat_add, BitVec.toNat_setWidth, bitsetBytes_toNat _ hm]; omega
  have e2 : (carve base n).loadedLow.toNat = base.toNat + 2 * bits n.mediumChunks.toNat := by
    simp only [carve, BitVec.toNat_add, BitVec.toNat_setWidth, bitsetBytes_toNat _ hm]; omega
  have e3 : (carve base n).streamingLow.toNat = base.toNat + 2 * bits n.mediumChunks.toNat + bits n.lowChunks.toNat := by
    simp only [carve, BitVec.toNat_add, BitVec.toNat_setWidth, bitsetBytes_toNat _ hm, bitsetBytes_toNat _ hl]; omega
  have e4 : (carve base n).headers.toNat = base.toNat + roundUp 8 (2 * bits n.mediumChunks.toNat + 2 * bits n.lowChunks.toNat) := by
    have := hsum.2.1
    unfold roundUp at this ⊢
    simp only [carve]
    rw [show (7 : BitVec 64) = 7#64 from rfl, and_not7]
    simp only [BitVec.toNat_add, BitVec.toNat_setWidth, bitsetBytes_toNat _ hm, bitsetBytes_toNat _ hl, BitVec.toNat_ofNat]
    omega
  refine ⟨hs, ?_, ?_, by rw [e4]; omega, h1.2.2, h2.2.2⟩
  · simp only [regions, e0, e1, e2, e3, e4, List.pairwise_cons, List.mem_cons, List.not_mem_nil, or_false, List.Pairwise.nil, and_true]
    refine ⟨?_, ?_, ?_, ?_, ?_⟩ <;> rintro x hx
    · rcases hx with rfl | rfl | rfl | rfl <;> simp only <;> omega
    · rcases hx with rfl | rfl | rfl <;> simp only <;> omega
    · rcases hx with rfl | rfl <;> simp only <;> omega
    · subst hx; simp only; omega
    · cases hx
  · rw [hs]
    simp only [regions, e0, e1, e2, e3, e4, List.mem_cons, List.not_mem_nil, or_false]
    rintro x (rfl | rfl | rfl | rfl | rfl) <;> simp only <;> omega

/-- Specification: what a context is bound to: the allocator and the numbers of the database when it was initialized, the hash it had then,
and the database. -/
structure Bound where
  allocator : Nat
  numbers : Numbers
  hash : BitVec 32
  db : Nat

/-- Specification: what there is: the databases in memory, and what the context is bound to. -/
structure View where
  mem : Nat → Db
  bound : Option Bound

/-- Specification: a context that is not bound can be initialized with a valid database, inline or with two initialized streamers; one that is
bound can be relocated to a valid database with the hash it remembers; reset leaves it not bound; else nothing changes. -/
def specStep (v : View) : Op → Bool × View
  | .init a d =>
    if v.bound = none ∧ (v.mem d).valid = true ∧ (v.mem d).inline = true then
      (true, { v with bound := some ⟨a, (v.mem d).numbers, (v.mem d).hash, d⟩ })
    else (false, v)
  | .initStreaming a d _ ready =>
    if v.bound = none ∧ (v.mem d).valid = true ∧ ready = (true, true) then
      (true, { v with bound := some ⟨a, (v.mem d).numbers, (v.mem d).hash, d⟩ })
    else (false, v)
  | .relocated d | .relocatedStreaming d _ =>
    match v.bound with
    | none => (false, v)
    | some b => if (v.mem d).valid = true ∧ (v.mem d).hash = b.hash then (true, { v with bound := some { b with db := d } }) else (false, v)
  | .reset => (true, { v with bound := none })
  | .change d x => (true, { v with mem := Function.update v.mem d x })

def specRun (v : View) : List Op → List Bool × View
  | [] => ([], v)
  | op :: ops => ((specStep v op).1 :: (specRun (specStep v op).2 ops).1, (specRun (specStep v op).2 ops).2)

/-- Specification: whenever the context is reset, the database it is bound to has the numbers it had when the context was initialized. -/
def Kept (v : View) : List Op → Prop
  | [] => True
  | op :: ops => (op = .reset → ∀ b, v.bound = some b → (v.mem b.db).numbers = b.numbers) ∧ Kept (specStep v op).2 ops

/-- Specification: what a context owns of an allocator. -/
def owned (v : View) (block a : Nat) : Blocks :=
  match v.bound with
  | none => 0
  | some b => if b.allocator = a then {(block, (runtimeDataSize b.numbers).toNat)} else 0

structure Inv (start : Nat → Heap) (s : State) (v : View) : Prop where
  mem : s.mem = v.mem
  db : s.ctx.db = v.bound.map (·.db)
  hash : ∀ b, v.bound = some b → s.ctx.hash = b.hash ∧ s.ctx.allocator = b.allocator
  heap : ∀ a, (s.heaps a).Ok ∧ (s.heaps a).live = owned v s.ctx.block a + (start a).live ∧ (s.heaps a).wrong = (start a).wrong

theorem inv_bind {start : Nat → Heap} {s : State} {v : View} (h : Inv start s v) (hv : v.bound = none) (a d : Nat)
    (bulk : Option Nat × Option Nat) (st : Option (Nat × Nat)) :
    let r := s.use a (alloc (runtimeDataSize (s.mem d).numbers).toNat)
    Inv start { r.2 with ctx := ⟨some d, (s.mem d).hash, a, r.1, bulk, st⟩ } { v with bound := some ⟨a, (v.mem d).numbers, (v.mem d).hash, d⟩ } := by
  refine ⟨h.mem, rfl, ?_, ?_⟩
  · rintro b hb
    cases hb
    exact ⟨by rw [← h.mem], rfl⟩
  · intro a'
    obtain ⟨ok, hl, hw⟩ := h.heap a'
    have hz : owned v s.ctx.block a' = 0 := by simp [owned, hv]
    simp only [State.use]
    by_cases e : a' = a
    · subst e
      rw [Function.update_self]
      refine ⟨ok_alloc ok _, ?_, hw⟩
      simp only [owned, if_true, alloc, h.mem]
      rw [hl, hz, zero_add, Multiset.singleton_add]
    · rw [Function.update_of_ne e]
      refine ⟨ok, ?_, hw⟩
      rw [hl, hz]
      simp only [owned, if_neg (Ne.symm e)]

theorem inv_reset {start : Nat → Heap} {s : State} {v : View} (h : Inv start s v)
    (hk : ∀ b, v.bound = some b → (v.mem b.db).numbers = b.numbers) : Inv start (reset s) { v with bound := none } := by
  unfold reset
  cases hv : v.bound with
  | none =>
    have hd := h.db
    rw [hv] at hd
    rw [hd]
    refine ⟨h.mem, hd, fun _ hb => by simp at hb, fun a => ?_⟩
    have := h.heap a
    simpa [owned, hv] using this
  | some b =>
    have hd := h.db
    rw [hv] at hd
    rw [hd]
    simp only [Option.map_some]
    refine ⟨h.mem, rfl, fun _ hb => by simp at hb, fun a => ?_⟩
    obtain ⟨ok, hl, hw⟩ := h.heap a
    obtain ⟨-, ha⟩ := h.hash b hv
    have hn : (s.mem b.db).numbers = b.numbers := by rw [h.mem]; exact hk b hv
    simp only [State.use, ha, hn]
    by_cases e : a = b.allocator
    · subst e
      rw [Function.update_self]
      simp only [owned, hv, if_true] at hl
      obtain ⟨F, rfl, l, w, ok'⟩ := own_free s.ctx.block (runtimeDataSize b.numbers).toNat _ _ ok hl
      exact ⟨ok', by rw [l]; rfl, w.trans hw⟩
    · rw [Function.update_of_ne e]
      refine ⟨ok, ?_, hw⟩
      simp only [owned, hv, if_neg (Ne.symm e)] at hl
      rw [hl]; rfl

theorem inv_move {start : Nat → Heap} {s : State} {v : View} (h : Inv start s v) {b : Bound} (hv : v.bound = some b) (d : Nat) (c : Ctx)
    (hc : c.db = some d ∧ c.hash = s.ctx.hash ∧ c.allocator = s.ctx.allocator ∧ c.block = s.ctx.block) :
    Inv start { s with ctx := c } { v with bound := some { b with db := d } } := by
  refine ⟨h.mem, hc.1, ?_, ?_⟩
  · rintro b' hb
    cases hb
    rw [hc.2.1, hc.2.2.1]
    exact h.hash b hv
  · intro a
    have := h.heap a
    simpa [owned, hv, hc.2.2.2] using this

theorem inv_step {start : Nat → Heap} {s : State} {v : View} (h : Inv start s v) (op : Op)
    (hk : op = .reset → ∀ b, v.bound = some b → (v.mem b.db).numbers = b.numbers) :
    (step s op).1 = (specStep v op).1 ∧ Inv start (step s op).2 (specStep v op).2 := by
  have hnone : s.ctx.db.isSome = true ↔ ¬ v.bound = none := by rw [h.db]; cases v.bound <;> simp
  cases op with
  | init a d =>
    simp only [step, Life.init, specStep, h.mem]
    by_cases h1 : (v.mem d).valid = true
    · by_cases h2 : (v.mem d).inline = true
      · by_cases h3 : v.bound = none
        · have h4 : s.ctx.db.isSome = false := by rw [Bool.eq_false_iff]; exact fun hc => hnone.mp hc h3
          simp only [h1, h2, h3, h4, Bool.not_true, Bool.false_eq_true, if_false, and_self, if_true, true_and]
          have := inv_bind h h3 a d (bulkData v.mem d) none
          simpa only [h.mem, State.use] using this
        · have h4 : s.ctx.db.isSome = true := hnone.mpr h3
          simp only [h1, h2, h3, h4, Bool.not_true, Bool.false_eq_true, if_false, and_self, if_true, true_and, false_and]
          exact h
      · simp only [h1, h2, Bool.not_true, Bool.false_eq_true, if_false, Bool.not_false, if_true, and_false, true_and]
        exact h
    · simp only [h1, Bool.not_false, if_true, false_and, and_false, Bool.false_eq_true, if_false, true_and]
      exact h
  | initStreaming a d st ready =>
    obtain ⟨r1, r2⟩ := ready
    simp only [step, Life.initStreaming, specStep, h.mem]
    by_cases h1 : (v.mem d).valid = true
    · cases r1
      · simp only [h1, Bool.not_true, Bool.false_eq_true, if_false, Bool.not_false, if_true, Prod.mk.injEq, false_and, and_false, true_and]
        exact h
      cases r2
      · simp only [h1, Bool.not_true, Bool.false_eq_true, if_false, Bool.not_false, if_true, Prod.mk.injEq, and_false, true_and]
        exact h
      by_cases h3 : v.bound = none
      · have h4 : s.ctx.db.isSome = false := by rw [Bool.eq_false_iff]; exact fun hc => hnone.mp hc h3
        simp only [h1, h3, h4, Bool.not_true, Bool.false_eq_true, if_false, and_self, if_true, true_and]
        have := inv_bind h h3 a d (none, none) (some st)
        simpa only [h.mem, State.use] using this
      · have h4 : s.ctx.db.isSome = true := hnone.mpr h3
        simp only [h1, h3, h4, Bool.not_true, Bool.false_eq_true, if_false, and_self, if_true, true_and, false_and]
        exact h
    · simp only [h1, Bool.not_false, if_true, false_and, and_false, Bool.false_eq_true, if_false, true_and]
      exact h
  | relocated d =>
    simp only [step, Life.relocated, specStep]
    cases hv : v.bound with
    | none =>
      have : s.ctx.db.isNone = true := by rw [h.db, hv]; rfl
      simp only [this, if_true, true_and]
      exact h
    | some b =>
      have h0 : s.ctx.db.isNone = false := by rw [h.db, hv]; rfl
      have hh := (h.hash b hv).1
      simp only [h0, Bool.false_eq_true, if_false, hh, h.mem]
      by_cases h1 : (v.mem d).valid = true
      · by_cases h2 : (v.mem d).hash = b.hash
        · simp only [h1, h2, Bool.not_true, Bool.false_eq_true, if_false, ne_eq, not_true_eq_false, and_self, if_true, true_and]
          have := inv_move h hv d { s.ctx with db := some d, bulk := bulkData v.mem d, hash := b.hash } ⟨rfl, hh.symm, rfl, rfl⟩
          simpa only [h.mem] using this
        · simp only [h1, h2, Bool.not_true, Bool.false_eq_true, if_false, ne_eq, Ne.symm h2, not_false_eq_true, if_true, and_false, true_and]
          exact h
      · simp only [h1, Bool.not_false, if_true, false_and, Bool.false_eq_true, if_false, true_and]
        exact h
  | relocatedStreaming d st =>
    simp only [step, Life.relocatedStreaming, specStep]
    cases hv : v.bound with
    | none =>
      have : s.ctx.db.isNone = true := by rw [h.db, hv]; rfl
      simp only [this, if_true, true_and]
      exact h
    | some b =>
      have h0 : s.ctx.db.isNone = false := by rw [h.db, hv]; rfl
      have hh := (h.hash b hv).1
      simp only [h0, Bool.false_eq_true, if_false, hh, h.mem]
      by_cases h1 : (v.mem d).valid = true
      · by_cases h2 : (v.mem d).hash = b.hash
        · simp only [h1, h2, Bool.not_true, Bool.false_eq_true, if_false, ne_eq, not_true_eq_false, and_self, if_true, true_and]
          have := inv_move h hv d { s.ctx with db := some d, streamers := some st, hash := b.hash } ⟨rfl, hh.symm, rfl, rfl⟩
          simpa only [h.mem] using this
        · simp only [h1, h2, Bool.not_true, Bool.false_eq_true, if_false, ne_eq, Ne.symm h2, not_false_eq_true, if_true, and_false, true_and]
          exact h
      · simp only [h1, Bool.not_false, if_true, false_and, Bool.false_eq_true, if_false, true_and]
        exact h
  | reset => exact ⟨rfl, inv_reset h (hk rfl)⟩
  | change d x =>
    refine ⟨rfl, ?_, h.db, h.hash, h.heap⟩
    simp only [step, specStep, h.mem]

theorem inv_run {start : Nat → Heap} : ∀ (ops : List Op) {s : State} {v : View}, Inv start s v → Kept v ops →
    (run s ops).1 = (specRun v ops).1 ∧ Inv start (run s ops).2 (specRun v ops).2
  | [], _, _, h, _ => ⟨rfl, h⟩
  | op :: ops, s, v, h, hk => by
    obtain ⟨h1, h2⟩ := inv_step h op hk.1
    obtain ⟨h3, h4⟩ := inv_run ops h2 hk.2
    exact ⟨by simp only [run, specRun, h1, h3], h4⟩

/-- A context that was just made. -/
def New (s : State) : Prop := s.ctx.db = none ∧ ∀ a, (s.heaps a).Ok

theorem inv_new {s : State} (h : New s) : Inv s.heaps s ⟨s.mem, none⟩ :=
  ⟨rfl, h.1, fun _ hb => by simp at hb, fun a => ⟨h.2 a, (zero_add _).symm, rfl⟩⟩

/-- In every history the calls return what the specification says and the context is bound to what it says; of each allocator it owns one
block of the size for the numbers the database had at initialize while it is bound, and nothing otherwise; every other block is left, and
no block is given back wrongly. -/
theorem C84_history (s : State) (hs : New s) (ops : List Op) (hk : Kept ⟨s.mem, none⟩ ops) :
    let v := (specRun ⟨s.mem, none⟩ ops).2
    let e := (run s ops).2
    (run s ops).1 = (specRun ⟨s.mem, none⟩ ops).1 ∧ e.mem = v.mem ∧ e.ctx.db = v.bound.map (·.db) ∧
      (∀ d, isBoundTo e d = true ↔ ∃ b, v.bound = some b ∧ b.db = d ∧ (v.mem d).hash = b.hash) ∧
      ∀ a, (e.heaps a).wrong = (s.heaps a).wrong ∧
        (e.heaps a).live = (match v.bound with
          | none => 0
          | some b => if b.allocator = a then {(e.ctx.block, (runtimeDataSize b.numbers).toNat)} else 0) + (s.heaps a).live := by
  obtain ⟨h1, h2⟩ := inv_run ops (inv_new hs) hk
  refine ⟨h1, h2.mem, h2.db, fun d => ?_, fun a => ⟨(h2.heap a).2.2, (h2.heap a).2.1⟩⟩
  unfold isBoundTo
  rw [h2.db, h2.mem]
  cases hv : (specRun ⟨s.mem, none⟩ ops).2.bound with
  | none => simp
  | some b =>
    rw [(h2.hash b hv).1]
    by_cases hd : b.db = d
    · subst hd
      by_cases hh : ((specRun ⟨s.mem, none⟩ ops).2.mem b.db).hash = b.hash
      · simp [hh]
      · simp [hh, Ne.symm hh]
    · simp [hd]

/-- When the context is reset at the end, as its destructor does, everything is as it was. -/
theorem C84_balanced (s : State) (hs : New s) (ops : List Op) (hk : Kept ⟨s.mem, none⟩ (ops ++ [.reset])) (a : Nat) :
    (((run s (ops ++ [.reset])).2.heaps a).live, ((run s (ops ++ [.reset])).2.heaps a).wrong) = ((s.heaps a).live, (s.heaps a).wrong) := by
  obtain ⟨-, h2⟩ := inv_run _ (inv_new hs) hk
  have hb : ∀ (ops : List Op) v, (specRun v (ops ++ [.reset])).2.bound = none := by
    intro ops
    induction ops with
    | nil => intro v; rfl
    | cons op ops ih => intro v; exact ih _
  have := h2.heap a
  simp only [owned, hb, zero_add] at this
  rw [this.2.1, this.2.2]

/-- A call that returns false changes nothing. -/
theorem C84_failed (s : State) (op : Op) (h : (step s op).1 = false) : (step s op).2 = s := by
  cases op with
  | init a d =>
    simp only [step, Life.init] at h ⊢
    split at h <;> (try split at h) <;> (try split at h) <;> simp_all
  | initStreaming a d st r =>
    simp only [step, Life.initStreaming] at h ⊢
    split at h <;> (try split at h) <;> (try split at h) <;> (try split at h) <;> simp_all
  | relocated d =>
    simp only [step, Life.relocated] at h ⊢
    split at h <;> (try split at h) <;> (try split at h) <;> simp_all
  | relocatedStreaming d st =>
    simp only [step, Life.relocatedStreaming] at h ⊢
    split at h <;> (try split at h) <;> (try split at h) <;> simp_all
  | reset => cases h
  | change d x => cases h

/-- What a context is after initialize does not depend on what it was. -/
theorem C84_fresh (s : State) (c : Ctx) (h : s.ctx.db = none) (hc : c.db = none) (a d : Nat) (st : Nat × Nat) (ready : Bool × Bool) :
    ((step s (.init a d)).1 = true → step { s with ctx := c } (.init a d) = step s (.init a d)) ∧
      ((step s (.initStreaming a d st ready)).1 = true → step { s with ctx := c } (.initStreaming a d st ready) = step s (.initStreaming a d st ready)) := by
  constructor
  · intro ht
    simp only [step, Life.init, h, hc, State.use] at ht ⊢
    split at ht
    · cases ht
    split at ht
    · cases ht
    · rename_i h1 h2
      simp [h1, h2]
  · intro ht
    simp only [step, Life.initStreaming, h, hc, State.use] at ht ⊢
    split at ht
    · cases ht
    split at ht
    · cases ht
    split at ht
    · cases ht
    · rename_i h1 h2 h3
      simp [h1, h2, h3]

/-- A context without streamers reads the bulk data of the database it was last bound to; one with streamers starts with none, and has the
streamers it was last given. -/
theorem C84_bulk (s : State) (a d : Nat) (st : Nat × Nat) (ready : Bool × Bool) :
    ((step s (.init a d)).1 = true → (step s (.init a d)).2.ctx.streamers = none ∧
      (step s (.init a d)).2.ctx.bulk = ((s.mem d).mediumBulk.map (d + 8 + ·), (s.mem d).lowBulk.map (d + 8 + ·))) ∧
    ((step s (.initStreaming a d st ready)).1 = true → (step s (.initStreaming a d st ready)).2.ctx.streamers = some st ∧
      (step s (.initStreaming a d st ready)).2.ctx.bulk = (none, none)) ∧
    ((step s (.relocated d)).1 = true → (step s (.relocated d)).2.ctx.streamers = s.ctx.streamers ∧
      (step s (.relocated d)).2.ctx.bulk = ((s.mem d).mediumBulk.map (d + 8 + ·), (s.mem d).lowBulk.map (d + 8 + ·))) ∧
    ((step s (.relocatedStreaming d st)).1 = true → (step s (.relocatedStreaming d st)).2.ctx.streamers = some st ∧
      (step s (.relocatedStreaming d st)).2.ctx.bulk = s.ctx.bulk) := by
  refine ⟨?_, ?_, ?_, ?_⟩ <;> intro ht
  · simp only [step, Life.init] at ht ⊢
    split at ht
    · cases ht
    split at ht
    · cases ht
    split at ht
    · cases ht
    · rename_i h1 h2 h3
      simp only [h1, h2, h3, if_false, Bool.false_eq_true]
      exact ⟨by trivial, by trivial⟩
  · simp only [step, Life.initStreaming] at ht ⊢
    split at ht
    · cases ht
    split at ht
    · cases ht
    split at ht
    · cases ht
    split at ht
    · cases ht
    · rename_i h1 h2 h3 h4
      simp only [h1, h2, h3, h4, if_false, Bool.false_eq_true]
      exact ⟨by trivial, by trivial⟩
  · simp only [step, Life.relocated] at ht ⊢
    split at ht
    · cases ht
    split at ht
    · cases ht
    split at ht
    · cases ht
    · rename_i h1 h2 h3
      simp only [h1, h2, h3, if_false, Bool.false_eq_true]
      exact ⟨by trivial, by trivial⟩
  · simp only [step, Life.relocatedStreaming] at ht ⊢
    split at ht
    · cases ht
    split at ht
    · cases ht
    split at ht
    · cases ht
    · rename_i h1 h2 h3
      simp only [h1, h2, h3, if_false, Bool.false_eq_true]
      exact ⟨trivial, trivial⟩

/-- Finding: relocated without streamers is accepted for a context that has streamers: when the bulk data is not inline, what was streamed in
is forgotten. -/
theorem C84_forgets (s : State) (d x : Nat) (h : s.ctx.db = some x) (hv : (s.mem d).valid = true) (hh : (s.mem d).hash = s.ctx.hash)
    (hb : (s.mem d).mediumBulk = none ∧ (s.mem d).lowBulk = none) (st : Nat × Nat) (hst : s.ctx.streamers = some st) :
    (step s (.relocated d)).1 = true ∧ (step s (.relocated d)).2.ctx.streamers = some st ∧ (step s (.relocated d)).2.ctx.bulk = (none, none) := by
  simp [step, Life.relocated, h, hv, hh, hst, bulkData, hb.1, hb.2]

/-- Finding: relocated with streamers is accepted for a context that has none: it still reads the bulk data where the database was. -/
theorem C84_stale (s : State) (d x : Nat) (h : s.ctx.db = some x) (hv : (s.mem d).valid = true) (hh : (s.mem d).hash = s.ctx.hash)
    (hb : s.ctx.bulk = ((s.mem x).mediumBulk.map (x + 8 + ·), (s.mem x).lowBulk.map (x + 8 + ·))) (st : Nat × Nat) :
    (step s (.relocatedStreaming d st)).1 = true ∧ (step s (.relocatedStreaming d st)).2.ctx.db = some d ∧
      (step s (.relocatedStreaming d st)).2.ctx.bulk = ((s.mem x).mediumBulk.map (x + 8 + ·), (s.mem x).lowBulk.map (x + 8 + ·)) := by
  simp [step, Life.relocatedStreaming, h, hv, hh, hb]

/-- Finding: relocated only compares the hash that is stored in the database: for another database with that hash and a buffer of another
size, the next reset gives the buffer back with the wrong size and it stays allocated. -/
theorem C84_collision (s : State) (hs : New s) (ops : List Op) (hk : Kept ⟨s.mem, none⟩ ops) (b : Bound) (d : Nat)
    (hb : (specRun ⟨s.mem, none⟩ ops).2.bound = some b)
    (hv : ((specRun ⟨s.mem, none⟩ ops).2.mem d).valid = true) (hh : ((specRun ⟨s.mem, none⟩ ops).2.mem d).hash = b.hash)
    (hd : runtimeDataSize ((specRun ⟨s.mem, none⟩ ops).2.mem d).numbers ≠ runtimeDataSize b.numbers) :
    let e := (run s ops).2
    let m := (step e (.relocated d)).2
    (step e (.relocated d)).1 = true ∧ ((step m .reset).2.heaps b.allocator).live = (e.heaps b.allocator).live ∧
      ((step m .reset).2.heaps b.allocator).wrong =
        (e.ctx.block, (runtimeDataSize ((specRun ⟨s.mem, none⟩ ops).2.mem d).numbers).toNat) ::ₘ (s.heaps b.allocator).wrong := by
  obtain ⟨-, h⟩ := inv_run ops (inv_new hs) hk
  intro e m
  have hrel : step e (.relocated d) = (true, { e with ctx := { e.ctx with db := some d, bulk := bulkData e.mem d } }) := by
    have h0 : e.ctx.db.isNone = false := by
      show (run s ops).2.ctx.db.isNone = false
      rw [h.db, hb]; rfl
    have h1 : (e.mem d).valid = true := by
      show ((run s ops).2.mem d).valid = true
      rw [h.mem]; exact hv
    have h2 : e.ctx.hash = (e.mem d).hash := by
      show (run s ops).2.ctx.hash = ((run s ops).2.mem d).hash
      rw [(h.hash b hb).1, h.mem, hh]
    simp [step, Life.relocated, h0, h1, h2]
  have hm : m = { e with ctx := { e.ctx with db := some d, bulk := bulkData e.mem d } } := by show (step e (.relocated d)).2 = _; rw [hrel]
  obtain ⟨ok, hl, hw⟩ := h.heap b.allocator
  have ha : e.ctx.allocator = b.allocator := (h.hash b hb).2
  have hmem : e.mem = (specRun ⟨s.mem, none⟩ ops).2.mem := h.mem
  simp only [owned, hb, if_true] at hl
  obtain ⟨l, w, -⟩ := ownW_free_wrong e.ctx.block (runtimeDataSize b.numbers).toNat
    (runtimeDataSize ((specRun ⟨s.mem, none⟩ ops).2.mem d).numbers).toNat (fun hc => hd (BitVec.eq_of_toNat_eq hc.symm)) _ _ ok hl
  refine ⟨by rw [hrel], ?_, ?_⟩
  · rw [hm]
    simp only [step, reset, State.use, ha, hmem, Function.update_self]
    rw [l]; exact hl.symm
  · rw [hm]
    simp only [step, reset, State.use, ha, hmem, Function.update_self]
    rw [w, hw, Multiset.singleton_add]

def exDb (inline : Bool) (hash : BitVec 32) (clips : BitVec 32) : Db :=
  ⟨true, inline, hash, ⟨33, 1, clips, 4⟩, if inline then some 900 else none, if inline then some 1000 else none⟩

def exState : State := ⟨fun d => exDb (d == 0x1000) 7 2, fun _ => ⟨5, {(3, 8)}, 0⟩, ⟨none, 0, 0, 0, (none, none), none⟩⟩

def exOps : List Op :=
  [.init 1 0x2000, .init 1 0x1000, .init 0 0x1000, .change 0x3000 (exDb true 7 2), .change 0x4000 (exDb true 8 2), .relocated 0x4000,
   .relocated 0x3000, .change 0x1000 (exDb true 1 1), .reset, .reset, .initStreaming 0 0x2000 (50, 60) (true, false),
   .initStreaming 0 0x2000 (50, 60) (true, true)]

/-- A database that is not inline is refused, a second initialize is, and relocating to one with another hash; the buffer of 24 + 16 + 64 bytes
is given back once, though the database was moved and its old place overwritten; then the context is used with streamers. -/
theorem C84_example :
    New exState ∧ Kept ⟨exState.mem, none⟩ exOps ∧
      (run exState exOps).1 = [false, true, false, true, true, false, true, true, true, true, false, true] ∧
      ((run exState exOps).2.heaps 1).live = {(3, 8)} ∧ ((run exState (exOps.take 7)).2.heaps 1).live = {(5, 104), (3, 8)} ∧
      (run exState (exOps.take 7)).2.ctx.bulk = (some (0x3008 + 900), some (0x3008 + 1000)) ∧
      ((run exState exOps).2.heaps 0).live = {(5, 104), (3, 8)} ∧ (run exState exOps).2.ctx.db = some 0x2000 ∧
      needed ⟨33, 1, 2, 4⟩ = 104 := by
  refine ⟨⟨rfl, fun a => ?_⟩, ?_, ?_⟩
  · exact ⟨by simp [exState], by intro x hx; simp [exState] at hx; subst hx; simp [exState]⟩
  · simp [exOps, Kept, specStep, exState, exDb]
  · decide +kernel

end Acl.C84
