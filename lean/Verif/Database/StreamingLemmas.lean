import Verif.Database.Streaming
import Verif.Core.BitsetLemmas
import Verif.Core.ScanLemmas
namespace Acl.Streaming

theorem bitsetSize_le (n : Nat) : n ≤ bitsetSize n * 32 := by unfold bitsetSize; omega
theorem bitsetSize_lt (n : Nat) : bitsetSize n * 32 < n + 32 := by unfold bitsetSize; omega

theorem bsBit_replicate (k i : Nat) : bsBit (List.replicate k 0) i = false := by
  unfold bsBit
  rw [List.getD_eq_getElem?_getD, List.getElem?_replicate]
  split <;> simp

theorem bsBit_word (m : List (BitVec 32)) (e j : Nat) (h : e < m.length) (hj : j < 32) :
    bsBit m (32 * e + j) = m[e].getLsbD (31 - j) := by
  unfold bsBit
  have e1 : (32 * e + j) / 32 = e := by omega
  have e2 : (32 * e + j) % 32 = j := by omega
  rw [e1, e2, List.getD_eq_getElem?_getD, List.getElem?_eq_getElem h]; rfl

theorem bsBit_cons (w : BitVec 32) (ws : List (BitVec 32)) (i : Nat) :
    bsBit (w :: ws) (i + 32) = bsBit ws i := by
  unfold bsBit
  have e1 : (i + 32) / 32 = i / 32 + 1 := by omega
  have e2 : (i + 32) % 32 = i % 32 := by omega
  rw [e1, e2]; simp

theorem bsBit_cons_lt (w : BitVec 32) (ws : List (BitVec 32)) (i : Nat) (h : i < 32) :
    bsBit (w :: ws) i = w.getLsbD (31 - i) := by
  unfold bsBit
  have e1 : i / 32 = 0 := by omega
  have e2 : i % 32 = i := by omega
  rw [e1, e2]; simp

theorem ctz_zero : (countTrailingZeros 0#32).toNat = 32 := by decide

/-- trailing zeros: facts on the bits -/
theorem ctz_bits (w : BitVec 32) : (countTrailingZeros w).toNat ≤ 32 ∧
    (∀ j, j < (countTrailingZeros w).toNat → w.getLsbD j = false) ∧
    ((countTrailingZeros w).toNat < 32 → w.getLsbD (countTrailingZeros w).toNat = true) := by
  by_cases h : w = 0
  · subst h
    refine ⟨by decide, by simp, by intro h; exact absurd h (by decide)⟩
  · obtain ⟨i, hi, hb⟩ := exists_bit_of_ne_zero h
    obtain ⟨t, ht, hb, hlow⟩ := exists_bot (p := fun i => w.getLsbD i = true) 32 ⟨i, hi, hb⟩
    have hlow' : ∀ j, j < t → w.getLsbD j = false := fun j hj => by simpa using hlow j hj
    rw [ctz_spec w t ht hb hlow']
    exact ⟨by omega, hlow', fun _ => hb⟩

theorem clz_bits (w : BitVec 32) : (countLeadingZeros w).toNat ≤ 32 ∧
    (∀ j, j < (countLeadingZeros w).toNat → w.getLsbD (31 - j) = false) ∧
    ((countLeadingZeros w).toNat < 32 → w.getLsbD (31 - (countLeadingZeros w).toNat) = true) := by
  by_cases h : w = 0
  · subst h
    refine ⟨by decide, by simp, by intro h; exact absurd h (by decide)⟩
  · obtain ⟨i, hi, hb⟩ := exists_bit_of_ne_zero h
    obtain ⟨t, ht, hb, hlow⟩ := exists_top (p := fun i => w.getLsbD i = true) 32 ⟨i, hi, hb⟩
    have hlow' : ∀ j, t < j → w.getLsbD j = false := fun j hj => by
      by_cases hj2 : j < 32
      · simpa using hlow j hj hj2
      · exact BitVec.getLsbD_of_ge _ _ (by omega)
    rw [clz_spec w t ht hb hlow']
    refine ⟨by omega, fun j hj => hlow' _ (by omega), fun _ => ?_⟩
    have : 31 - (31 - t) = t := by omega
    rw [this]; exact hb

theorem findFirstPending_some (m : List (BitVec 32)) (e first : Nat)
    (h : findFirstPending m e = some first) :
    32 * e ≤ first ∧ first < 32 * e + 32 * m.length ∧ bsBit m (first - 32 * e) = false ∧
    (∀ i, first ≤ 32 * e + i → 32 * e + i < (first / 32 + 1) * 32 → bsBit m i = false) ∧
    (∀ j, e + j < first / 32 → bsBit m (32 * j + 31) = true) ∧
    (first % 32 ≠ 0 → bsBit m (first - 32 * e - 1) = true) := by
  induction m generalizing e with
  | nil => simp [findFirstPending] at h
  | cons w ws ih =>
    rw [findFirstPending] at h
    obtain ⟨hle, hz, ho⟩ := ctz_bits w
    split at h
    · rename_i hne
      have h := Option.some.inj h
      subst h
      have hdiv : (e * 32 + (32 - (countTrailingZeros w).toNat)) / 32 = e := by omega
      refine ⟨by omega, by simp; omega, ?_, ?_, ?_, ?_⟩
      · rw [bsBit_cons_lt _ _ _ (by omega)]; exact hz _ (by omega)
      · intro i h1 h2
        rw [hdiv] at h2
        rw [bsBit_cons_lt _ _ _ (by omega)]; exact hz _ (by omega)
      · intro j hj; rw [hdiv] at hj; omega
      · intro hm
        rw [bsBit_cons_lt _ _ _ (by omega)]
        have : 31 - (e * 32 + (32 - (countTrailingZeros w).toNat) - 32 * e - 1) = (countTrailingZeros w).toNat := by omega
        rw [this]; exact ho (by omega)
    · rename_i hne
      obtain ⟨h1, h2, h3, h4, h5, h6⟩ := ih (e + 1) h
      have sh : ∀ i, 32 ≤ i → bsBit (w :: ws) i = bsBit ws (i - 32) := fun i hi => by
        have := bsBit_cons w ws (i - 32)
        rwa [Nat.sub_add_cancel hi] at this
      refine ⟨by omega, by simp; omega, ?_, ?_, ?_, ?_⟩
      · rw [sh _ (by omega)]; rw [show first - 32 * e - 32 = first - 32 * (e + 1) by omega]; exact h3
      · intro i a b
        rw [sh _ (by omega)]; exact h4 _ (by omega) (by omega)
      · intro j hj
        by_cases hj0 : j = 0
        · subst hj0
          rw [bsBit_cons_lt _ _ _ (by omega)]
          have : (countTrailingZeros w).toNat = 0 := by omega
          have := ho (by omega)
          simp_all
        · rw [sh _ (by omega), show 32 * j + 31 - 32 = 32 * (j - 1) + 31 by omega]
          exact h5 _ (by omega)
      · intro hm
        rw [sh _ (by omega), show first - 32 * e - 1 - 32 = first - 32 * (e + 1) - 1 by omega]
        exact h6 hm

theorem findFirstPending_none (m : List (BitVec 32)) (e : Nat)
    (h : findFirstPending m e = none) : ∀ j, j < m.length → bsBit m (32 * j + 31) = true := by
  induction m generalizing e with
  | nil => simp
  | cons w ws ih =>
    rw [findFirstPending] at h
    obtain ⟨hle, hz, ho⟩ := ctz_bits w
    split at h
    · simp at h
    · rename_i hne
      intro j hj
      by_cases hj0 : j = 0
      · subst hj0
        rw [bsBit_cons_lt _ _ _ (by omega)]
        have : (countTrailingZeros w).toNat = 0 := by omega
        have := ho (by omega)
        simp_all
      · have := bsBit_cons w ws (32 * (j - 1) + 31)
        rw [show 32 * (j - 1) + 31 + 32 = 32 * j + 31 by omega] at this
        rw [this]; exact ih (e + 1) h _ (by simp at hj; omega)

theorem findFirstLoaded_some (m : List (BitVec 32)) (e first : Nat)
    (h : findFirstLoaded m e = some first) :
    32 * e ≤ first ∧ first < 32 * e + 32 * m.length ∧ bsBit m (first - 32 * e) = true ∧
    (∀ i, 32 * e + i < first → bsBit m i = false) := by
  induction m generalizing e with
  | nil => simp [findFirstLoaded] at h
  | cons w ws ih =>
    rw [findFirstLoaded] at h
    obtain ⟨hle, hz, ho⟩ := clz_bits w
    split at h
    · have h := Option.some.inj h
      subst h
      refine ⟨by omega, by simp; omega, ?_, ?_⟩
      · rw [bsBit_cons_lt _ _ _ (by omega)]
        rw [show e * 32 + (countLeadingZeros w).toNat - 32 * e = (countLeadingZeros w).toNat by omega]
        exact ho (by omega)
      · intro i hi
        rw [bsBit_cons_lt _ _ _ (by omega)]
        exact hz _ (by omega)
    · rename_i hne
      obtain ⟨h1, h2, h3, h4⟩ := ih (e + 1) h
      have sh : ∀ i, 32 ≤ i → bsBit (w :: ws) i = bsBit ws (i - 32) := fun i hi => by
        have := bsBit_cons w ws (i - 32)
        rwa [Nat.sub_add_cancel hi] at this
      refine ⟨by omega, by simp; omega, ?_, ?_⟩
      · rw [sh _ (by omega), show first - 32 * e - 32 = first - 32 * (e + 1) by omega]; exact h3
      · intro i hi
        by_cases h32 : i < 32
        · rw [bsBit_cons_lt _ _ _ h32]; exact hz _ (by omega)
        · rw [sh _ (by omega)]; exact h4 _ (by omega)

theorem bsBit_nil (i : Nat) : bsBit [] i = false := by simp [bsBit]

theorem findFirstLoaded_none (m : List (BitVec 32)) (e : Nat)
    (h : findFirstLoaded m e = none) : ∀ i, bsBit m i = false := by
  induction m generalizing e with
  | nil => intro i; exact bsBit_nil i
  | cons w ws ih =>
    rw [findFirstLoaded] at h
    obtain ⟨hle, hz, ho⟩ := clz_bits w
    split at h
    · simp at h
    · intro i
      by_cases h32 : i < 32
      · rw [bsBit_cons_lt _ _ _ h32]; exact hz _ (by omega)
      · have := bsBit_cons w ws (i - 32)
        rw [Nat.sub_add_cancel (by omega)] at this
        rw [this]; exact ih (e + 1) h _

theorem numStreaming_eq (first n N : Nat) (h : first ≤ N) (hN : N ≤ 2 ^ 31) (hn : 1 ≤ n) :
    numStreaming first n N = min n (N - first) := by
  unfold numStreaming
  simp only
  have h1 : (first + min n N + (2 ^ 64 - 1)) % 2 ^ 64 = first + min n N - 1 ∨ N = 0 := by omega
  rcases h1 with h1 | h1
  · rw [h1]; split <;> omega
  · subst h1; split <;> omega

/-- `num_chunks_to_stream = 0`. -/
theorem numStreaming_zero (first N : Nat) (h : first ≤ N) (hN : N ≤ 2 ^ 31) (hp : 0 < N) :
    numStreaming first 0 N = if first = 0 then N else 0 := by
  unfold numStreaming
  simp only
  split <;> split <;> omega

theorem numStreaming_range (first n N : Nat) (h : first ≤ N) (hN : N ≤ 2 ^ 31) (hp : 0 < N) :
    first + numStreaming first n N ≤ N ∧ (1 ≤ n → numStreaming first n N ≤ n) := by
  by_cases hn : 1 ≤ n
  · rw [numStreaming_eq first n N h hN hn]; omega
  · have : n = 0 := by omega
    subst this
    rw [numStreaming_zero first N h hN hp]; split <;> omega

theorem countBelow_ge_one (n : Nat) (p : Nat → Bool) : countBelow n p ≠ 0 ↔ ∃ i, i < n ∧ p i = true := by
  induction n with
  | zero => simp [countBelow]
  | succ n ih =>
    rw [countBelow_succ]
    constructor
    · intro h
      by_cases hp : p n = true
      · exact ⟨n, by omega, hp⟩
      · have : countBelow n p ≠ 0 := by simp [hp] at h; exact h
        obtain ⟨i, hi, hb⟩ := ih.mp this
        exact ⟨i, by omega, hb⟩
    · rintro ⟨i, hi, hb⟩
      by_cases h : i = n
      · subst h; simp [hb]
      · have := ih.mpr ⟨i, by omega, hb⟩
        omega

theorem countBelow_full (n : Nat) (p : Nat → Bool) : countBelow n p = n ↔ ∀ i, i < n → p i = true := by
  induction n with
  | zero => simp [countBelow]
  | succ n ih =>
    rw [countBelow_succ]
    have hle := countBelow_le n p
    constructor
    · intro h i hi
      have hp : p n = true := by
        cases hq : p n with
        | true => rfl
        | false => simp [hq] at h; omega
      by_cases h2 : i = n
      · subst h2; exact hp
      · simp [hp] at h; exact ih.mp h i (by omega)
    · intro h
      rw [ih.mpr (fun i hi => h i (by omega)), h n (by omega)]; simp

theorem countBelow_zero_tail (n k : Nat) (p : Nat → Bool) (h : ∀ i, n ≤ i → p i = false) :
    countBelow (n + k) p = countBelow n p := by
  induction k with
  | zero => rfl
  | succ k ih => rw [← Nat.add_assoc, countBelow_succ, ih, h (n + k) (by omega)]; simp

/-- Popcount of a well formed bit set of `n` bits. -/
theorem bitsetCount_eq (m : List (BitVec 32)) (n : Nat) (hl : m.length = bitsetSize n)
    (hz : ∀ i, n ≤ i → bsBit m i = false) (hn : n ≤ 2 ^ 31) :
    ∃ c, bitsetCount m (bitsetSize n) = some c ∧ c.toNat = countBelow n (bsBit m) := by
  have := bitsetSize_lt n
  have h2 := bitsetSize_le n
  obtain ⟨c, e, hc⟩ := bitsetCountFrom_spec (bitsetSize n) m 0 0 (by omega) (by simp; omega)
  refine ⟨c, e, ?_⟩
  rw [hc]
  have : 32 * bitsetSize n = n + (32 * bitsetSize n - n) := by omega
  rw [this, countBelow_zero_tail n _ _ (by intro i hi; simpa using hz i hi)]
  simp

end Acl.Streaming
