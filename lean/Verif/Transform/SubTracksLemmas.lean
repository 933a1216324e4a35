import Verif.Transform.SubTracks
import Verif.Core.BitsetLemmas
import Mathlib.Tactic.Linarith
/-! Lemmas about the packed sub-track types table. -/
namespace Acl.Transform

/-- The 2 bit type of track `i`; 0 past the end of the list (padding). -/
def typeAt (fs : List StreamFlags) (i : Nat) : BitVec 32 :=
  match fs[i]? with
  | some f => packedType f
  | none => 0

theorem packedType_cases (f : StreamFlags) : packedType f = 0 ∨ packedType f = 1 ∨ packedType f = 2 := by
  unfold packedType; split
  · simp
  · split <;> simp

theorem typeAt_cases (fs : List StreamFlags) (i : Nat) : typeAt fs i = 0 ∨ typeAt fs i = 1 ∨ typeAt fs i = 2 := by
  unfold typeAt; split
  · exact packedType_cases _
  · simp

theorem packedType_high (f : StreamFlags) (b : Nat) (hb : 2 ≤ b) : (packedType f).getLsbD b = false := by
  have : (packedType f).toNat < 2 ^ b := by
    have h4 : 2 ^ 2 ≤ 2 ^ b := Nat.pow_le_pow_right (by omega) hb
    rcases packedType_cases f with h | h | h <;> rw [h] <;> simp <;> omega
  exact Nat.testBit_lt_two_pow this

/-- `e` holds the types of tracks `16 k .. 16 k + 15`, most significant first. -/
def EntryOf (e : BitVec 32) (fs : List StreamFlags) (k : Nat) : Prop :=
  ∀ j, j < 16 → ∀ b, b < 2 → e.getLsbD (2 * (15 - j) + b) = (typeAt fs (16 * k + j)).getLsbD b

/-- The table holds the types of all the tracks. -/
def TableOf (T : List (BitVec 32)) (fs : List StreamFlags) : Prop :=
  T.length = numSubTrackEntries fs.length ∧ ∀ k e, T[k]? = some e → EntryOf e fs k

structure PackInv (E : List (BitVec 32)) (st : PackState) (pre : List StreamFlags) (T : List (BitVec 32)) : Prop where
  entries : st.entries = E ++ T
  size : st.size ≤ 16
  pos : pre ≠ [] → 0 < st.size
  len : pre.length = 16 * T.length + st.size
  full : ∀ k e, T[k]? = some e → EntryOf e pre k
  part : EntryOf st.entry pre T.length

theorem typeAt_append_lt (pre rest : List StreamFlags) (i : Nat) (h : i < pre.length) :
    typeAt (pre ++ rest) i = typeAt pre i := by
  unfold typeAt; rw [List.getElem?_append_left h]

theorem typeAt_append_eq (pre : List StreamFlags) (f : StreamFlags) (i : Nat) (h : i = pre.length) :
    typeAt (pre ++ [f]) i = packedType f := by
  subst h; unfold typeAt; simp

theorem typeAt_ge (pre : List StreamFlags) (i : Nat) (h : pre.length ≤ i) : typeAt pre i = 0 := by
  unfold typeAt; rw [List.getElem?_eq_none h]

theorem packStep_inv {E st pre T} (h : PackInv E st pre T) (f : StreamFlags) :
    ∃ T', PackInv E (packStep st pre.length f) (pre ++ [f]) T' := by
  -- after the optional flush there is room
  obtain ⟨st1, T1, hst1, h1, hlt⟩ : ∃ st1 T1, (if st.size = 16 then (⟨st.entries ++ [st.entry], 0, 0⟩ : PackState) else st) = st1 ∧
      (st1.entries = E ++ T1 ∧ pre.length = 16 * T1.length + st1.size ∧
        (∀ k e, T1[k]? = some e → EntryOf e pre k) ∧ EntryOf st1.entry pre T1.length) ∧ st1.size < 16 := by
    by_cases h16 : st.size = 16
    · refine ⟨_, T ++ [st.entry], rfl, ?_, ?_⟩
      · rw [if_pos h16]
        refine ⟨by rw [h.entries]; simp, by have := h.len; simp; omega, ?_, ?_⟩
        · intro k e hk
          rcases Nat.lt_or_ge k T.length with hl | hl
          · rw [List.getElem?_append_left hl] at hk; exact h.full k e hk
          · rw [List.getElem?_append_right hl] at hk
            rcases Nat.eq_zero_or_pos (k - T.length) with h0 | h0
            · rw [h0] at hk; simp at hk; subst hk
              have : k = T.length := by omega
              subst this; exact h.part
            · rw [List.getElem?_eq_none (by simp; omega)] at hk; cases hk
        · intro j hj b hb
          have hl := h.len
          rw [typeAt_ge _ _ (by simp; omega)]
          simp
      · rw [if_pos h16]; simp
    · refine ⟨st, T, by rw [if_neg h16], ⟨h.entries, h.len, h.full, h.part⟩, by have := h.size; omega⟩
  unfold packStep
  simp only [hst1]
  obtain ⟨he, hl, hf, hp⟩ := h1
  have hmod : pre.length % 16 = st1.size := by omega
  refine ⟨T1, ⟨he, by simp only; omega, fun _ => by simp, by simp; omega, ?_, ?_⟩⟩
  · intro k e hk j hj b hb
    have hkl : k < T1.length := (List.getElem?_eq_some_iff.1 hk).1
    rw [hf k e hk j hj b hb, typeAt_append_lt _ _ _ (by omega)]
  · intro j hj b hb
    simp only
    rw [BitVec.getLsbD_or, BitVec.getLsbD_shiftLeft, hp j hj b hb, hmod]
    rcases Nat.lt_trichotomy j st1.size with hjl | hje | hjg
    · rw [typeAt_append_lt _ _ _ (by omega)]
      rw [packedType_high f _ (by omega)]; simp
    · rw [typeAt_append_eq _ _ _ (by omega), typeAt_ge _ _ (by omega)]
      have e1 : 2 * (15 - j) + b - (15 - st1.size) * 2 = b := by omega
      rw [e1]
      have e2 : decide (2 * (15 - j) + b < 32) = true := by simp; omega
      have e3 : decide (2 * (15 - j) + b < (15 - st1.size) * 2) = false := by simp; omega
      rw [e2, e3]; simp
    · rw [typeAt_ge _ _ (by omega), typeAt_ge (pre ++ [f]) _ (by simp; omega)]
      have e3 : decide (2 * (15 - j) + b < (15 - st1.size) * 2) = true := by simp; omega
      rw [e3]; simp

theorem packLoop_inv {E} : ∀ (fs : List StreamFlags) (st pre T), PackInv E st pre T →
    ∃ T', PackInv E (packLoop st pre.length fs) (pre ++ fs) T'
  | [], st, pre, T, h => ⟨T, by simpa [packLoop] using h⟩
  | f :: fs, st, pre, T, h => by
    obtain ⟨T1, h1⟩ := packStep_inv h f
    obtain ⟨T2, h2⟩ := packLoop_inv fs _ _ _ h1
    refine ⟨T2, ?_⟩
    simpa [packLoop] using h2

theorem packFlush_packLoop (E : List (BitVec 32)) (fs : List StreamFlags) :
    ∃ T, TableOf T fs ∧ packFlush (packLoop ⟨E, 0, 0⟩ 0 fs) = ⟨E ++ T, 0, 0⟩ := by
  obtain ⟨T, h⟩ := packLoop_inv (E := E) fs ⟨E, 0, 0⟩ [] []
    ⟨by simp, by simp, by simp, by simp, by simp, by intro j hj b hb; rw [typeAt_ge _ _ (by simp)]; simp⟩
  simp only [List.length_nil, List.nil_append] at h
  generalize packLoop ⟨E, 0, 0⟩ 0 fs = st at *
  obtain ⟨entries, size, entry⟩ := st
  obtain ⟨he, hs, hp, hl, hf, hpart⟩ := h
  simp only at *
  by_cases h0 : size = 0
  · have : fs = [] := by
      by_contra hc
      have := hp hc; omega
    subst this
    have hT : T = [] := List.length_eq_zero_iff.1 (by simp at hl; omega)
    refine ⟨T, ⟨by subst hT; rfl, hf⟩, ?_⟩
    subst hT
    unfold packFlush
    have : entry = 0 := by
      apply BitVec.eq_of_getLsbD_eq
      intro i hi
      have := hpart (15 - i / 2) (by omega) (i % 2) (by omega)
      have e : 2 * (15 - (15 - i / 2)) + i % 2 = i := by omega
      rw [e, typeAt_ge _ _ (by simp)] at this
      simpa using this
    subst this h0
    simp [he]
  · refine ⟨T ++ [entry], ⟨?_, ?_⟩, ?_⟩
    · simp [numSubTrackEntries]; omega
    · intro k e hk
      rcases Nat.lt_or_ge k T.length with hlt | hge
      · rw [List.getElem?_append_left hlt] at hk; exact hf k e hk
      · rw [List.getElem?_append_right hge] at hk
        rcases Nat.eq_zero_or_pos (k - T.length) with h0 | h0
        · rw [h0] at hk; simp at hk; subst hk
          have : k = T.length := by omega
          subst this; exact hpart
        · rw [List.getElem?_eq_none (by simp; omega)] at hk; cases hk
    · unfold packFlush
      rw [if_pos h0, he]; simp

/-- The table written by the compressor is the concatenation of one table per kind. -/
theorem writePacked_tables (hasScale : Bool) (r t s : List StreamFlags) :
    ∃ R T S, TableOf R r ∧ TableOf T t ∧ TableOf S s ∧
      writePackedSubTrackTypes hasScale r t s = R ++ T ++ (if hasScale then S else []) := by
  obtain ⟨R, hR, eR⟩ := packFlush_packLoop [] r
  obtain ⟨T, hT, eT⟩ := packFlush_packLoop R t
  obtain ⟨S, hS, eS⟩ := packFlush_packLoop (R ++ T) s
  refine ⟨R, T, S, hR, hT, hS, ?_⟩
  unfold writePackedSubTrackTypes
  simp only [List.nil_append] at eR
  simp only [eR, eT]
  cases hasScale
  · simp
  · simp only [if_true]; rw [eS]

/-- The two bits of a track in its entry. -/
theorem entry_digit {e : BitVec 32} {fs : List StreamFlags} {k : Nat} (h : EntryOf e fs k) (j : Nat) (hj : j < 16) :
    (e >>> ((15 - j) * 2)) &&& 0x3#32 = typeAt fs (16 * k + j) := by
  apply BitVec.eq_of_getLsbD_eq
  intro i hi
  rw [BitVec.getLsbD_and, BitVec.getLsbD_ushiftRight]
  rcases Nat.lt_or_ge i 2 with h2 | h2
  · have e1 : (15 - j) * 2 + i = 2 * (15 - j) + i := by omega
    rw [e1, h j hj i h2]
    have : (0x3#32).getLsbD i = true := by
      rcases (by omega : i = 0 ∨ i = 1) with rfl | rfl <;> rfl
    rw [this, Bool.and_true]
  · have h3 : (0x3#32).getLsbD i = false := Nat.testBit_lt_two_pow (by
      have h4 : 2 ^ 2 ≤ 2 ^ i := Nat.pow_le_pow_right (by omega) h2
      simp; omega)
    have h4 : (typeAt fs (16 * k + j)).getLsbD i = false := Nat.testBit_lt_two_pow (by
      have h4 : 2 ^ 2 ≤ 2 ^ i := Nat.pow_le_pow_right (by omega) h2
      rcases typeAt_cases fs (16 * k + j) with h | h | h <;> rw [h] <;> simp <;> omega)
    rw [h3, h4, Bool.and_false]

theorem subTrackType_spec {types T : List (BitVec 32)} {base : Nat} {fs : List StreamFlags} (hT : TableOf T fs)
    (hb : ∀ k, k < T.length → types[base + k]? = T[k]?) (i : Nat) (hi : i < fs.length) :
    subTrackType types base i = some (typeAt fs i) := by
  have hk : i / 16 < T.length := by rw [hT.1]; unfold numSubTrackEntries; omega
  unfold subTrackType
  rw [hb _ hk, List.getElem?_eq_getElem hk]
  simp only
  rw [entry_digit (hT.2 _ _ (List.getElem?_eq_getElem hk)) (i % 16) (by omega)]
  congr 2; omega

/-- 2222...2 in base 4. -/
def twos : Nat → Nat
  | 0 => 0
  | k + 1 => 4 * twos k + 2

/-- Subtracting a number without digit 3 from 22..2 in base 4 does not borrow. -/
theorem twos_sub (k : Nat) : ∀ n, n < 4 ^ k → (∀ i, i < k → n / 4 ^ i % 4 ≠ 3) →
    n ≤ twos k ∧ ∀ i, i < k → (twos k - n).testBit (2 * i + 1) = decide (n / 4 ^ i % 4 = 0) := by
  induction k with
  | zero => intro n hn _; simp at hn; subst hn; exact ⟨Nat.zero_le _, by intro i hi; omega⟩
  | succ k ih =>
    intro n hn hd
    have hq : n / 4 < 4 ^ k := by rw [Nat.div_lt_iff_lt_mul (by omega)]; rw [Nat.pow_succ] at hn; omega
    have hdq : ∀ i, i < k → n / 4 / 4 ^ i % 4 ≠ 3 := by
      intro i hi
      have := hd (i + 1) (by omega)
      rwa [Nat.pow_succ, Nat.mul_comm, ← Nat.div_div_eq_div_mul] at this
    obtain ⟨hle, hbit⟩ := ih (n / 4) hq hdq
    have hd0 := hd 0 (by omega)
    simp at hd0
    refine ⟨by simp [twos]; omega, ?_⟩
    intro i hi
    cases i with
    | zero =>
      simp only [twos, Nat.testBit, Nat.shiftRight_eq_div_pow]
      simp
      generalize twos k = t at *
      have hm : n % 4 = 0 ∨ n % 4 = 1 ∨ n % 4 = 2 := by omega
      have hx : (4 * t + 2 - n) / 2 = 2 * (t - n / 4) + (2 - n % 4) / 2 := by omega
      rw [hx]
      rcases hm with h | h | h <;> simp [h]
    | succ i =>
      have e : twos (k + 1) - n = 4 * (twos k - n / 4) + (2 - n % 4) := by simp [twos]; omega
      have e2 : n / 4 ^ (i + 1) = n / 4 / 4 ^ i := by rw [Nat.pow_succ, Nat.mul_comm, ← Nat.div_div_eq_div_mul]
      rw [e2, ← hbit i (by omega), e]
      have : 2 * (i + 1) + 1 = (2 * i + 1) + 2 := by omega
      rw [this, Nat.testBit_add]
      congr 1
      omega

theorem twos_16 : twos 16 = 0xAAAAAAAA := by decide

/-- Digit `i` (from the right) of an entry. -/
theorem entry_nat_digit {e : BitVec 32} {fs : List StreamFlags} {k : Nat} (h : EntryOf e fs k) (i : Nat) (hi : i < 16) :
    e.toNat / 4 ^ i % 4 = (typeAt fs (16 * k + (15 - i))).toNat := by
  rw [← entry_digit h (15 - i) (by omega)]
  have e1 : (15 - (15 - i)) * 2 = 2 * i := by omega
  rw [e1, BitVec.toNat_and, BitVec.toNat_ushiftRight, Nat.shiftRight_eq_div_pow, Nat.pow_mul]
  have := Nat.and_two_pow_sub_one_eq_mod (e.toNat / (2 ^ 2) ^ i) 2
  simpa using this.symm

theorem default_bits {e : BitVec 32} {fs : List StreamFlags} {k : Nat} (h : EntryOf e fs k) (j : Nat) (hj : j < 16) :
    (~~~e - 0x55555555#32).getLsbD (2 * (15 - j) + 1) = decide (typeAt fs (16 * k + j) = 0) := by
  have hlt := e.isLt
  have hd : ∀ i, i < 16 → e.toNat / 4 ^ i % 4 ≠ 3 := by
    intro i hi
    rw [entry_nat_digit h i hi]
    rcases typeAt_cases fs (16 * k + (15 - i)) with h | h | h <;> rw [h] <;> decide
  obtain ⟨hle, hb⟩ := twos_sub 16 e.toNat (by simpa using hlt) hd
  have hv : (~~~e - 0x55555555#32).toNat = twos 16 - e.toNat := by
    rw [twos_16] at *
    rw [BitVec.toNat_sub, BitVec.toNat_not]
    simp
    omega
  have h1 := hb (15 - j) (by omega)
  rw [← hv] at h1
  have : (~~~e - 0x55555555#32).getLsbD (2 * (15 - j) + 1) = (~~~e - 0x55555555#32).toNat.testBit (2 * (15 - j) + 1) := rfl
  rw [this, h1, entry_nat_digit h (15 - j) (by omega)]
  have e1 : 15 - (15 - j) = j := by omega
  rw [e1]
  rcases typeAt_cases fs (16 * k + j) with h | h | h <;> rw [h] <;> decide

theorem maskA_bits : ∀ i, i < 32 → (0xAAAAAAAA#32).getLsbD i = decide (i % 2 = 1) := by decide
theorem mask5_bits : ∀ i, i < 32 → (0x55555555#32).getLsbD i = decide (i % 2 = 0) := by decide

theorem paddingMask_bits (n k j : Nat) (hj : j < 16) (hk : k < numSubTrackEntries n) (b : Nat) (hb : b < 2) :
    (if k = numSubTrackEntries n - 1 then paddingMask n else 0xFFFFFFFF#32).getLsbD (2 * (15 - j) + b) =
      decide (16 * k + j < n) := by
  have ones : ∀ i, i < 32 → (0xFFFFFFFF#32).getLsbD i = true := by decide
  unfold paddingMask numSubTrackEntries at *
  split
  · rename_i hkl
    dsimp only
    split
    · rename_i hp
      rw [BitVec.getLsbD_not, BitVec.getLsbD_ushiftRight]
      by_cases hin : 16 * k + j < n
      · rw [decide_eq_true hin]
        have : decide (2 * (15 - j) + b < 32) = true := by simp; omega
        rw [this, BitVec.getLsbD_of_ge _ _ (by omega)]; rfl
      · rw [decide_eq_false hin, ones _ (by omega)]; simp
    · rename_i hp
      rw [ones _ (by omega), decide_eq_true (by omega)]
  · rw [ones _ (by omega), decide_eq_true (by omega)]

theorem selectDefault_bits {e : BitVec 32} {fs : List StreamFlags} {k : Nat} (h : EntryOf e fs k)
    (hk : k < numSubTrackEntries fs.length) (j : Nat) (hj : j < 16) :
    (selectDefault (numSubTrackEntries fs.length - 1) (paddingMask fs.length) k e).getLsbD (2 * (15 - j) + 1) =
      decide (16 * k + j < fs.length ∧ typeAt fs (16 * k + j) = 0) ∧
    (selectDefault (numSubTrackEntries fs.length - 1) (paddingMask fs.length) k e).getLsbD (2 * (15 - j) + 0) = false := by
  unfold selectDefault
  simp only [BitVec.getLsbD_and]
  rw [default_bits h j hj, paddingMask_bits _ _ _ hj hk _ (by omega), paddingMask_bits _ _ _ hj hk _ (by omega),
    maskA_bits _ (by omega), maskA_bits _ (by omega)]
  have e1 : decide ((2 * (15 - j) + 1) % 2 = 1) = true := by simp
  have e2 : decide ((2 * (15 - j) + 0) % 2 = 1) = false := by simp
  rw [e1, e2]
  simp [Bool.and_comm]

theorem selectAnimated_bits {e : BitVec 32} {fs : List StreamFlags} {k : Nat} (h : EntryOf e fs k) (j : Nat) (hj : j < 16) :
    (selectAnimated e).getLsbD (2 * (15 - j) + 1) = decide (typeAt fs (16 * k + j) = 2) ∧
    (selectAnimated e).getLsbD (2 * (15 - j) + 0) = false := by
  unfold selectAnimated andNot
  rw [BitVec.not_not, BitVec.getLsbD_and, BitVec.getLsbD_and, h j hj 1 (by omega), maskA_bits _ (by omega),
    maskA_bits _ (by omega)]
  have e1 : decide ((2 * (15 - j) + 1) % 2 = 1) = true := by simp
  have e2 : decide ((2 * (15 - j) + 0) % 2 = 1) = false := by simp
  rw [e1, e2, Bool.false_and, Bool.true_and]
  rcases typeAt_cases fs (16 * k + j) with h | h | h <;> rw [h] <;> decide

theorem selectConstant_bits {e : BitVec 32} {fs : List StreamFlags} {k : Nat} (h : EntryOf e fs k) (j : Nat) (hj : j < 16) :
    (selectConstant e).getLsbD (2 * (15 - j) + 0) = decide (typeAt fs (16 * k + j) = 1) ∧
    (selectConstant e).getLsbD (2 * (15 - j) + 1) = false := by
  unfold selectConstant andNot
  rw [BitVec.not_not, BitVec.getLsbD_and, BitVec.getLsbD_and, h j hj 0 (by omega), mask5_bits _ (by omega),
    mask5_bits _ (by omega)]
  have e1 : decide ((2 * (15 - j) + 1) % 2 = 0) = false := by simp
  have e2 : decide ((2 * (15 - j) + 0) % 2 = 0) = true := by simp
  rw [e1, e2, Bool.false_and, Bool.true_and]
  rcases typeAt_cases fs (16 * k + j) with h | h | h <;> rw [h] <;> decide

/-! ### The walk over the table -/
section Sweep
variable {σ : Type}

/-- Run `onTrack` for the selected tracks. -/
def sweepTracks (sel : Nat → Bool) (onTrack : σ → Nat → Option σ) : List Nat → σ → Option σ
  | [], s => some s
  | t :: ts, s => if sel t then (onTrack s t).bind (sweepTracks sel onTrack ts) else sweepTracks sel onTrack ts s

/-- `count` groups of four tracks; groups without selected track are skipped. -/
def sweepGroups (sel : Nat → Bool) (onGroup : σ → Option σ) (onTrack : σ → Nat → Option σ) : Nat → Nat → σ → Option σ
  | 0, _, s => some s
  | c + 1, t, s =>
    if sel t || sel (t + 1) || sel (t + 2) || sel (t + 3) then
      (onGroup s).bind fun s => (sweepTracks sel onTrack [t, t + 1, t + 2, t + 3] s).bind
        (sweepGroups sel onGroup onTrack c (t + 4))
    else sweepGroups sel onGroup onTrack c (t + 4) s

/-- `count` entries of 16 tracks. -/
def sweepEntries (sel : Nat → Bool) (onEntry onGroup : σ → Option σ) (onTrack : σ → Nat → Option σ) :
    Nat → Nat → σ → Option σ
  | 0, _, s => some s
  | c + 1, e, s => (onEntry s).bind fun s => (sweepGroups sel onGroup onTrack 4 (e * 16) s).bind
      (sweepEntries sel onEntry onGroup onTrack c (e + 1))

/-- The masks used by a sweep look at bit `b` of each type. -/
structure Masks (b : Nat) (groupMask : BitVec 32) (lanes : List (BitVec 32)) : Prop where
  lanes : lanes = [BitVec.twoPow 32 (30 + b), BitVec.twoPow 32 (28 + b), BitVec.twoPow 32 (26 + b), BitVec.twoPow 32 (24 + b)]
  group : groupMask = BitVec.twoPow 32 (30 + b) ||| BitVec.twoPow 32 (28 + b) ||| BitVec.twoPow 32 (26 + b) ||| BitVec.twoPow 32 (24 + b)

theorem highMasks : Masks 1 0xAA000000#32 highLanes := ⟨by decide, by decide⟩
theorem lowMasks : Masks 0 0x55000000#32 lowLanes := ⟨by decide, by decide⟩

theorem twoPow_ne_zero (i : Nat) (hi : i < 32) : BitVec.twoPow 32 i ≠ 0#32 := by
  intro h
  have := congrArg (fun v => v.getLsbD i) h
  simp [BitVec.getLsbD_twoPow] at this
  omega

theorem and_twoPow_ne {x : BitVec 32} {i : Nat} (hi : i < 32) : x &&& BitVec.twoPow 32 i ≠ 0 ↔ x.getLsbD i = true := by
  rw [BitVec.and_twoPow]
  split
  · rename_i h; simp [h, twoPow_ne_zero i hi]
  · rename_i h; simp [h]

theorem or_eq_zero' (x y : BitVec 32) : x ||| y = 0 ↔ x = 0 ∧ y = 0 := BitVec.or_eq_zero_iff

theorem visitLanes_eq (sel : Nat → Bool) (onTrack : σ → Nat → Option σ) (x : BitVec 32) :
    ∀ (bits : List Nat) (t : Nat) (s : σ), (∀ i ∈ bits, i < 32) →
      (∀ m (h : m < bits.length), x.getLsbD bits[m] = sel (t + m)) →
      visitLanes onTrack x (bits.map (BitVec.twoPow 32)) t s =
        sweepTracks sel onTrack (List.range' t bits.length) s := by
  intro bits
  induction bits with
  | nil => intro t s _ _; rfl
  | cons i bits ih =>
    intro t s hlt hsel
    have h0 : x.getLsbD i = sel t := hsel 0 (by simp)
    have htail := fun s => ih (t + 1) s (fun i hi => hlt i (by simp [hi])) (fun m hm => by
      have := hsel (m + 1) (by simpa using hm)
      rw [List.getElem_cons_succ] at this
      rw [this]; congr 1; omega)
    simp only [List.map_cons, visitLanes, List.length_cons, List.range'_succ, sweepTracks]
    have hi : i < 32 := hlt i (by simp)
    cases hs : sel t with
    | true =>
      rw [if_pos ((and_twoPow_ne hi).2 (h0.trans hs)), if_pos rfl]
      cases onTrack s t with
      | none => rfl
      | some s => exact htail s
    | false =>
      rw [if_neg (fun h => by rw [(and_twoPow_ne hi).1 h] at h0; rw [hs] at h0; cases h0), if_neg (by simp)]
      exact htail s

theorem sweepGroups_none (sel : Nat → Bool) (onGroup : σ → Option σ) (onTrack : σ → Nat → Option σ) :
    ∀ (c t : Nat) (s : σ), (∀ i, i < 4 * c → sel (t + i) = false) → sweepGroups sel onGroup onTrack c t s = some s := by
  intro c
  induction c with
  | zero => intro t s _; rfl
  | succ c ih =>
    intro t s h
    have h0 := h 0 (by omega)
    simp only [Nat.add_zero] at h0
    rw [sweepGroups, h0, h 1 (by omega), h 2 (by omega), h 3 (by omega)]
    simp only [Bool.or_false, Bool.false_eq_true, if_false]
    exact ih _ _ (fun i hi => by rw [Nat.add_assoc]; exact h _ (by omega))

theorem visitGroups_eq (sel : Nat → Bool) {b : Nat} (hb : b < 2) {gm : BitVec 32} {lanes : List (BitVec 32)}
    (hm : Masks b gm lanes) (onGroup : σ → Option σ) (onTrack : σ → Nat → Option σ) :
    ∀ (fuel : Nat) (x : BitVec 32) (t : Nat) (s : σ), fuel ≤ 4 →
      (∀ j, j < 16 → x.getLsbD (2 * (15 - j) + b) = (decide (j < 4 * fuel) && sel (t + j))) →
      (∀ j, j < 16 → x.getLsbD (2 * (15 - j) + (1 - b)) = false) →
      visitGroups gm lanes onGroup onTrack fuel x t s = sweepGroups sel onGroup onTrack fuel t s := by
  intro fuel
  induction fuel with
  | zero => intro x t s _ _ _; rfl
  | succ fuel ih =>
    intro x t s hf hx hz
    rw [visitGroups]
    have hbit : ∀ m, m < 4 → x.getLsbD (30 - 2 * m + b) = sel (t + m) := by
      intro m hm4
      have := hx m (by omega)
      rw [decide_eq_true (by omega), Bool.true_and] at this
      rw [← this]; congr 1; omega
    have hnext : ∀ s, visitGroups gm lanes onGroup onTrack fuel (x <<< 8) (t + 4) s =
        sweepGroups sel onGroup onTrack fuel (t + 4) s := by
      intro s
      apply ih _ _ _ (by omega)
      · intro j hj
        rw [BitVec.getLsbD_shiftLeft]
        by_cases h8 : j < 12
        · have e1 : decide (2 * (15 - j) + b < 32) = true := by simp; omega
          have e2 : decide (2 * (15 - j) + b < 8) = false := by simp; omega
          have e3 : 2 * (15 - j) + b - 8 = 2 * (15 - (j + 4)) + b := by omega
          rw [e1, e2, e3, hx (j + 4) (by omega)]
          simp only [Bool.not_false, Bool.true_and]
          congr 1
          · simp only [decide_eq_decide]; omega
          · congr 1; omega
        · have e2 : decide (2 * (15 - j) + b < 8) = true := by simp; omega
          rw [e2, decide_eq_false (show ¬ j < 4 * fuel by omega)]; simp
      · intro j hj
        rw [BitVec.getLsbD_shiftLeft]
        by_cases h8 : j < 12
        · have e3 : 2 * (15 - j) + (1 - b) - 8 = 2 * (15 - (j + 4)) + (1 - b) := by omega
          rw [e3, hz (j + 4) (by omega)]; simp
        · have e2 : decide (2 * (15 - j) + (1 - b) < 8) = true := by simp; omega
          rw [e2]; simp
    by_cases h0 : x = 0
    · rw [if_pos h0, sweepGroups_none]
      intro i hi
      have := hx i (by omega)
      rw [h0, decide_eq_true hi] at this
      simpa using this.symm
    · rw [if_neg h0]
      have hgm : x &&& gm = 0 ↔ (sel t || sel (t + 1) || sel (t + 2) || sel (t + 3)) = false := by
        rw [hm.group, BitVec.and_or_distrib_left, BitVec.and_or_distrib_left, BitVec.and_or_distrib_left]
        have key : ∀ m, m < 4 → (x &&& BitVec.twoPow 32 (30 - 2 * m + b) = 0 ↔ sel (t + m) = false) := by
          intro m hm4
          rw [← hbit m hm4, ← not_iff_not]
          have := and_twoPow_ne (x := x) (i := 30 - 2 * m + b) (by omega)
          simpa using this
        have k0 := key 0 (by omega)
        have k1 := key 1 (by omega)
        have k2 := key 2 (by omega)
        have k3 := key 3 (by omega)
        simp only [Nat.add_zero, Nat.mul_zero, Nat.sub_zero, Nat.mul_one, show 30 - 2 = 28 from rfl,
          show 30 - 2 * 2 = 26 from rfl, show 30 - 2 * 3 = 24 from rfl] at k0 k1 k2 k3
        rw [or_eq_zero', or_eq_zero', or_eq_zero', k0, k1, k2, k3]
        simp
      rw [sweepGroups]
      by_cases hg : x &&& gm = 0
      · rw [if_pos hg, if_neg (by rw [hgm.1 hg]; simp)]
        exact hnext s
      · rw [if_neg hg, if_pos (by
          cases h : (sel t || sel (t + 1) || sel (t + 2) || sel (t + 3)) with
          | true => rfl
          | false => exact absurd (hgm.2 h) hg)]
        cases onGroup s with
        | none => rfl
        | some s =>
          have hl := visitLanes_eq sel onTrack x [30 + b, 28 + b, 26 + b, 24 + b] t s (by simp; omega) (by
            intro m hmm
            have h4 : m < 4 := by simpa using hmm
            rw [← hbit m h4]
            rcases (by omega : m = 0 ∨ m = 1 ∨ m = 2 ∨ m = 3) with rfl | rfl | rfl | rfl <;> rfl)
          have hlanes : lanes = [30 + b, 28 + b, 26 + b, 24 + b].map (BitVec.twoPow 32) := hm.lanes
          simp only [hlanes, Option.bind_some]
          rw [hl]
          have hr : List.range' t [30 + b, 28 + b, 26 + b, 24 + b].length = [t, t + 1, t + 2, t + 3] := rfl
          rw [hr]
          cases sweepTracks sel onTrack [t, t + 1, t + 2, t + 3] s with
          | none => rfl
          | some s => rw [← hlanes]; exact hnext s

/-- The walk over the entries of a kind runs the callbacks for the tracks selected by `sel`. -/
theorem visitEntries_eq (sel : Nat → Bool) {b : Nat} (hb : b < 2) {gm : BitVec 32} {lanes : List (BitVec 32)}
    (hm : Masks b gm lanes) {types : List (BitVec 32)} {base : Nat} {select : Nat → BitVec 32 → BitVec 32}
    (onEntry onGroup : σ → Option σ) (onTrack : σ → Nat → Option σ) :
    ∀ (count k : Nat) (s : σ), (∀ k', k ≤ k' → k' < k + count → ∃ e, types[base + k']? = some e ∧
        ∀ j, j < 16 → (select k' e).getLsbD (2 * (15 - j) + b) = sel (16 * k' + j) ∧
          (select k' e).getLsbD (2 * (15 - j) + (1 - b)) = false) →
      visitEntries types base select gm lanes onEntry onGroup onTrack count k s =
        sweepEntries sel onEntry onGroup onTrack count k s := by
  intro count
  induction count with
  | zero => intro k s _; rfl
  | succ count ih =>
    intro k s h
    obtain ⟨e, he, hbits⟩ := h k (by omega) (by omega)
    rw [visitEntries, he, sweepEntries]
    simp only
    cases onEntry s with
    | none => rfl
    | some s =>
      simp only [Option.bind_some]
      rw [visitGroups_eq sel hb hm onGroup onTrack 4 _ _ s (by omega) (fun j hj => by
          rw [(hbits j hj).1, decide_eq_true (by omega), Bool.true_and, Nat.mul_comm])
        (fun j hj => (hbits j hj).2)]
      cases sweepGroups sel onGroup onTrack 4 (k * 16) s with
      | none => rfl
      | some s => exact ih (k + 1) s (fun k' h1 h2 => h k' (by omega) (by omega))

end Sweep

/-! ### Counting -/

theorem countBelow_pairs (n : Nat) (p : Nat → Bool) :
    countBelow (2 * n) p = countBelow n (fun i => p (2 * i)) + countBelow n (fun i => p (2 * i + 1)) := by
  induction n with
  | zero => rfl
  | succ n ih =>
    have e : 2 * (n + 1) = 2 * n + 1 + 1 := by omega
    rw [e, countBelow_succ, countBelow_succ, ih, countBelow_succ, countBelow_succ]; omega

theorem countBelow_false (n : Nat) (p : Nat → Bool) (h : ∀ i, i < n → p i = false) : countBelow n p = 0 := by
  rw [countBelow_congr (q := fun _ => false) h]; simp [countBelow]

/-- Number of one bits of a word whose only one bits are at bit `b` of each digit. -/
theorem popSpec_digits (x : BitVec 32) (b : Nat) (hb : b < 2) (sel : Nat → Bool)
    (h1 : ∀ j, j < 16 → x.getLsbD (2 * (15 - j) + b) = sel j)
    (h0 : ∀ j, j < 16 → x.getLsbD (2 * (15 - j) + (1 - b)) = false) :
    popSpec x = countBelow 16 sel := by
  unfold popSpec
  rw [countBelow_pairs 16 (fun i => x.getLsbD i), ← countBelow_rev 16 sel]
  rcases (by omega : b = 0 ∨ b = 1) with rfl | rfl
  · rw [countBelow_false 16 (fun i => x.getLsbD (2 * i + 1)), Nat.add_zero]
    · apply countBelow_congr
      intro i hi
      have := h1 (15 - i) (by omega)
      rw [show 2 * (15 - (15 - i)) + 0 = 2 * i by omega] at this
      exact this
    · intro i hi
      have := h0 (15 - i) (by omega)
      rwa [show 2 * (15 - (15 - i)) + (1 - 0) = 2 * i + 1 by omega] at this
  · rw [countBelow_false 16 (fun i => x.getLsbD (2 * i)), Nat.zero_add]
    · apply countBelow_congr
      intro i hi
      have := h1 (15 - i) (by omega)
      rw [show 2 * (15 - (15 - i)) + 1 = 2 * i + 1 by omega] at this
      exact this
    · intro i hi
      have := h0 (15 - i) (by omega)
      rwa [show 2 * (15 - (15 - i)) + (1 - 1) = 2 * i by omega] at this

/-- The class a class mask selects. -/
structure ClassMask (classMask : BitVec 32) (b : Nat) : Prop where
  lt : b < 2
  mask : ∀ i, i < 32 → classMask.getLsbD i = decide (i % 2 = b)

theorem constantMask : ClassMask 0x55555555#32 0 := ⟨by decide, by decide⟩
theorem animatedMask : ClassMask 0xAAAAAAAA#32 1 := ⟨by decide, by decide⟩

theorem countBefore_loop {types T : List (BitVec 32)} {base : Nat} {fs : List StreamFlags} (hT : TableOf T fs)
    (hbase : ∀ k, k < T.length → types[base + k]? = T[k]?) {classMask : BitVec 32} {b : Nat}
    (hm : ClassMask classMask b) (i : Nat) (hi : i < fs.length) (hbig : i < 2 ^ 32) :
    ∀ (count k : Nat) (acc : BitVec 32), k + count = i / 16 + 1 →
      acc.toNat = countBelow (min (16 * k) i) (fun j => (typeAt fs j).getLsbD b) →
      ∃ c, countBefore types base i 0xFFFFFFFF#32 classMask count k acc = some c ∧
        c.toNat = countBelow i (fun j => (typeAt fs j).getLsbD b) := by
  intro count
  induction count with
  | zero =>
    intro k acc hk hacc
    rw [show min (16 * k) i = i by omega] at hacc
    exact ⟨acc, rfl, hacc⟩
  | succ count ih =>
    intro k acc hk hacc
    have hkl : k < T.length := by rw [hT.1]; unfold numSubTrackEntries; omega
    rw [countBefore, hbase _ hkl, List.getElem?_eq_getElem hkl]
    dsimp only
    have he := hT.2 k _ (List.getElem?_eq_getElem hkl)
    generalize T[k] = e at he
    -- the bits kept of the entry
    have ones : ∀ i, i < 32 → (0xFFFFFFFF#32).getLsbD i = true := by decide
    have hpad : ∀ j, j < 16 → ∀ b', b' < 2 →
        (if k = i / 16 then (if (i / 16 + 1) * 16 - i ≠ 0 then 0xFFFFFFFF#32 >>> ((16 - ((i / 16 + 1) * 16 - i)) * 2)
          else 0#32) else 0#32).getLsbD (2 * (15 - j) + b') = decide (i ≤ 16 * k + j) := by
      intro j hj b' hb'
      split
      · rename_i hkk
        rw [if_pos (by omega), BitVec.getLsbD_ushiftRight]
        by_cases hin : i ≤ 16 * k + j
        · rw [decide_eq_true hin, ones _ (by omega)]
        · rw [decide_eq_false hin, BitVec.getLsbD_of_ge _ _ (by omega)]
      · rw [decide_eq_false (by omega)]; simp
    generalize hx : (0xFFFFFFFF#32 &&& andNot (if k = i / 16 then (if (i / 16 + 1) * 16 - i ≠ 0 then 0xFFFFFFFF#32 >>> ((16 - ((i / 16 + 1) * 16 - i)) * 2)
          else 0#32) else 0#32) e) &&& classMask = x
    have hb := hm.lt
    have hxb : ∀ j, j < 16 → x.getLsbD (2 * (15 - j) + b) = (decide (16 * k + j < i) && (typeAt fs (16 * k + j)).getLsbD b) := by
      intro j hj
      rw [← hx]
      simp only [andNot, BitVec.getLsbD_and, BitVec.getLsbD_not]
      rw [hpad j hj b hb, ones _ (by omega), he j hj b hb, hm.mask _ (by omega)]
      rw [decide_eq_true (show (2 * (15 - j) + b) % 2 = b by omega), decide_eq_true (show 2 * (15 - j) + b < 32 by omega)]
      by_cases hin : i ≤ 16 * k + j
      · rw [decide_eq_true hin, decide_eq_false (by omega)]; simp
      · rw [decide_eq_false hin, decide_eq_true (by omega)]; simp
    have hx0 : ∀ j, j < 16 → x.getLsbD (2 * (15 - j) + (1 - b)) = false := by
      intro j hj
      rw [← hx]
      simp only [BitVec.getLsbD_and]
      rw [hm.mask _ (by omega), decide_eq_false (show ¬ (2 * (15 - j) + (1 - b)) % 2 = b by omega), Bool.and_false]
    have hpop := popSpec_digits x b hb _ hxb hx0
    apply ih (k + 1) _ (by omega)
    have hsplit : countBelow (min (16 * (k + 1)) i) (fun j => (typeAt fs j).getLsbD b) =
        countBelow (min (16 * k) i) (fun j => (typeAt fs j).getLsbD b) + popSpec x := by
      rw [hpop, show min (16 * k) i = 16 * k by omega]
      obtain ⟨d, hd⟩ : ∃ d, min (16 * (k + 1)) i = 16 * k + d ∧ d ≤ 16 := ⟨min (16 * (k + 1)) i - 16 * k, by omega, by omega⟩
      rw [hd.1, countBelow_add]
      congr 1
      have h16 : ∀ p : Nat → Bool, countBelow 16 p = countBelow d p + countBelow (16 - d) (fun i => p (d + i)) := by
        intro p
        rw [← countBelow_add, Nat.add_sub_cancel' hd.2]
      rw [h16, countBelow_false (16 - d) _ (fun j hj => by rw [decide_eq_false (by omega)]; simp), Nat.add_zero]
      apply countBelow_congr
      intro j hj
      rw [decide_eq_true (by omega)]; simp
    rw [BitVec.toNat_add, countSetBits32_toNat, hacc, ← hsplit, Nat.mod_eq_of_lt]
    have := countBelow_le (min (16 * (k + 1)) i) (fun j => (typeAt fs j).getLsbD b)
    omega

theorem typeAt_bit0 (fs : List StreamFlags) (j : Nat) : (typeAt fs j).getLsbD 0 = decide (typeAt fs j = 1) := by
  rcases typeAt_cases fs j with h | h | h <;> rw [h] <;> decide
theorem typeAt_bit1 (fs : List StreamFlags) (j : Nat) : (typeAt fs j).getLsbD 1 = decide (typeAt fs j = 2) := by
  rcases typeAt_cases fs j with h | h | h <;> rw [h] <;> decide

theorem countBefore_spec {types T : List (BitVec 32)} {base : Nat} {fs : List StreamFlags} (hT : TableOf T fs)
    (hbase : ∀ k, k < T.length → types[base + k]? = T[k]?) {classMask : BitVec 32} {b : Nat}
    (hm : ClassMask classMask b) (i : Nat) (hi : i < fs.length) (hbig : i < 2 ^ 32) :
    ∃ c, countBefore types base i 0xFFFFFFFF#32 classMask (i / 16 + 1) 0 0 = some c ∧
        c.toNat = countBelow i (fun j => (typeAt fs j).getLsbD b) :=
  countBefore_loop hT hbase hm i hi hbig _ _ _ (by omega) (by simp [countBelow])

end Acl.Transform
