import Verif.Transform.RateCache
import Verif.Transform.HierarchySpec
import Verif.Core.BitsetLemmas
import Mathlib.Tactic.Ring
import Mathlib.Tactic.Linarith
namespace Acl.RateCache
open Acl.Transform Acl.Search

variable {V T : Type} {c : Config} {s : Streams V T} {rated : Nat → Kind → Bool} {U : Nat → Kind → Prop} {st : State V}

/-- The kinds of sub-tracks that are cached -/
def Live (c : Config) (kind : Kind) : Prop := kind = .scale → c.hasScale = true

/-- What should be cached -/
def want (c : Config) (s : Streams V T) (track : Nat) (kind : Kind) (key rate : Nat) : V :=
  if s.isConstant track kind then s.constant track kind
  else if c.isVariable kind then s.sampleAt track kind key rate else s.sampleFull track kind key

theorem kindIndex_lt {kind : Kind} (h : Live c kind) : kindIndex kind * 4 + 4 ≤ c.entriesPerTransform := by
  unfold Config.entriesPerTransform
  cases kind <;> simp only [kindIndex]
  · split <;> omega
  · split <;> omega
  · rw [if_pos (h rfl)]

theorem index_lt {track slot : Nat} {kind : Kind} (hl : Live c kind) (ht : track < c.numTransforms) (hs : slot < 4) :
    baseIndex c track kind + slot < c.numCached := by
  have := kindIndex_lt hl
  unfold baseIndex Config.numCached
  have h : (track + 1) * c.entriesPerTransform ≤ c.numTransforms * c.entriesPerTransform := Nat.mul_le_mul_right _ ht
  rw [Nat.add_mul] at h
  omega

theorem index_inj {t t' slot slot' : Nat} {k k' : Kind} (hl : Live c k) (hl' : Live c k') (hs : slot < 4) (hs' : slot' < 4)
    (h : baseIndex c t k + slot = baseIndex c t' k' + slot') : t = t' ∧ k = k' ∧ slot = slot' := by
  have b1 := kindIndex_lt hl
  have b2 := kindIndex_lt hl'
  unfold baseIndex at h
  generalize c.entriesPerTransform = e at *
  have ht : t = t' := by
    rcases Nat.lt_trichotomy t t' with hlt | heq | hgt
    · have : (t + 1) * e ≤ t' * e := Nat.mul_le_mul_right _ hlt
      rw [Nat.add_mul] at this; omega
    · exact heq
    · have : (t' + 1) * e ≤ t * e := Nat.mul_le_mul_right _ hgt
      rw [Nat.add_mul] at this; omega
  subst ht
  refine ⟨rfl, ?_, ?_⟩
  · cases k <;> cases k' <;> simp only [kindIndex] at h <;> first | rfl | omega
  · cases k <;> cases k' <;> simp only [kindIndex] at h <;> omega

/-- The validity bit of a sample of a cached sub-track -/
def bit (c : Config) (st : State V) (index key : Nat) : Bool := bsBit st.bits (32 * (c.bitsetSize * index) + key)

theorem key_word {key : Nat} (h : key < c.numSamples) : key < 32 * c.bitsetSize := by
  unfold Config.bitsetSize bitsetSize
  omega

theorem key_data {key : Nat} (h : key < c.numSamples) : key < c.trackSize := by
  unfold Config.trackSize
  omega

theorem flat_lt {w i n k : Nat} (h : i < n) (hk : k < w) : w * i + k < w * n := by
  have : w * (i + 1) ≤ w * n := Nat.mul_le_mul_left _ h
  rw [Nat.mul_add] at this
  omega

theorem flat_inj {w i i' k k' : Nat} (hk : k < w) (hk' : k' < w) (h : w * i + k = w * i' + k') : i = i' ∧ k = k' := by
  have hi : i = i' := by
    rcases Nat.lt_trichotomy i i' with hlt | heq | hgt
    · have : w * (i + 1) ≤ w * i' := Nat.mul_le_mul_left _ hlt
      rw [Nat.mul_add] at this; omega
    · exact heq
    · have : w * (i' + 1) ≤ w * i := Nat.mul_le_mul_left _ hgt
      rw [Nat.mul_add] at this; omega
  subst hi
  exact ⟨rfl, by omega⟩

theorem bit_inj {i i' k k' : Nat} (hk : k < c.numSamples) (hk' : k' < c.numSamples)
    (h : 32 * (c.bitsetSize * i) + k = 32 * (c.bitsetSize * i') + k') : i = i' ∧ k = k' := by
  refine flat_inj (key_word hk) (key_word hk') ?_
  rw [Nat.mul_assoc, Nat.mul_assoc]
  exact h

theorem resetBits_spec {index : Nat} (hb : st.bits.length = c.bitsetSize * c.numCached) (hi : index < c.numCached) :
    ∃ bits, resetBits c st index = some { st with bits := bits } ∧ bits.length = st.bits.length ∧
      ∀ i k, k < c.numSamples → bsBit bits (32 * (c.bitsetSize * i) + k) = if i = index then false else bit c st i k := by
  have hlen : c.bitsetSize * index + c.bitsetSize ≤ st.bits.length := by
    rw [hb]
    have : c.bitsetSize * (index + 1) ≤ c.bitsetSize * c.numCached := Nat.mul_le_mul_left _ hi
    rw [Nat.mul_add] at this
    omega
  obtain ⟨m, e, l, out, inn⟩ := bitsetResetFrom_spec c.bitsetSize st.bits (c.bitsetSize * index) false hlen
  refine ⟨m, ?_, l, ?_⟩
  · unfold resetBits
    rw [e]
    rfl
  · intro i k hk
    have hw := key_word hk
    have hdiv : (32 * (c.bitsetSize * i) + k) / 32 = c.bitsetSize * i + k / 32 := by omega
    have hk32 : k / 32 < c.bitsetSize := by omega
    unfold bit bsBit
    rw [hdiv, List.getD_eq_getElem?_getD, List.getD_eq_getElem?_getD]
    by_cases hii : i = index
    · rw [if_pos hii, hii, inn _ (by omega) (by omega)]
      simp
    · rw [if_neg hii, out]
      rcases Nat.lt_or_gt_of_ne hii with hlt | hgt
      · left
        exact Nat.lt_of_lt_of_le (flat_lt hlt hk32) (le_refl _)
      · right
        have : c.bitsetSize * (index + 1) ≤ c.bitsetSize * i := Nat.mul_le_mul_left _ hgt
        rw [Nat.mul_add] at this
        omega

/-- A slot is used for a bit rate -/
def SlotHolds (rated : Nat → Kind → Bool) (U : Nat → Kind → Prop) (sl : Slots) (track : Nat) (kind : Kind) (slot rate : Nat) : Prop :=
  if rated track kind then sl.rates[slot]? = some rate ∧ rate ≠ 255 else slot = 0 ∧ rate = 255 ∧ U track kind

structure Inv (c : Config) (s : Streams V T) (rated : Nat → Kind → Bool) (U : Nat → Kind → Prop) (st : State V) : Prop where
  transforms : st.transforms.length = c.numTransforms
  bits : st.bits.length = c.bitsetSize * c.numCached
  data : st.data.length = c.trackSize * c.numCached
  slots : ∀ (t : Nat) (f : Kind → Slots), st.transforms[t]? = some f → ∀ kind, (f kind).rates.length = 4 ∧ (f kind).generations.length = 4
  used : ∀ (t : Nat) (f : Kind → Slots), st.transforms[t]? = some f → ∀ kind, (f kind).generations.getD 0 0 ≠ 0 → rated t kind = false → U t kind
  cached : ∀ (t : Nat) (f : Kind → Slots), st.transforms[t]? = some f → ∀ kind, Live c kind → ∀ slot, slot < 4 → ∀ rate, SlotHolds rated U (f kind) t kind slot rate →
    ∀ key, key < c.numSamples → bit c st (baseIndex c t kind + slot) key = true →
      st.data[c.trackSize * (baseIndex c t kind + slot) + key]? = some (want c s t kind key rate)

theorem SlotHolds.unique {sl : Slots} {t : Nat} {kind : Kind} {slot r r' : Nat} (h : SlotHolds rated U sl t kind slot r) (h' : SlotHolds rated U sl t kind slot r') :
    r = r' := by
  unfold SlotHolds at h h'
  split at h
  · rename_i hr
    rw [if_pos hr] at h'
    have := h.1.symm.trans h'.1
    cases this
    rfl
  · rename_i hr
    rw [if_neg hr] at h'
    rw [h.2.1, h'.2.1]

theorem SlotHolds.mono {U' : Nat → Kind → Prop} (hU : ∀ t k, U t k → U' t k) {sl : Slots} {t : Nat} {kind : Kind} {slot r : Nat}
    (h : SlotHolds rated U sl t kind slot r) : SlotHolds rated U' sl t kind slot r := by
  unfold SlotHolds at h ⊢
  split at h
  · rename_i hr; rw [if_pos hr]; exact h
  · rename_i hr; rw [if_neg hr]; exact ⟨h.1, h.2.1, hU _ _ h.2.2⟩

theorem findBitRate_spec (rates : List Nat) (rate : Nat) : ∀ n i, (∀ j, findBitRate rates rate i n = some j → i ≤ j ∧ j < i + n ∧ rates[j]? = some rate) ∧
    (findBitRate rates rate i n = none → ∀ j, i ≤ j → j < i + n → rates[j]? ≠ some rate)
  | 0, i => ⟨fun j h => by simp [findBitRate] at h, fun _ j h1 h2 => by omega⟩
  | n + 1, i => by
    obtain ⟨a, b⟩ := findBitRate_spec rates rate n (i + 1)
    unfold findBitRate
    constructor
    · intro j h
      split at h
      · rename_i hr; cases h; exact ⟨le_refl _, by omega, hr⟩
      · obtain ⟨x, y, z⟩ := a j h; exact ⟨by omega, by omega, z⟩
    · intro h j h1 h2
      split at h
      · cases h
      · rename_i hr
        rcases Nat.eq_or_lt_of_le h1 with rfl | h3
        · exact hr
        · exact b h j h3 (by omega)

theorem oldestFrom_lt (g : List (BitVec 32)) : ∀ n i o index, index < 4 → i + n ≤ 4 → oldestFrom g i n o index < 4
  | 0, _, _, _, h, _ => h
  | n + 1, i, o, index, h, h' => by
    unfold oldestFrom
    split
    · exact oldestFrom_lt g n _ _ _ (by omega) (by omega)
    · exact oldestFrom_lt g n _ _ _ h (by omega)

theorem oldestSlot_lt (g : List (BitVec 32)) : oldestSlot g < 4 := oldestFrom_lt g 3 1 _ 0 (by omega) (by omega)

theorem setSlots_get {t : Nat} {kind : Kind} {sl : Slots} {t' : Nat} {f' : Kind → Slots} (h : (setSlots st t kind sl).transforms[t']? = some f') :
    ∃ f, st.transforms[t']? = some f ∧ ∀ k, f' k = if t' = t ∧ k = kind then sl else f k := by
  unfold setSlots at h
  simp only [List.getElem?_modify] at h
  cases hf : st.transforms[t']? with
  | none => rw [hf] at h; simp at h
  | some f =>
    rw [hf] at h
    refine ⟨f, rfl, fun k => ?_⟩
    by_cases ht : t = t'
    · simp only [ht, if_true] at h
      cases h
      by_cases hk : k = kind
      · simp [hk, ht]
      · simp [hk]
    · simp only [ht, if_false] at h
      cases h
      rw [if_neg (by rintro ⟨rfl, -⟩; exact ht rfl)]

/-- The slots of a sub-track -/
def slotsOf (st : State V) (t : Nat) (k : Kind) : Slots :=
  match st.transforms[t]? with
  | some f => f k
  | none => Slots.empty

/-- One lemma for both ways to take a slot: the slots of the sub-track become `sl`, `slot` is the one that is reset. -/
theorem take_spec (h : Inv c s rated U st) {t : Nat} (ht : t < c.numTransforms) {kind : Kind} (hl : Live c kind) {slot rate : Nat} (hs : slot < 4)
    (gen : BitVec 32) {sl : Slots} (hlen : sl.rates.length = 4 ∧ sl.generations.length = 4) {bits : List (BitVec 32)} (hbl : bits.length = st.bits.length)
    (hbits : ∀ i k, k < c.numSamples → bsBit bits (32 * (c.bitsetSize * i) + k) = if i = baseIndex c t kind + slot then false else bit c st i k)
    (hrate : SlotHolds rated (fun t' k' => U t' k' ∨ (t' = t ∧ k' = kind)) sl t kind slot rate)
    (hother : ∀ slot' r, slot' < 4 → slot' ≠ slot → SlotHolds rated (fun t' k' => U t' k' ∨ (t' = t ∧ k' = kind)) sl t kind slot' r →
      SlotHolds rated U (slotsOf st t kind) t kind slot' r) :
    Inv c s rated (fun t' k' => U t' k' ∨ (t' = t ∧ k' = kind)) { setSlots st t kind sl with generation := gen, bits := bits } where
  transforms := by simp [setSlots, h.transforms]
  bits := by rw [← h.bits]; exact hbl
  data := h.data
  slots := by
    intro t' f' hf' k
    obtain ⟨f, hf, hk⟩ := setSlots_get (st := st) hf'
    rw [hk]
    split
    · exact hlen
    · exact h.slots t' f hf k
  used := by
    intro t' f' hf' k hg hr
    obtain ⟨f, hf, hk⟩ := setSlots_get (st := st) hf'
    rw [hk] at hg
    by_cases hc : t' = t ∧ k = kind
    · right; exact hc
    · rw [if_neg hc] at hg
      left; exact h.used t' f hf k hg hr
  cached := by
    intro t' f' hf' k hlk slot' hs' r hh key hkey hb
    obtain ⟨f, hf, hk⟩ := setSlots_get (st := st) hf'
    have hb' : bsBit bits (32 * (c.bitsetSize * (baseIndex c t' k + slot')) + key) = true := hb
    rw [hbits _ _ hkey] at hb'
    by_cases hidx : baseIndex c t' k + slot' = baseIndex c t kind + slot
    · rw [if_pos hidx] at hb'; cases hb'
    · rw [if_neg hidx] at hb'
      refine h.cached t' f hf k hlk slot' hs' r ?_ key hkey hb'
      rw [hk] at hh
      by_cases hc : t' = t ∧ k = kind
      · obtain ⟨rfl, rfl⟩ := hc
        rw [if_pos ⟨rfl, rfl⟩] at hh
        have := hother slot' r hs' (fun e => hidx (by rw [e])) hh
        unfold slotsOf at this
        rw [hf] at this
        exact this
      · rw [if_neg hc] at hh
        unfold SlotHolds at hh ⊢
        split at hh
        · rename_i hr; rw [if_pos hr]; exact hh
        · rename_i hr
          rw [if_neg hr]
          refine ⟨hh.1, hh.2.1, ?_⟩
          rcases hh.2.2 with hu | hu
          · exact hu
          · exact absurd hu hc

/-- What is known after `build` of a sub-track -/
structure Found (c : Config) (s : Streams V T) (rated : Nat → Kind → Bool) (U : Nat → Kind → Prop) (st st' : State V) (U' : Nat → Kind → Prop)
    (t : Nat) (kind : Kind) (rate index : Nat) : Prop where
  inv : Inv c s rated U' st'
  mono : ∀ t k, U t k → U' t k
  holds : ∃ slot, slot < 4 ∧ index = baseIndex c t kind + slot ∧ SlotHolds rated U' (slotsOf st' t kind) t kind slot rate
  other : ∀ t' k', ¬(t' = t ∧ k' = kind) → slotsOf st' t' k' = slotsOf st t' k'

theorem slotsOf_take {t : Nat} {kind : Kind} {sl : Slots} (ht : t < st.transforms.length) (gen : BitVec 32) (bits : List (BitVec 32)) (t' : Nat) (k' : Kind) :
    slotsOf { setSlots st t kind sl with generation := gen, bits := bits } t' k' = if t' = t ∧ k' = kind then sl else slotsOf st t' k' := by
  unfold slotsOf
  cases hf : (setSlots st t kind sl).transforms[t']? with
  | none =>
    have hlen : (setSlots st t kind sl).transforms.length = st.transforms.length := by simp [setSlots]
    have hge : st.transforms.length ≤ t' := by
      rw [← hlen]; exact List.getElem?_eq_none_iff.1 hf
    rw [if_neg (by omega), List.getElem?_eq_none_iff.2 hge]
  | some f' =>
    obtain ⟨f, hf0, hk⟩ := setSlots_get hf
    rw [hf0]
    exact hk k'

theorem findEntry_spec (h : Inv c s rated U st) {t : Nat} (ht : t < c.numTransforms) {kind : Kind} (hl : Live c kind) {rate : Nat}
    (hr : rated t kind = true ↔ rate ≠ 255) :
    ∃ st' index U', findEntry c st t kind rate = some (st', index) ∧ Found c s rated U st st' U' t kind rate index := by
  have htl : t < st.transforms.length := by rw [h.transforms]; exact ht
  obtain ⟨f, hf⟩ : ∃ f, st.transforms[t]? = some f := ⟨_, List.getElem?_eq_getElem htl⟩
  have hslots : slotsOf st t kind = f kind := by unfold slotsOf; rw [hf]
  obtain ⟨l1, l2⟩ := h.slots t f hf kind
  by_cases hrate : rate = 255
  · have hnr : rated t kind = false := by
      cases hc : rated t kind with
      | false => rfl
      | true => exact absurd hrate (hr.1 hc)
    by_cases hg : (f kind).generations.getD 0 0 = 0
    · obtain ⟨bits, eb, lb, hb⟩ := resetBits_spec (st := st) h.bits (index_lt hl ht (show 0 < 4 by omega))
      have hholds : SlotHolds rated (fun t' k' => U t' k' ∨ (t' = t ∧ k' = kind)) ⟨(f kind).rates, (f kind).generations.set 0 st.generation⟩ t kind 0 rate := by
        unfold SlotHolds
        rw [hnr]
        exact ⟨rfl, hrate, Or.inr ⟨rfl, rfl⟩⟩
      refine ⟨{ setSlots st t kind ⟨(f kind).rates, (f kind).generations.set 0 st.generation⟩ with generation := st.generation + 1, bits := bits },
        baseIndex c t kind, fun t' k' => U t' k' ∨ (t' = t ∧ k' = kind), ?_, take_spec (sl := ⟨(f kind).rates, (f kind).generations.set 0 st.generation⟩) h ht hl (show 0 < 4 by omega) _ ⟨l1, by simp [l2]⟩ lb hb hholds ?_, fun _ _ => Or.inl, ?_, ?_⟩
      · have eb' : resetBits c st (baseIndex c t kind) = some { st with bits := bits } := by simpa using eb
        unfold findEntry findSingle
        rw [hf]
        simp only [Option.bind_eq_bind, Option.bind_some, if_pos hrate, if_pos hg, eb', Option.pure_def]
        rfl
      · intro slot' r _ hne hh
        unfold SlotHolds at hh
        rw [hnr] at hh
        exact absurd hh.1 hne
      · refine ⟨0, by omega, rfl, ?_⟩
        rw [slotsOf_take htl, if_pos ⟨rfl, rfl⟩]
        exact hholds
      · intro t' k' hne
        rw [slotsOf_take htl, if_neg hne]
    · refine ⟨st, baseIndex c t kind, U, ?_, h, fun _ _ => id, ⟨0, by omega, rfl, ?_⟩, fun _ _ _ => rfl⟩
      · unfold findEntry findSingle
        rw [hf]
        simp only [Option.bind_eq_bind, Option.bind_some, if_pos hrate, if_neg hg]
      · unfold SlotHolds
        rw [hnr]
        exact ⟨rfl, hrate, h.used t f hf kind hg hnr⟩
  · have hrt : rated t kind = true := hr.2 hrate
    obtain ⟨hsome, hnone⟩ := findBitRate_spec (f kind).rates rate 4 0
    cases hfind : findBitRate (f kind).rates rate 0 4 with
    | some slot =>
      obtain ⟨-, h2, h3⟩ := hsome slot hfind
      refine ⟨st, baseIndex c t kind + slot, U, ?_, h, fun _ _ => id, ⟨slot, by omega, rfl, ?_⟩, fun _ _ _ => rfl⟩
      · unfold findEntry findRated
        rw [hf]
        simp only [Option.bind_eq_bind, Option.bind_some, if_neg hrate, hfind]
      · unfold SlotHolds
        rw [hrt, hslots]
        exact ⟨h3, hrate⟩
    | none =>
      have hslot := oldestSlot_lt (f kind).generations
      generalize hsl : oldestSlot (f kind).generations = slot at hslot
      obtain ⟨bits, eb, lb, hb⟩ := resetBits_spec
        (st := { setSlots st t kind ⟨(f kind).rates.set slot rate, (f kind).generations.set slot st.generation⟩ with generation := st.generation + 1 })
        (c := c) h.bits (index_lt hl ht hslot)
      have hholds : SlotHolds rated (fun t' k' => U t' k' ∨ (t' = t ∧ k' = kind)) ⟨(f kind).rates.set slot rate, (f kind).generations.set slot st.generation⟩ t kind slot rate := by
        unfold SlotHolds
        rw [hrt]
        refine ⟨?_, hrate⟩
        simp only [List.getElem?_set_self (show slot < (f kind).rates.length by omega)]
      refine ⟨{ setSlots st t kind ⟨(f kind).rates.set slot rate, (f kind).generations.set slot st.generation⟩ with generation := st.generation + 1, bits := bits },
        baseIndex c t kind + slot, fun t' k' => U t' k' ∨ (t' = t ∧ k' = kind), ?_, take_spec h ht hl hslot _ ⟨by simp [l1], by simp [l2]⟩ lb hb hholds ?_, fun _ _ => Or.inl, ?_, ?_⟩
      · unfold findEntry findRated replaceOldest
        rw [hf]
        simp only [Option.bind_eq_bind, Option.bind_some, if_neg hrate, hfind, hsl, eb, Option.pure_def]
      · intro slot' r hs' hne hh
        unfold SlotHolds at hh ⊢
        rw [hrt] at hh ⊢
        rw [hslots]
        rw [List.getElem?_set_ne (Ne.symm hne)] at hh
        exact hh
      · refine ⟨slot, hslot, rfl, ?_⟩
        rw [slotsOf_take htl, if_pos ⟨rfl, rfl⟩]
        exact hholds
      · intro t' k' hne
        rw [slotsOf_take htl, if_neg hne]

theorem cached_spec (h : Inv c s rated U st) {t : Nat} (ht : t < c.numTransforms) {kind : Kind} (hl : Live c kind) {slot rate : Nat} (hs : slot < 4)
    (hh : SlotHolds rated U (slotsOf st t kind) t kind slot rate) {key : Nat} (hkey : key < c.numSamples) :
    ∃ st', cached c st (baseIndex c t kind + slot) key (want c s t kind key rate) = some (st', want c s t kind key rate) ∧ Inv c s rated U st' ∧
      st'.transforms = st.transforms := by
  have htl : t < st.transforms.length := by rw [h.transforms]; exact ht
  obtain ⟨f, hf⟩ : ∃ f, st.transforms[t]? = some f := ⟨_, List.getElem?_eq_getElem htl⟩
  have hslots : slotsOf st t kind = f kind := by unfold slotsOf; rw [hf]
  rw [hslots] at hh
  have hidx := index_lt (c := c) hl ht hs
  generalize hi : baseIndex c t kind + slot = index at hidx
  have hw : (32 * (c.bitsetSize * index) + key) / 32 < st.bits.length := by
    rw [h.bits]
    have := key_word hkey
    have h2 : (32 * (c.bitsetSize * index) + key) / 32 = c.bitsetSize * index + key / 32 := by omega
    rw [h2]
    exact flat_lt hidx (by omega)
  have hd : c.trackSize * index + key < st.data.length := by
    rw [h.data]
    exact flat_lt hidx (key_data hkey)
  unfold cached
  rw [bitsetTest_eq _ _ hw]
  simp only [Option.bind_eq_bind, Option.bind_some]
  by_cases hb : bsBit st.bits (32 * (c.bitsetSize * index) + key) = true
  · have := h.cached t f hf kind hl slot hs rate hh key hkey (by rw [hi]; exact hb)
    rw [hi] at this
    rw [if_pos hb, this]
    exact ⟨st, rfl, h, rfl⟩
  · obtain ⟨m, em, lm, -, bm⟩ := bitsetSet_spec st.bits (32 * (c.bitsetSize * index) + key) true hw
    rw [if_neg hb, if_pos hd, em]
    refine ⟨_, rfl, ?_, rfl⟩
    refine ⟨h.transforms, by rw [← h.bits]; exact lm, by simp [h.data], h.slots, h.used, ?_⟩
    intro t' f' hf' k hlk slot' hs' r hh' key' hkey' hb'
    have hb'' : bsBit m (32 * (c.bitsetSize * (baseIndex c t' k + slot')) + key') = true := hb'
    rw [bm] at hb''
    by_cases he : 32 * (c.bitsetSize * (baseIndex c t' k + slot')) + key' = 32 * (c.bitsetSize * index) + key
    · obtain ⟨e1, rfl⟩ := bit_inj hkey' hkey he
      rw [← hi] at e1
      obtain ⟨rfl, rfl, rfl⟩ := index_inj hlk hl hs' hs e1
      have hf'' : st.transforms[t']? = some f' := hf'
      rw [hf] at hf''
      cases hf''
      rw [hi, hh'.unique hh]
      exact List.getElem?_set_self hd
    · rw [if_neg he] at hb''
      have hold := h.cached t' f' hf' k hlk slot' hs' r hh' key' hkey' hb''
      have hne : c.trackSize * index + key ≠ c.trackSize * (baseIndex c t' k + slot') + key' := by
        intro e
        obtain ⟨e1, e2⟩ := flat_inj (key_data hkey) (key_data hkey') e
        exact he (by rw [e1, e2])
      show (st.data.set _ _)[_]? = _
      rw [List.getElem?_set_ne hne]
      exact hold

end Acl.RateCache
