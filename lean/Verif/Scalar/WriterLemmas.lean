import Verif.Scalar.Writer
import Verif.Core.PackingLemmas
import Mathlib.Tactic.Common
import Mathlib.Tactic.Ring
/-
Lemmas about the scalar writers: where each section puts each value.
-/
namespace Acl.Scalar

/-- Bits per component of a bit rate. -/
def width (r : Nat) : Nat := if r = 24 then 32 else r

theorem numBits_width {r : Nat} (h : r ≤ 24) : getNumBitsAtBitRate r = some (width r) := by
  unfold getNumBitsAtBitRate
  rw [if_pos (show r ≤ kHighestBitRate from h)]
  have : ∀ r, r < 25 → kBitRateNumBits[r]? = some (width r) := by decide
  exact this r (by omega)

theorem isRaw_iff (r : Nat) : isRawBitRate r = decide (r = 24) := by
  unfold isRawBitRate
  rw [show kHighestBitRate = 24 from rfl]
  rfl

/-- Bits of a frame taken by a list of tracks. -/
def bitsOf (t : TrackList) : List Nat → Nat
  | [] => 0
  | i :: rest => (if t.isConstant i then 0 else width (t.bitRate i) * numSampleElements t.trackType) + bitsOf t rest

theorem bitsOf_append (t : TrackList) (a b : List Nat) : bitsOf t (a ++ b) = bitsOf t a + bitsOf t b := by
  induction a with
  | nil => simp [bitsOf]
  | cons i a ih => simp only [List.cons_append, bitsOf, ih]; omega

/-- What the writers expect from the quantizer. -/
structure TrackOk (t : TrackList) (i : Nat) : Prop where
  reference : ∀ s, (t.reference i s).length = numSampleElements t.trackType
  quantized : ∀ s, (t.quantized i s).length = numSampleElements t.trackType
  rangeMin : (t.rangeMin i).length = numSampleElements t.trackType
  rangeExtent : (t.rangeExtent i).length = numSampleElements t.trackType
  bitRate : t.isConstant i = false → 1 ≤ t.bitRate i ∧ t.bitRate i ≤ 24
  fits : t.isConstant i = false → t.bitRate i ≠ 24 → ∀ s, ∀ v ∈ t.quantized i s, v.toNat < 2 ^ t.bitRate i

theorem countFrame_eq (t : TrackList) (l : List Nat) (h : ∀ i ∈ l, TrackOk t i) : countFrame t l = some (bitsOf t l) := by
  induction l with
  | nil => rfl
  | cons i l ih =>
    rw [countFrame, bitsOf, ih fun j hj => h j (List.mem_cons_of_mem _ hj)]
    cases hc : t.isConstant i with
    | true => rw [if_pos rfl, if_pos rfl, Nat.zero_add]
    | false =>
      rw [if_neg (by decide), if_neg (by decide), numBits_width ((h i List.mem_cons_self).bitRate hc).2]
      rfl

theorem countAnimated_eq (t : TrackList) (n : Nat) (h : ∀ i ∈ t.outputIndices, TrackOk t i) :
    countAnimated t n = some (n * bitsOf t t.outputIndices) := by
  induction n with
  | zero => rw [countAnimated, Nat.zero_mul]
  | succ n ih =>
    rw [countAnimated, countFrame_eq t _ h, ih, Option.bind_some, Option.bind_some]
    congr 1; ring

/-- The source of the samples of an animated track. -/
def source (t : TrackList) (i s : Nat) : List (BitVec 32) :=
  if t.bitRate i = 24 then t.reference i s else t.quantized i s

theorem writeComponents_spec (isRaw : Bool) (n : Nat) (hraw : isRaw = true → n = 32) (hn : n ≤ 32) (vs : List (BitVec 32)) :
    ∀ (buf : List (BitVec 8)) (bit : Nat), bit + n * vs.length ≤ 8 * buf.length →
    ∃ r, writeComponents isRaw n vs buf bit = some (r, bit + n * vs.length) ∧ r.length = buf.length ∧
      (∀ i, ¬ (bit ≤ i ∧ i < bit + n * vs.length) → bufBit r i = bufBit buf i) ∧
      ∀ k (hk : k < vs.length), Holds r (bit + n * k) n vs[k] := by
  induction vs with
  | nil =>
    intro buf bit _
    exact ⟨buf, rfl, rfl, fun _ _ => rfl, fun k hk => absurd hk (by simp)⟩
  | cons v vs ih =>
    intro buf bit hb
    have hlen : n * (v :: vs).length = n * vs.length + n := by rw [List.length_cons, Nat.mul_succ]
    rw [hlen] at hb ⊢
    rw [writeComponents]
    generalize hval : (if isRaw then byteSwap32 v else byteSwap32 (v <<< (32 - n))) = value
    obtain ⟨r, e, l, b⟩ := memcpyBits_spec n buf bit (bytesLE value) 0 (by omega) (by rw [bytesLE_length]; omega)
    have hv : Holds r bit n v := by
      intro j hj
      rw [b, if_pos (by omega), ← hval]
      cases isRaw with
      | true =>
        have := hraw rfl
        subst this
        rw [if_pos rfl, bytesBE32_bit _ _ (by omega)]
        congr 1; omega
      | false =>
        rw [if_neg (by decide), bytesBE32_bit _ _ (by omega), show 31 - (bit + j - bit + 0) = 31 - j by omega,
          field32 hn hj]
    obtain ⟨r2, e2, l2, out2, h2⟩ := ih r (bit + n) (by omega)
    refine ⟨r2, ?_, by omega, ?_, ?_⟩
    · rw [e, Option.bind_some, e2]
      congr 2; omega
    · intro i hi
      rw [out2 i (by omega), b, if_neg (by omega)]
    · intro k hk
      cases k with
      | zero =>
        intro j hj
        rw [Nat.mul_zero, Nat.add_zero, out2 _ (by omega)]
        exact hv j hj
      | succ k =>
        have := h2 k (by simpa using hk)
        rw [show bit + n * (k + 1) = bit + n + n * k by rw [Nat.mul_succ]; omega]
        exact this

theorem source_length {t : TrackList} {i : Nat} (h : TrackOk t i) (s : Nat) :
    (source t i s).length = numSampleElements t.trackType := by
  unfold source
  split
  · exact h.reference s
  · exact h.quantized s

theorem writeFrame_spec (t : TrackList) (s : Nat) (l : List Nat) (h : ∀ i ∈ l, TrackOk t i) :
    ∀ (buf : List (BitVec 8)) (bit : Nat), bit + bitsOf t l ≤ 8 * buf.length →
    ∃ r, writeFrame t s l buf bit = some (r, bit + bitsOf t l) ∧ r.length = buf.length ∧
      (∀ x, ¬ (bit ≤ x ∧ x < bit + bitsOf t l) → bufBit r x = bufBit buf x) ∧
      ∀ pre i post, l = pre ++ i :: post → t.isConstant i = false → ∀ k (hk : k < (source t i s).length),
        Holds r (bit + bitsOf t pre + width (t.bitRate i) * k) (width (t.bitRate i)) (source t i s)[k] := by
  induction l with
  | nil =>
    intro buf bit _
    exact ⟨buf, rfl, rfl, fun _ _ => rfl, fun pre i post e => absurd e (by simp)⟩
  | cons j l ih =>
    intro buf bit hb
    have hl := fun i hi => h i (List.mem_cons_of_mem j hi)
    have hj := h j List.mem_cons_self
    rw [writeFrame]
    cases hc : t.isConstant j with
    | true =>
      have eb : bitsOf t (j :: l) = bitsOf t l := by rw [bitsOf, hc, if_pos rfl, Nat.zero_add]
      rw [eb] at hb ⊢
      rw [if_pos rfl]
      obtain ⟨r, e, len, out, hold⟩ := ih hl buf bit hb
      refine ⟨r, e, len, out, ?_⟩
      intro pre i post hsplit hi k hk
      cases pre with
      | nil =>
        rw [List.nil_append] at hsplit
        rw [← (List.cons.inj hsplit).1, hc] at hi; cases hi
      | cons p pre =>
        obtain ⟨rfl, h2⟩ := List.cons.inj hsplit
        have := hold pre i post h2 hi k hk
        rwa [bitsOf, hc, if_pos rfl, Nat.zero_add]
    | false =>
      have eb : bitsOf t (j :: l) = width (t.bitRate j) * numSampleElements t.trackType + bitsOf t l := by
        rw [bitsOf, hc, if_neg (by decide)]
      rw [eb] at hb ⊢
      rw [if_neg (by decide), numBits_width (hj.bitRate hc).2, Option.bind_some]
      have hsrc : (if isRawBitRate (t.bitRate j) then t.reference j s else t.quantized j s) = source t j s := by
        unfold source
        rw [isRaw_iff]
        by_cases h24 : t.bitRate j = 24
        · rw [if_pos h24, if_pos (by simpa using h24)]
        · rw [if_neg h24, if_neg (by simpa using h24)]
      dsimp only
      rw [hsrc]
      have hlen := source_length hj s
      have hw : width (t.bitRate j) ≤ 32 := by have := (hj.bitRate hc).2; unfold width; split <;> omega
      obtain ⟨r, e, len, out, hold⟩ := writeComponents_spec (isRawBitRate (t.bitRate j)) (width (t.bitRate j))
        (by rw [isRaw_iff]; intro h24; unfold width; rw [if_pos (by simpa using h24)]) hw (source t j s) buf bit
        (by rw [hlen]; omega)
      rw [hlen] at e out
      rw [e, Option.bind_some]
      obtain ⟨r2, e2, len2, out2, hold2⟩ := ih hl r (bit + width (t.bitRate j) * numSampleElements t.trackType) (by omega)
      refine ⟨r2, ?_, by omega, ?_, ?_⟩
      · dsimp only; rw [e2]; congr 2; omega
      · intro x hx; rw [out2 x (by omega), out x (by omega)]
      · intro pre i post hsplit hi k hk
        cases pre with
        | nil =>
          rw [List.nil_append] at hsplit
          obtain ⟨rfl, _⟩ := List.cons.inj hsplit
          intro x hx
          have hk' := hk
          rw [hlen] at hk'
          have hmul : width (t.bitRate j) * k + width (t.bitRate j) ≤ width (t.bitRate j) * numSampleElements t.trackType := by
            rw [← Nat.mul_succ]; exact Nat.mul_le_mul_left _ hk'
          rw [bitsOf, Nat.add_zero, out2 _ (by omega)]
          exact hold k hk x hx
        | cons p pre =>
          obtain ⟨rfl, h2⟩ := List.cons.inj hsplit
          have := hold2 pre i post h2 hi k hk
          rw [bitsOf, hc, if_neg (by decide), ← Nat.add_assoc]
          exact this

theorem writeFrames_spec (t : TrackList) (h : ∀ i ∈ t.outputIndices, TrackOk t i) (left : Nat) :
    ∀ (s : Nat) (buf : List (BitVec 8)) (bit : Nat), bit + left * bitsOf t t.outputIndices ≤ 8 * buf.length →
    ∃ r last, writeFrames t left s buf bit = some (r, last) ∧ r.length = buf.length ∧
      (∀ x, ¬ (bit ≤ x ∧ x < bit + left * bitsOf t t.outputIndices) → bufBit r x = bufBit buf x) ∧
      ∀ f, f < left → ∀ pre i post, t.outputIndices = pre ++ i :: post → t.isConstant i = false →
        ∀ k (hk : k < (source t i (s + f)).length),
        Holds r (bit + f * bitsOf t t.outputIndices + bitsOf t pre + width (t.bitRate i) * k) (width (t.bitRate i)) (source t i (s + f))[k] := by
  induction left with
  | zero =>
    intro s buf bit _
    exact ⟨buf, bit, rfl, rfl, fun _ _ => rfl, fun f hf => absurd hf (by omega)⟩
  | succ left ih =>
    intro s buf bit hb
    have em : (left + 1) * bitsOf t t.outputIndices = bitsOf t t.outputIndices + left * bitsOf t t.outputIndices := by ring
    rw [em] at hb ⊢
    rw [writeFrames]
    obtain ⟨r, e, len, out, hold⟩ := writeFrame_spec t s t.outputIndices h buf bit (by omega)
    rw [e, Option.bind_some]
    obtain ⟨r2, last, e2, len2, out2, hold2⟩ := ih (s + 1) r (bit + bitsOf t t.outputIndices) (by omega)
    refine ⟨r2, last, e2, by omega, ?_, ?_⟩
    · intro x hx; rw [out2 x (by omega), out x (by omega)]
    · intro f hf pre i post hsplit hi
      cases f with
      | zero =>
        intro k hk x hx
        have ok := h i (by rw [hsplit]; simp)
        have hlen := source_length ok s
        have hk' : k < numSampleElements t.trackType := by rw [← hlen]; exact hk
        have hmul : width (t.bitRate i) * k + width (t.bitRate i) ≤ width (t.bitRate i) * numSampleElements t.trackType := by
          rw [← Nat.mul_succ]; exact Nat.mul_le_mul_left _ hk'
        have htot : bitsOf t t.outputIndices = bitsOf t pre + (width (t.bitRate i) * numSampleElements t.trackType + bitsOf t post) := by
          conv_lhs => rw [hsplit, bitsOf_append, bitsOf, hi, if_neg (by decide)]
        rw [Nat.zero_mul, Nat.add_zero, out2 _ (by omega)]
        exact hold pre i post hsplit hi k hk x hx
      | succ f =>
        have e3 : s + (f + 1) = s + 1 + f := by omega
        rw [e3]
        intro k hk
        have := hold2 f (by omega) pre i post hsplit hi k hk
        rw [show bit + (f + 1) * bitsOf t t.outputIndices = bit + bitsOf t t.outputIndices + f * bitsOf t t.outputIndices by ring]
        exact this

/-! ### Floats -/

theorem floatsBytes_length (v : List (BitVec 32)) : (floatsBytes v).length = 4 * v.length := by
  unfold floatsBytes
  induction v with
  | nil => rfl
  | cons a v ih => rw [List.flatMap_cons, List.length_append, ih, bytesLE_length, List.length_cons]; omega

theorem loadLE32_some (m : List (BitVec 8)) (k : Nat) (h : k + 4 ≤ m.length) : ∃ v, loadLE32 m k = some v := by
  obtain ⟨v, e, _⟩ := loadLE32_bit m k h
  exact ⟨v, e⟩

theorem loadLE32_at (v : BitVec 32) (pre post : List (BitVec 8)) (p : Nat) (hp : p = pre.length) :
    loadLE32 (pre ++ (bytesLE v ++ post)) p = some v := by
  subst hp
  obtain ⟨r, e, b⟩ := loadLE32_bit (pre ++ (bytesLE v ++ post)) pre.length
    (by rw [List.length_append, List.length_append, bytesLE_length]; omega)
  rw [e]
  congr 1
  apply BitVec.eq_of_getLsbD_eq
  intro i hi
  rw [b i hi]
  have hbuf : bufBit (pre ++ (bytesLE v ++ post)) (8 * pre.length + (8 * (i / 8) + (7 - i % 8))) =
      bufBit (bytesLE v) (8 * (i / 8) + (7 - i % 8)) := by
    unfold bufBit
    rw [List.getD_eq_getElem?_getD, List.getD_eq_getElem?_getD,
      List.getElem?_append_right (by omega), List.getElem?_append_left (by rw [bytesLE_length]; omega)]
    rw [show (8 * pre.length + (8 * (i / 8) + (7 - i % 8))) / 8 - pre.length = (8 * (i / 8) + (7 - i % 8)) / 8 by omega,
      show (8 * pre.length + (8 * (i / 8) + (7 - i % 8))) % 8 = (8 * (i / 8) + (7 - i % 8)) % 8 by omega]
  rw [hbuf, bytesLE_bit _ _ (by omega)]
  congr 1; omega

/-- Loading back what was written, when 12 bytes follow. -/
theorem loadFloats_at (c : Nat) (v : List (BitVec 32)) (hv : v.length = c) (h1 : 1 ≤ c) (h4 : c ≤ 4)
    (pre post : List (BitVec 8)) (p : Nat) (hp : p = pre.length) (hpost : 12 ≤ post.length) :
    loadFloats c (pre ++ (floatsBytes v ++ post)) p = some v := by
  have at_ : ∀ (a : List (BitVec 32)) (x : BitVec 32) (b : List (BitVec 32)), v = a ++ x :: b →
      loadLE32 (pre ++ (floatsBytes v ++ post)) (p + 4 * a.length) = some x := by
    intro a x b e
    rw [e]
    have : pre ++ (floatsBytes (a ++ x :: b) ++ post) = (pre ++ floatsBytes a) ++ (bytesLE x ++ (floatsBytes b ++ post)) := by
      unfold floatsBytes
      simp [List.flatMap_append, List.append_assoc]
    rw [this]
    apply loadLE32_at
    rw [List.length_append, floatsBytes_length, hp]
  have any : ∀ k, k < 4 → ∃ y, loadLE32 (pre ++ (floatsBytes v ++ post)) (p + 4 * k) = some y := by
    intro k hk
    apply loadLE32_some
    rw [List.length_append, List.length_append, floatsBytes_length, hp]
    omega
  unfold loadFloats
  match v, hv, at_, any with
  | [x], hv, at_, _ =>
    have : c = 1 := by simpa using hv.symm
    subst this
    rw [if_pos rfl]
    have := at_ [] x [] rfl
    rw [List.length_nil, Nat.mul_zero, Nat.add_zero] at this
    rw [this]; rfl
  | [x, y], hv, at_, any =>
    have : c = 2 := by simpa using hv.symm
    subst this
    rw [if_neg (by decide)]
    obtain ⟨z, hz⟩ := any 2 (by omega)
    obtain ⟨w, hw⟩ := any 3 (by omega)
    have e0 := at_ [] x [y] rfl
    have e1 := at_ [x] y [] rfl
    simp only [List.length_nil, List.length_cons, Nat.zero_add] at e0 e1
    rw [e0, e1, hz, hw]; rfl
  | [x, y, z], hv, at_, any =>
    have : c = 3 := by simpa using hv.symm
    subst this
    rw [if_neg (by decide)]
    obtain ⟨w, hw⟩ := any 3 (by omega)
    have e0 := at_ [] x [y, z] rfl
    have e1 := at_ [x] y [z] rfl
    have e2 := at_ [x, y] z [] rfl
    simp only [List.length_nil, List.length_cons, Nat.zero_add] at e0 e1 e2
    rw [e0, e1, e2, hw]; rfl
  | [x, y, z, w], hv, at_, any =>
    have : c = 4 := by simpa using hv.symm
    subst this
    rw [if_neg (by decide)]
    have e0 := at_ [] x [y, z, w] rfl
    have e1 := at_ [x] y [z, w] rfl
    have e2 := at_ [x, y] z [w] rfl
    have e3 := at_ [x, y, z] w [] rfl
    simp only [List.length_nil, List.length_cons, Nat.zero_add] at e0 e1 e2 e3
    rw [e0, e1, e2, e3]; rfl
  | [], hv, _, _ => simp at hv; omega
  | _ :: _ :: _ :: _ :: _ :: _, hv, _, _ => simp at hv; omega

theorem elements_range (t : TrackType) : 1 ≤ numSampleElements t ∧ numSampleElements t ≤ 4 := by
  cases t <;> decide

/-! ### Reading samples back -/

theorem Holds_append {m : List (BitVec 8)} {off n : Nat} {v : BitVec 32} (h : Holds m off n v) (post : List (BitVec 8))
    (hb : off + n ≤ 8 * m.length) : Holds (m ++ post) off n v := by
  intro j hj
  rw [bufBit_append_left _ _ _ (by omega)]
  exact h j hj

theorem readRawFrom_holds (m : List (BitVec 8)) (bit : Nat) (vs : List (BitVec 32)) : ∀ i,
    bit / 8 + 4 * (i + vs.length) + 4 ≤ m.length →
    (∀ k (hk : k < vs.length), Holds m (bit + 32 * (i + k)) 32 vs[k]) →
    readRawFrom m bit vs.length i = some vs := by
  induction vs with
  | nil => intro i _ _; rfl
  | cons v vs ih =>
    intro i hb h
    rw [List.length_cons] at hb ⊢
    rw [readRawFrom, readRaw_holds (v := v) (by omega) (by have := h 0 (by simp); rwa [Nat.add_zero] at this), Option.bind_some,
      ih (i + 1) (by omega) ?_]
    · rfl
    · intro k hk
      have := h (k + 1) (by simpa using hk)
      rw [show i + 1 + k = i + (k + 1) by omega]
      exact this

theorem readQuantized_holds (c n : Nat) (m : List (BitVec 8)) (bit : Nat) (vs : List (BitVec 32)) (hv : vs.length = c)
    (hc1 : 1 ≤ c) (hc4 : c ≤ 4) (h1 : 1 ≤ n) (h23 : n ≤ 23) (hb : (bit + n * (c - 1)) / 8 + 4 ≤ m.length)
    (hfit : ∀ v ∈ vs, v.toNat < 2 ^ n) (h : ∀ k (hk : k < vs.length), Holds m (bit + n * k) n vs[k]) :
    readQuantized c n m bit = some vs := by
  match vs, hv with
  | [x], hv =>
    have : c = 1 := by simpa using hv.symm
    subst this
    have e0 := readComponent_holds (m := m) (v := x) (off := bit) h1 h23 (by omega) (hfit x (by simp)) (h 0 (by simp))
    rw [readQuantized, unpackScalar, e0]; rfl
  | [x, y], hv =>
    have : c = 2 := by simpa using hv.symm
    subst this
    have e0 := readComponent_holds (m := m) (v := x) (off := bit) h1 h23 (by omega) (hfit x (by simp)) (h 0 (by simp))
    have e1 := readComponent_holds (m := m) (v := y) (off := bit + n) h1 h23 (by omega) (hfit y (by simp))
      (by have := h 1 (by simp); rw [Nat.mul_one] at this; exact this)
    rw [readQuantized, unpackVector2, e0, Option.bind_some]; dsimp only; rw [e1]; rfl
  | [x, y, z], hv =>
    have : c = 3 := by simpa using hv.symm
    subst this
    have e0 := readComponent_holds (m := m) (v := x) (off := bit) h1 h23 (by omega) (hfit x (by simp)) (h 0 (by simp))
    have e1 := readComponent_holds (m := m) (v := y) (off := bit + n) h1 h23 (by omega) (hfit y (by simp))
      (by have := h 1 (by simp); rw [Nat.mul_one] at this; exact this)
    have e2 := readComponent_holds (m := m) (v := z) (off := bit + n + n) h1 h23 (by omega) (hfit z (by simp))
      (by have := h 2 (by simp); rw [Nat.mul_two, ← Nat.add_assoc] at this; exact this)
    rw [readQuantized, unpackVector3, e0, Option.bind_some]; dsimp only; rw [e1, Option.bind_some, e2]; rfl
  | [x, y, z, w], hv =>
    have : c = 4 := by simpa using hv.symm
    subst this
    have e0 := readComponent_holds (m := m) (v := x) (off := bit) h1 h23 (by omega) (hfit x (by simp)) (h 0 (by simp))
    have e1 := readComponent_holds (m := m) (v := y) (off := bit + n) h1 h23 (by omega) (hfit y (by simp))
      (by have := h 1 (by simp); rw [Nat.mul_one] at this; exact this)
    have e2 := readComponent_holds (m := m) (v := z) (off := bit + n + n) h1 h23 (by omega) (hfit z (by simp))
      (by have := h 2 (by simp); rw [Nat.mul_two, ← Nat.add_assoc] at this; exact this)
    have e3 := readComponent_holds (m := m) (v := w) (off := bit + n + n + n) h1 h23 (by omega) (hfit w (by simp))
      (by have := h 3 (by simp); rw [show n * 3 = n + n + n by omega, ← Nat.add_assoc, ← Nat.add_assoc] at this; exact this)
    rw [readQuantized]
    · rw [unpackVector4, e0, Option.bind_some]; dsimp only; rw [e1, Option.bind_some, e2, Option.bind_some, e3]; rfl
    · nofun
    · nofun
    · nofun
  | [], hv => simp at hv; omega
  | _ :: _ :: _ :: _ :: _ :: _, hv => simp at hv; omega

end Acl.Scalar
