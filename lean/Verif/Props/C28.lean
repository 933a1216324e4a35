import Verif.Layout.Headers
/-!
C28: the flags and formats packed in the compressed tracks header do not interfere.
-/
namespace Acl.C28
open Acl.Headers

/-- The logical fields of the header word. -/
inductive Field where
  | hasScale | defaultScale | scaleFormat | translationFormat | rotationFormat | hasDatabase
  | trivialDefaults | strippedKeyframes | wrapOptimized | hasMetadata
  deriving DecidableEq, Repr

/-- Number of values the field can take (flags and 1 bit formats 2, the rotation format 16). -/
def Field.card : Field → Nat
  | .rotationFormat => 16
  | _ => 2

/-- The field as read by the accessors of the library, as a number. -/
def read (m : BitVec 32) : Field → Nat
  | .hasScale => (getHasScale m).toNat
  | .defaultScale => (getDefaultScale m).toNat
  | .scaleFormat => (getScaleFormat m).toNat
  | .translationFormat => (getTranslationFormat m).toNat
  | .rotationFormat => (getRotationFormat m).toNat
  | .hasDatabase => (getHasDatabase m).toNat
  | .trivialDefaults => (getHasTrivialDefaultValues m).toNat
  | .strippedKeyframes => (getHasStrippedKeyframes m).toNat
  | .wrapOptimized => (getIsWrapOptimized m).toNat
  | .hasMetadata => (getHasMetadata m).toNat

/-- The field as written by the accessors of the library. -/
def write (m : BitVec 32) (v : Nat) : Field → BitVec 32
  | .hasScale => setHasScale m (v == 1)
  | .defaultScale => setDefaultScale m (BitVec.ofNat 32 v)
  | .scaleFormat => setScaleFormat m (BitVec.ofNat 32 v)
  | .translationFormat => setTranslationFormat m (BitVec.ofNat 32 v)
  | .rotationFormat => setRotationFormat m (BitVec.ofNat 32 v)
  | .hasDatabase => setHasDatabase m (v == 1)
  | .trivialDefaults => setHasTrivialDefaultValues m (v == 1)
  | .strippedKeyframes => setHasStrippedKeyframes m (v == 1)
  | .wrapOptimized => setIsWrapOptimized m (v == 1)
  | .hasMetadata => setHasMetadata m (v == 1)

def pos : Field → Nat
  | .hasScale => 0 | .defaultScale => 1 | .scaleFormat => 2 | .translationFormat => 3 | .rotationFormat => 4
  | .hasDatabase => 8 | .trivialDefaults => 9 | .strippedKeyframes => 10 | .wrapOptimized => 30 | .hasMetadata => 31

def width : Field → Nat
  | .rotationFormat => 4
  | _ => 1

theorem flag_ne (m : BitVec 32) (p : Nat) (hp : p < 32) :
    ((m &&& (1#32 <<< p)) != 0) = m.getLsbD p := by
  rw [Bool.eq_iff_iff, bne_iff_ne]
  constructor
  · intro h
    apply Classical.byContradiction
    intro hb
    apply h
    apply BitVec.eq_of_getLsbD_eq
    intro i hi
    rw [BitVec.getLsbD_and, BitVec.getLsbD_shiftLeft, BitVec.getLsbD_one]
    by_cases hip : i = p
    · subst hip; simp [hb]
    · have : ¬ (¬ i < p ∧ i - p = 0) := by omega
      simp
      intro _ _ _; omega
  · intro h h0
    have := congrArg (fun x => x.getLsbD p) h0
    simp [hp] at this
    rw [BitVec.getLsbD_eq_getElem hp] at h
    rw [h] at this; simp at this

theorem toNat_flag (m : BitVec 32) (p : Nat) (_hp : p < 32) :
    (m.getLsbD p).toNat = m.toNat / 2 ^ p % 2 := by
  rw [BitVec.getLsbD, Nat.testBit_eq_decide_div_mod_eq]
  have := Nat.mod_two_eq_zero_or_one (m.toNat / 2 ^ p)
  rcases this with h | h <;> simp [h]

/-- Reading is extracting the bits of the field. -/
theorem read_eq (m : BitVec 32) (f : Field) : read m f = m.toNat / 2 ^ pos f % 2 ^ width f := by
  cases f <;> simp only [read, pos, width]
  · have := flag_ne m 0 (by omega)
    simp only [getHasScale]
    rw [show (1 : BitVec 32) = 1#32 <<< 0 by decide, this, toNat_flag m 0 (by omega)]
  · simp only [getDefaultScale, BitVec.toNat_and, BitVec.toNat_ushiftRight, Nat.shiftRight_eq_div_pow]
    exact Nat.and_two_pow_sub_one_eq_mod (n := 1) _
  · simp only [getScaleFormat, BitVec.toNat_and, BitVec.toNat_ushiftRight, Nat.shiftRight_eq_div_pow]
    exact Nat.and_two_pow_sub_one_eq_mod (n := 1) _
  · simp only [getTranslationFormat, BitVec.toNat_and, BitVec.toNat_ushiftRight, Nat.shiftRight_eq_div_pow]
    exact Nat.and_two_pow_sub_one_eq_mod (n := 1) _
  · simp only [getRotationFormat, BitVec.toNat_and, BitVec.toNat_ushiftRight, Nat.shiftRight_eq_div_pow]
    exact Nat.and_two_pow_sub_one_eq_mod (n := 4) _
  · rw [getHasDatabase]
    exact (congrArg Bool.toNat (flag_ne m 8 (by omega))).trans (toNat_flag m 8 (by omega))
  · rw [getHasTrivialDefaultValues]
    exact (congrArg Bool.toNat (flag_ne m 9 (by omega))).trans (toNat_flag m 9 (by omega))
  · rw [getHasStrippedKeyframes]
    exact (congrArg Bool.toNat (flag_ne m 10 (by omega))).trans (toNat_flag m 10 (by omega))
  · rw [getIsWrapOptimized]
    exact (congrArg Bool.toNat (flag_ne m 30 (by omega))).trans (toNat_flag m 30 (by omega))
  · have hlt : m.toNat < 2 ^ 32 := m.isLt
    have hn : (m >>> 31).toNat = m.toNat / 2 ^ 31 := by
      rw [BitVec.toNat_ushiftRight, Nat.shiftRight_eq_div_pow]
    unfold getHasMetadata
    by_cases h : m >>> 31 = 0
    · rw [h] at hn
      simp at hn
      simp [h]
      omega
    · have h0 : (m >>> 31).toNat ≠ 0 := fun hc => h (BitVec.eq_of_toNat_eq (by simpa using hc))
      have : ((m >>> 31) != 0) = true := by rw [bne_iff_ne]; exact h
      rw [this]
      simp; omega

/-- Generic masked write. -/
theorem write_eq (m : BitVec 32) (v : Nat) (f : Field) (hv : v < f.card) :
    write m v f = (m &&& ~~~(BitVec.ofNat 32 (2 ^ width f - 1) <<< pos f)) ||| (BitVec.ofNat 32 v <<< pos f) := by
  have hb : f.card = 2 → (if (v == 1) = true then (1 : BitVec 32) else 0) = BitVec.ofNat 32 v := by
    intro h
    have : v = 0 ∨ v = 1 := by omega
    rcases this with rfl | rfl <;> rfl
  cases f <;> simp only [write, pos, width]
  · simp only [setHasScale]
    rw [hb rfl]
    simp
  · rfl
  · rfl
  · rfl
  · rfl
  all_goals
    simp only [setHasDatabase, setHasTrivialDefaultValues, setHasStrippedKeyframes, setIsWrapOptimized, setHasMetadata]
    have := hb rfl
    simp only [BitVec.ofNat_eq_ofNat] at this ⊢
    rw [this]

theorem write_bit (m : BitVec 32) (v : Nat) (f : Field) (hv : v < f.card) (i : Nat) (hi : i < 32) :
    (write m v f).getLsbD i =
      if pos f ≤ i ∧ i < pos f + width f then v.testBit (i - pos f) else m.getLsbD i := by
  rw [write_eq m v f hv]
  rw [BitVec.getLsbD_or, BitVec.getLsbD_and, BitVec.getLsbD_not, BitVec.getLsbD_shiftLeft, BitVec.getLsbD_shiftLeft,
    BitVec.getLsbD_ofNat, BitVec.getLsbD_ofNat]
  have hmask : ∀ j, (2 ^ width f - 1).testBit j = decide (j < width f) := fun j => Nat.testBit_two_pow_sub_one _ _
  have hw : v < 2 ^ width f := by cases f <;> simp [Field.card, width] at hv ⊢ <;> omega
  rw [hmask]
  by_cases h1 : pos f ≤ i
  · by_cases h2 : i < pos f + width f
    · have h3 : i - pos f < width f := by omega
      have h4 : i - pos f < 32 := by omega
      simp [h1, h2, h3, h4, hi, Nat.not_lt.mpr h1]
    · have h3 : ¬ i - pos f < width f := by omega
      have h5 : v.testBit (i - pos f) = false := by
        apply Nat.testBit_lt_two_pow
        exact Nat.lt_of_lt_of_le hw (Nat.pow_le_pow_right (by omega) (by omega))
      simp [h1, h2, h3, h5, hi]
  · have h3 : i < pos f := by omega
    simp [h1, h3, hi]

theorem read_bit (m : BitVec 32) (f : Field) (j : Nat) :
    (read m f).testBit j = (decide (j < width f) && m.getLsbD (pos f + j)) := by
  rw [read_eq, Nat.testBit_mod_two_pow, Nat.testBit_div_two_pow, BitVec.getLsbD, Nat.add_comm]

/-- Whatever the header word contains, a written flag or format is read back unchanged. -/
theorem C28_read_own (m : BitVec 32) (f : Field) (v : Nat) (hv : v < f.card) : read (write m v f) f = v := by
  apply Nat.eq_of_testBit_eq
  intro j
  rw [read_bit]
  have hw : v < 2 ^ width f := by cases f <;> simp [Field.card, width] at hv ⊢ <;> omega
  have hpw : pos f + width f ≤ 32 := by cases f <;> decide
  by_cases hj : j < width f
  · rw [write_bit m v f hv _ (by omega)]
    simp [hj]
  · have : v.testBit j = false := by
      apply Nat.testBit_lt_two_pow
      exact Nat.lt_of_lt_of_le hw (Nat.pow_le_pow_right (by omega) (by omega))
    simp [hj, this]

/-- and every other flag or format keeps its value. -/
theorem C28_read_other (m : BitVec 32) (f g : Field) (hfg : g ≠ f) (v : Nat) (hv : v < f.card) :
    read (write m v f) g = read m g := by
  apply Nat.eq_of_testBit_eq
  intro j
  rw [read_bit, read_bit]
  by_cases hj : j < width g
  · have hpw : pos g + width g ≤ 32 := by cases g <;> decide
    rw [write_bit m v f hv _ (by omega)]
    have hdis : pos g + width g ≤ pos f ∨ pos f + width f ≤ pos g := by
      revert hfg; cases f <;> cases g <;> decide
    rw [if_neg (by omega)]
  · simp [hj]

/-- Reading never yields a value outside the range of the field. -/
theorem C28_read_in_range (m : BitVec 32) (f : Field) : read m f < f.card := by
  rw [read_eq]
  have : f.card = 2 ^ width f := by cases f <;> rfl
  rw [this]
  exact Nat.mod_lt _ (Nat.two_pow_pos _)

/-- After any sequence of writes, each field holds the last value written to it, or its initial value. -/
theorem C28_last_write_wins (ws : List (Field × Nat)) (hws : ∀ w ∈ ws, w.2 < w.1.card) (m : BitVec 32) (g : Field) :
    read (ws.foldl (fun m w => write m w.2 w.1) m) g =
      ((ws.filter (fun w => w.1 == g)).getLast?.map (·.2)).getD (read m g) := by
  induction ws generalizing m with
  | nil => simp
  | cons w ws ih =>
    rw [List.foldl_cons, ih (fun x hx => hws x (by simp [hx]))]
    by_cases h : w.1 = g
    · have hb : (w.1 == g) = true := by simp [h]
      rw [List.filter_cons, if_pos hb, List.getLast?_cons]
      have := C28_read_own m g w.2 (by rw [← h]; exact hws w (by simp))
      rw [h, this]
      cases (ws.filter (fun w => w.1 == g)).getLast? <;> simp
    · have hb : (w.1 == g) = false := by simp [h]
      rw [List.filter_cons, hb]
      simp only [Bool.false_eq_true, if_false]
      rw [C28_read_other m w.1 g (fun hc => h hc.symm) w.2 (hws w (by simp))]

/-- The flag of the database header. -/
theorem C28_database_inline_flag (m : BitVec 16) (v : Bool) :
    getIsBulkDataInline (setIsBulkDataInline m v) = v := by
  unfold getIsBulkDataInline setIsBulkDataInline
  rw [Bool.eq_iff_iff, bne_iff_ne]
  have h : (((m &&& ~~~1) ||| (if v then 1 else 0)) &&& 1 : BitVec 16) = (if v then 1 else 0) := by
    apply BitVec.eq_of_getLsbD_eq
    intro i hi
    simp only [BitVec.getLsbD_and, BitVec.getLsbD_or, BitVec.getLsbD_not]
    cases v <;> by_cases h0 : i = 0 <;> simp [h0]
  rw [h]
  cases v <;> decide

/-- A concrete non trivial word. -/
example : read (write 0xFFFFFFFF 3 .rotationFormat) .rotationFormat = 3 ∧
    read (write 0xFFFFFFFF 3 .rotationFormat) .hasDatabase = 1 := by decide

end Acl.C28
