import Verif.Core.BitRates
import Mathlib.Tactic.Common
/-!
C45: the bit rate tables and the conversions of the compressor and the decompressor agree.
-/
namespace Acl.C45

/-- Specification: what a bit rate means. -/
inductive Meaning where
  | constant | quantized (bits : Nat) | raw
  deriving DecidableEq

/-- Specification: the 25 bit rates of ACL 2.1: constant, 1 to 23 bits, raw. -/
def meaning (r : Nat) : Option Meaning :=
  if r = 0 then some .constant else if r ≤ 23 then some (.quantized r) else if r = 24 then some .raw else none

/-- Specification: bits per component. -/
def Meaning.bits : Meaning → Nat
  | .constant => 0 | .quantized n => n | .raw => 32

/-- How the transform decoder reads the format byte of a sub-track of a current clip
(animated_track_cache.transform.h:545-580: 0 is constant, 31 raw, anything else a width). -/
def decodeFormat (b : BitVec 8) : Meaning :=
  if b.toNat = 0 then .constant else if b.toNat = 31 then .raw else .quantized b.toNat

/-- How the scalar decoder reads a bit rate through a table (decompression.scalar.h:276-300: 0 bits is constant,
32 raw, anything else a width); `none` for the assert. -/
def decodeScalar (isV2_0 : Bool) (r : Nat) : Option Meaning :=
  (scalarBitRateTable isV2_0)[r]?.map fun n => if n = 0 then .constant else if n = 32 then .raw else .quantized n

theorem below {P : Nat → Prop} (h : ∀ r, r < 25 → P r) (h' : ∀ r, 25 ≤ r → P r) (r : Nat) : P r := by
  by_cases hr : r < 25
  · exact h r hr
  · exact h' r (by omega)

/-- **C45.** `get_num_bits_at_bit_rate` gives the width of every bit rate and rejects anything else. -/
theorem C45_num_bits (r : Nat) : getNumBitsAtBitRate r = (meaning r).map Meaning.bits := by
  refine below (P := fun r => getNumBitsAtBitRate r = (meaning r).map Meaning.bits) (by decide) ?_ r
  intro r hr
  unfold getNumBitsAtBitRate meaning
  rw [if_neg (by show ¬ r ≤ 24; omega), if_neg (by omega), if_neg (by omega), if_neg (by omega)]
  rfl

/-- **C45.** The tests for the constant and the raw bit rate are exact. -/
theorem C45_tests (r : Nat) : (isConstantBitRate r = true ↔ meaning r = some .constant) ∧
    (isRawBitRate r = true ↔ meaning r = some .raw) := by
  refine below (P := fun r => (isConstantBitRate r = true ↔ meaning r = some .constant) ∧
    (isRawBitRate r = true ↔ meaning r = some .raw)) (by decide) ?_ r
  intro r hr
  have hm : meaning r = none := by
    unfold meaning
    rw [if_neg (by omega), if_neg (by omega), if_neg (by omega)]
  have h24 : ¬ r = kHighestBitRate := by show ¬ r = 24; omega
  have h0 : ¬ r = 0 := by omega
  constructor
  · simp [isConstantBitRate, hm, h0]
  · simp [isRawBitRate, hm, h24]

/-- **C45.** Precision strictly increases with the bit rate, in both tables. -/
theorem C45_monotone (isV2_0 : Bool) (a b x y : Nat) (hab : a < b) (ha : (scalarBitRateTable isV2_0)[a]? = some x)
    (hb : (scalarBitRateTable isV2_0)[b]? = some y) : x < y := by
  have key : ∀ v : Bool, (scalarBitRateTable v).Pairwise (· < ·) := by decide
  obtain ⟨h1, e1⟩ := List.getElem?_eq_some_iff.1 ha
  obtain ⟨h2, e2⟩ := List.getElem?_eq_some_iff.1 hb
  rw [← e1, ← e2]
  exact List.pairwise_iff_getElem.1 (key isV2_0) a b h1 h2 hab

/-- **C45.** The transform decoder reads from the format byte the compressor writes the meaning of the bit rate. -/
theorem C45_format_byte (r : Nat) (b : BitVec 8) (h : formatByte r = some b) : meaning r = some (decodeFormat b) := by
  have key : ∀ r, r < 25 → (formatByte r).map decodeFormat = meaning r := by decide
  have hr : r < 25 := by
    unfold formatByte getNumBitsAtBitRate at h
    by_cases hr : r ≤ kHighestBitRate
    · exact Nat.lt_succ_of_le hr
    · rw [if_neg hr] at h; cases h
  rw [← key r hr, h]
  rfl

/-- **C45.** Every bit rate has a format byte. -/
theorem C45_format_byte_total (r : Nat) : (formatByte r).isSome ↔ (meaning r).isSome := by
  unfold formatByte
  rw [C45_num_bits]
  cases meaning r <;> simp

/-- **C45.** The scalar decoder reads the meaning of every bit rate of a current clip. -/
theorem C45_scalar_table (r : Nat) : decodeScalar false r = meaning r := by
  refine below (P := fun r => decodeScalar false r = meaning r) (by decide) ?_ r
  intro r hr
  have hm : meaning r = none := by
    unfold meaning
    rw [if_neg (by omega), if_neg (by omega), if_neg (by omega)]
  rw [hm]
  unfold decodeScalar
  rw [List.getElem?_eq_none (by show 25 ≤ r; omega)]
  rfl

/-- **C45.** In the 2.0 table the first entry is constant, the last raw and the others are 3 to 19 bits; nothing
else is in it. -/
theorem C45_legacy_table (r : Nat) : decodeScalar true r =
    if r = 0 then some .constant else if r ≤ 17 then some (.quantized (r + 2)) else if r = 18 then some .raw else none := by
  refine below (P := fun r => decodeScalar true r =
    if r = 0 then some .constant else if r ≤ 17 then some (.quantized (r + 2)) else if r = 18 then some .raw else none) (by decide) ?_ r
  intro r hr
  rw [if_neg (by omega), if_neg (by omega), if_neg (by omega)]
  unfold decodeScalar
  rw [List.getElem?_eq_none (by show 19 ≤ r; omega)]
  rfl

/-- The hypotheses hold: bit rate 9 of both tables, and the format byte of the raw bit rate. -/
example : (scalarBitRateTable true)[9]? = some 11 ∧ (scalarBitRateTable false)[9]? = some 9 ∧ formatByte 24 = some 31#8 := by decide

end Acl.C45
