import Verif.Math.FixedFormats
import Verif.Props.C08
/-! Lemmas on one component of the fixed formats. -/
namespace Acl.Fixed
open Acl.F32 Acl.ScalarPacking Acl.Lerp

attribute [local irreducible] maxValue

/-- What a format holds: [0, 1] when it is unsigned, [-1, 1] otherwise. -/
def InRange (isUnsigned : Bool) (x : ℚ) : Prop := (if isUnsigned then 0 else -1) ≤ x ∧ x ≤ 1

/-- Half a step between the values of a format of `n` bits, and the rounding of floats. -/
def tolerance (isUnsigned : Bool) (n : Nat) : ℚ :=
  if isUnsigned then (1 / 2) / (2 ^ n - 1) + 1 / 2 ^ 21 else 1 / (2 ^ n - 1) + 1 / 2 ^ 19

theorem signed_error (x : ℚ) (n : Nat) (hn1 : 1 ≤ n) (hn : n ≤ 23) (h0 : -1 ≤ x) (h1 : x ≤ 1) :
    ∃ k, packSigned x n = some k ∧ |unpackSigned k n - x| ≤ 1 / (2 ^ n - 1) + 1 / 2 ^ 19 := by
  have a1 : fmul x (1 / 2) ≤ 1 / 2 := by
    have := rnd_le_dyadic (x := x * (1 / 2)) 1 1 (by decide) (by decide) (by norm_num; linarith)
    simpa [fmul] using this
  have a0 : -1 / 2 ≤ fmul x (1 / 2) := by
    have := dyadic_le_rnd (x := x * (1 / 2)) (-1) 1 (by decide) (by decide) (by norm_num; linarith)
    simpa [fmul] using this
  have t150 : pow2 (-150) ≤ 1 / 2 ^ 30 := by decide +kernel
  have ha := rnd_err (x * (1 / 2))
  rw [pow2_m24] at ha
  have hax : |x * (1 / 2)| ≤ 1 / 2 := abs_le.mpr ⟨by linarith, by linarith⟩
  have hb := rnd_err (fmul x (1 / 2) + 1 / 2)
  rw [pow2_m24] at hb
  have hbx : |fmul x (1 / 2) + 1 / 2| ≤ 1 := abs_le.mpr ⟨by linarith, by linarith⟩
  have ht0 : 0 ≤ fadd (fmul x (1 / 2)) (1 / 2) := rnd_nonneg (by linarith)
  have ht1 : fadd (fmul x (1 / 2)) (1 / 2) ≤ 1 := by
    have := rnd_le_dyadic (x := fmul x (1 / 2) + 1 / 2) 1 0 (by decide) (by decide) (by norm_num; linarith)
    simpa [fadd] using this
  obtain ⟨k, hk, he⟩ := C07.C07_error _ n hn1 hn ht0 ht1
  have hfit : k < 2 ^ n := by
    obtain ⟨k', hk', hl⟩ := C07.C07_pack_fits _ n ht0 ht1 hn
    rw [hk] at hk'; cases hk'; exact hl
  refine ⟨k, hk, ?_⟩
  have hf := C08.unpack_isFloat hn1 hn hfit
  obtain ⟨u0, u1, -, -⟩ := C07.C07_unpack_unit k n hn1 hn hfit
  unfold unpackSigned
  rw [C08.double_exact hf]
  have hc := rnd_err (2 * unpackUnsigned k n - 1)
  rw [pow2_m24] at hc
  have hcx : |2 * unpackUnsigned k n - 1| ≤ 1 := abs_le.mpr ⟨by linarith, by linarith⟩
  have hmm : (1 : ℚ) / 2 / (2 ^ n - 1) = (1 / (2 ^ n - 1)) / 2 := by ring
  rw [hmm] at he
  unfold fsub
  change |fmul x (1 / 2) - x * (1 / 2)| ≤ _ at ha
  change |fadd (fmul x (1 / 2)) (1 / 2) - (fmul x (1 / 2) + 1 / 2)| ≤ _ at hb
  generalize fadd (fmul x (1 / 2)) (1 / 2) = t at *
  generalize fmul x (1 / 2) = s at *
  generalize unpackUnsigned k n = u at *
  generalize rnd (2 * u - 1) = r at *
  generalize (1 : ℚ) / (2 ^ n - 1) = g at *
  obtain ⟨p1, p2⟩ := abs_le.mp ha
  obtain ⟨q1, q2⟩ := abs_le.mp hb
  obtain ⟨r1, r2⟩ := abs_le.mp hc
  obtain ⟨s1, s2⟩ := abs_le.mp he
  rw [abs_le]; constructor <;> linarith

theorem pack_component {isUnsigned : Bool} {x : ℚ} {n : Nat} (hn1 : 1 ≤ n) (hn : n ≤ 23) (h : InRange isUnsigned x) :
    ∃ k, packLane isUnsigned x n = some k ∧ k < 2 ^ n ∧ |unpackLane isUnsigned k n - x| ≤ tolerance isUnsigned n := by
  cases isUnsigned with
  | true =>
    obtain ⟨h0, h1⟩ := h
    simp only [if_true] at h0
    obtain ⟨k, hk, he⟩ := C07.C07_error x n hn1 hn h0 h1
    obtain ⟨k', hk', hl⟩ := C07.C07_pack_fits x n h0 h1 hn
    rw [hk] at hk'; cases hk'
    exact ⟨k, by simpa [packLane] using hk, hl, by simpa [unpackLane, tolerance] using he⟩
  | false =>
    obtain ⟨h0, h1⟩ := h
    simp only [Bool.false_eq_true, if_false] at h0
    obtain ⟨k, hk, he⟩ := signed_error x n hn1 hn h0 h1
    obtain ⟨k', hk', hl⟩ := C08.C08_pack_fits x n h0 h1 hn
    rw [hk] at hk'; cases hk'
    exact ⟨k, by simpa [packLane] using hk, hl, by simpa [unpackLane, tolerance] using he⟩

theorem unpack_component {isUnsigned : Bool} {k n : Nat} (hn1 : 1 ≤ n) (hn : n ≤ 23) (hk : k < 2 ^ n) :
    InRange isUnsigned (unpackLane isUnsigned k n) ∧ packLane isUnsigned (unpackLane isUnsigned k n) n = some k := by
  cases isUnsigned with
  | true =>
    obtain ⟨h0, h1, -, -⟩ := C07.C07_unpack_unit k n hn1 hn hk
    exact ⟨⟨by simpa [unpackLane] using h0, by simpa [unpackLane] using h1⟩,
      by simpa [packLane, unpackLane] using C07.C07_round_trip k n hn1 hn hk⟩
  | false =>
    obtain ⟨h0, h1, -, -⟩ := C08.C08_unpack_range k n hn1 hn hk
    exact ⟨⟨by simpa [unpackLane] using h0, by simpa [unpackLane] using h1⟩,
      by simpa [packLane, unpackLane] using C08.C08_round_trip k n hn1 hn hk⟩

theorem inv16 : fdiv 1 65535 = fdiv 1 (ofNat (maxValue 16)) := by decide +kernel
theorem inv8 : fdiv 1 255 = fdiv 1 (ofNat (maxValue 8)) := by decide +kernel

/-- The signed unpacking of vectors is the one of scalars: doubling is exact, fused or not. -/
theorem toSigned_component (fused : Bool) {k n : Nat} (hn1 : 1 ≤ n) (hn : n ≤ 23) (hk : k < 2 ^ n) :
    negMulSub fused (unpackUnsigned k n) (-2) (-1) = unpackSigned k n := by
  have hf := C08.unpack_isFloat hn1 hn hk
  have h2 := C08.double_exact hf
  have hneg : fmul (unpackUnsigned k n) (-2) = -(2 * unpackUnsigned k n) := by
    unfold fmul at h2 ⊢
    rw [mul_neg, rnd_neg, h2]
  unfold unpackSigned
  rw [h2]
  cases fused with
  | true => simp only [negMulSub, if_true, fsub]; congr 1; ring
  | false => simp only [negMulSub, Bool.false_eq_true, if_false, fsub, hneg]; congr 1; ring

/-- Joining three numbers of xBits, yBits and zBits bits. -/
theorem join3 {x y z X Y Z : Nat} (hx : x < 2 ^ X) (hy : y < 2 ^ Y) (hz : z < 2 ^ Z) (hs : X + Y + Z = 32) :
    (x <<< (Y + Z) % 2 ^ 32 ||| y <<< Z % 2 ^ 32) ||| z = x * 2 ^ (Y + Z) + y * 2 ^ Z + z ∧
      x * 2 ^ (Y + Z) + y * 2 ^ Z + z < 2 ^ 32 := by
  have e32 : (2 : Nat) ^ 32 = 2 ^ X * 2 ^ (Y + Z) := by rw [← pow_add]; congr 1; omega
  have eyz : (2 : Nat) ^ (Y + Z) = 2 ^ Y * 2 ^ Z := pow_add _ _ _
  have hyz : y * 2 ^ Z + z < 2 ^ (Y + Z) := by
    rw [eyz]
    calc y * 2 ^ Z + z < y * 2 ^ Z + 2 ^ Z := by omega
      _ = (y + 1) * 2 ^ Z := by ring
      _ ≤ 2 ^ Y * 2 ^ Z := Nat.mul_le_mul_right _ hy
  have hall : x * 2 ^ (Y + Z) + (y * 2 ^ Z + z) < 2 ^ 32 := by
    rw [e32]
    calc x * 2 ^ (Y + Z) + (y * 2 ^ Z + z) < x * 2 ^ (Y + Z) + 2 ^ (Y + Z) := by omega
      _ = (x + 1) * 2 ^ (Y + Z) := by ring
      _ ≤ 2 ^ X * 2 ^ (Y + Z) := Nat.mul_le_mul_right _ hx
  have hp : 0 ≤ y * 2 ^ Z := Nat.zero_le _
  have l1 : x * 2 ^ (Y + Z) < 2 ^ 32 := by omega
  have l2 : y * 2 ^ Z < 2 ^ 32 := by omega
  refine ⟨?_, by omega⟩
  rw [Nat.shiftLeft_eq, Nat.shiftLeft_eq, Nat.mod_eq_of_lt l1, Nat.mod_eq_of_lt l2, Nat.or_assoc,
    ← Nat.shiftLeft_eq y Z, ← Nat.shiftLeft_add_eq_or_of_lt hz, Nat.shiftLeft_eq y Z, ← Nat.shiftLeft_eq x (Y + Z),
    ← Nat.shiftLeft_add_eq_or_of_lt hyz, Nat.shiftLeft_eq]
  omega

/-- Cutting them apart. -/
theorem split3 {x y z X Y Z : Nat} (hx : x < 2 ^ X) (hy : y < 2 ^ Y) (hz : z < 2 ^ Z) :
    (x * 2 ^ (Y + Z) + y * 2 ^ Z + z) >>> (Y + Z) = x ∧
    (x * 2 ^ (Y + Z) + y * 2 ^ Z + z) >>> Z &&& (1 <<< Y - 1) = y ∧
    (x * 2 ^ (Y + Z) + y * 2 ^ Z + z) &&& (1 <<< Z - 1) = z := by
  have eyz : (2 : Nat) ^ (Y + Z) = 2 ^ Y * 2 ^ Z := pow_add _ _ _
  have hyz : y * 2 ^ Z + z < 2 ^ (Y + Z) := by
    rw [eyz]
    calc y * 2 ^ Z + z < y * 2 ^ Z + 2 ^ Z := by omega
      _ = (y + 1) * 2 ^ Z := by ring
      _ ≤ 2 ^ Y * 2 ^ Z := Nat.mul_le_mul_right _ hy
  have pz : 0 < 2 ^ Z := Nat.two_pow_pos Z
  have pyz : 0 < 2 ^ (Y + Z) := Nat.two_pow_pos _
  have one (k : Nat) : 1 <<< k - 1 = 2 ^ k - 1 := by rw [Nat.shiftLeft_eq, Nat.one_mul]
  have e1 : (x * 2 ^ (Y + Z) + y * 2 ^ Z + z) / 2 ^ Z = x * 2 ^ Y + y := by
    rw [eyz, show x * (2 ^ Y * 2 ^ Z) + y * 2 ^ Z + z = z + (x * 2 ^ Y + y) * 2 ^ Z by ring, Nat.add_mul_div_right _ _ pz,
      Nat.div_eq_of_lt hz, Nat.zero_add]
  refine ⟨?_, ?_, ?_⟩
  · rw [Nat.shiftRight_eq_div_pow, Nat.add_assoc, Nat.add_comm, Nat.add_mul_div_right _ _ pyz, Nat.div_eq_of_lt hyz, Nat.zero_add]
  · rw [one, Nat.and_two_pow_sub_one_eq_mod, Nat.shiftRight_eq_div_pow, e1, Nat.add_comm, Nat.add_mul_mod_self_right,
      Nat.mod_eq_of_lt hy]
  · rw [one, Nat.and_two_pow_sub_one_eq_mod, eyz, show x * (2 ^ Y * 2 ^ Z) + y * 2 ^ Z + z = z + (x * 2 ^ Y + y) * 2 ^ Z by ring,
      Nat.add_mul_mod_self_right, Nat.mod_eq_of_lt hz]

/-- Any 32 bits are three such numbers. -/
theorem parts3 {u X Y Z : Nat} (hu : u < 2 ^ 32) (hs : X + Y + Z = 32) :
    ∃ x y z, x < 2 ^ X ∧ y < 2 ^ Y ∧ z < 2 ^ Z ∧ u = x * 2 ^ (Y + Z) + y * 2 ^ Z + z := by
  have e32 : (2 : Nat) ^ 32 = 2 ^ X * 2 ^ (Y + Z) := by rw [← pow_add]; congr 1; omega
  have eyz : (2 : Nat) ^ (Y + Z) = 2 ^ Y * 2 ^ Z := pow_add _ _ _
  refine ⟨u / 2 ^ (Y + Z), u / 2 ^ Z % 2 ^ Y, u % 2 ^ Z, ?_, Nat.mod_lt _ (Nat.two_pow_pos _), Nat.mod_lt _ (Nat.two_pow_pos _), ?_⟩
  · exact Nat.div_lt_of_lt_mul (by rw [Nat.mul_comm, ← e32]; exact hu)
  · have a := Nat.div_add_mod u (2 ^ Z)
    have b := Nat.div_add_mod (u / 2 ^ Z) (2 ^ Y)
    rw [Nat.div_div_eq_div_mul, Nat.mul_comm (2 ^ Z) (2 ^ Y), ← eyz] at b
    calc u = 2 ^ Z * (u / 2 ^ Z) + u % 2 ^ Z := a.symm
      _ = 2 ^ Z * (2 ^ Y * (u / 2 ^ (Y + Z)) + u / 2 ^ Z % 2 ^ Y) + u % 2 ^ Z := by rw [b]
      _ = _ := by rw [eyz]; ring

end Acl.Fixed
