import Verif.Transform.RangeReduction
import Verif.Core.LerpLemmas
import Verif.Core.ScalarPackingLemmas
import Verif.Props.C07
/- Error analysis of the range reduction. -/
namespace Acl.RangeReduction
open Acl.F32 Acl.Lerp Acl.ScalarPacking

attribute [local irreducible] maxValue

/-- An 8 bit component. -/
def p8 (a : Nat) : ℚ := unpackUnsigned a 8

theorem maxValue8 : maxValue 8 = 255 := by rw [maxValue_eq (by omega)]; norm_num

theorem fmul_inv {a : Nat} (h : a ≤ 255) : fmul (a : ℚ) invMaxRangeValue = p8 a := by
  unfold p8 unpackUnsigned invMaxRangeValue maxRangeValue
  rw [maxValue8, ofNat_eq (show a < 2 ^ 24 by omega), ofNat_eq (show 255 < 2 ^ 24 by norm_num)]
  norm_num

theorem p8_err {a : Nat} (h : a ≤ 255) : |p8 a * 255 - a| ≤ a / 2 ^ 22 := by
  have := unpack_err (n := 8) (v := a) (by omega) (by omega) (by rw [maxValue8]; exact h)
  rw [maxValue8] at this
  have ha : (0 : ℚ) ≤ a := by positivity
  refine this.trans ?_
  have e : (1 : ℚ) / 2 ^ 23 + 1 / 2 ^ 48 ≤ 1 / 2 ^ 22 := by norm_num
  calc (a : ℚ) * (1 / 2 ^ 23 + 1 / 2 ^ 48) ≤ a * (1 / 2 ^ 22) := mul_le_mul_of_nonneg_left e ha
    _ = _ := by ring

theorem p8_zero : p8 0 = 0 := by decide +kernel
theorem p8_max : p8 255 = 1 := by decide +kernel

theorem p8_mono {a b : Nat} (h : a ≤ b) (hb : b ≤ 255) : p8 a ≤ p8 b :=
  Acl.C07.unpack_mono h (by omega) (by omega) (by omega)

theorem p8_unit {a : Nat} (h : a ≤ 255) : 0 ≤ p8 a ∧ p8 a ≤ 1 :=
  ⟨by rw [← p8_zero]; exact p8_mono (by omega) h, by rw [← p8_max]; exact p8_mono h le_rfl⟩

theorem pow2_127_big {q : ℚ} {k : ℚ} (h : |q| ≤ k) (hk : k < pow2 127) : |q| < pow2 127 := lt_of_le_of_lt h hk

theorem p8_float {a : Nat} (h : a ≤ 255) : IsFloat (p8 a) := by
  rw [← fmul_inv h]
  unfold fmul
  refine isFloat_rnd (lt_of_le_of_lt (b := 256) ?_ (by decide +kernel))
  have h1 : (a : ℚ) ≤ 255 := by exact_mod_cast h
  have h0 : (0 : ℚ) ≤ a := by positivity
  have i1 : invMaxRangeValue ≤ 1 := by decide +kernel
  have i0 : 0 ≤ invMaxRangeValue := by decide +kernel
  rw [abs_of_nonneg (mul_nonneg h0 i0)]; nlinarith

theorem rnd_unit_err {x : ℚ} (h0 : 0 ≤ x) (h1 : x ≤ 1) : |rnd x - x| ≤ 1 / 2 ^ 23 := by
  have := rnd_err' (q := x) (B := 1) (by rw [abs_of_nonneg h0]; exact h1)
  have e : (1 : ℚ) / 2 ^ 24 + pow2 (-150) ≤ 1 / 2 ^ 23 := by decide +kernel
  linarith

theorem rnd_255_err {x : ℚ} (h0 : 0 ≤ x) (h1 : x ≤ 255) : |rnd x - x| ≤ 1 / 2 ^ 15 := by
  have := rnd_err' (q := x) (B := 255) (by rw [abs_of_nonneg h0]; exact h1)
  have e : (255 : ℚ) / 2 ^ 24 + pow2 (-150) ≤ 1 / 2 ^ 15 := by decide +kernel
  linarith

theorem rnd_255 : rnd 255 = 255 := by decide +kernel
theorem rnd_one : rnd 1 = 1 := by decide +kernel

/-- Clamped integers between 0 and 255 are naturals. -/
theorem clamp_int {z : Int} (h0 : 0 ≤ z) (h1 : z ≤ 255) :
    min (max (z : ℚ) 0) 255 = ((z.toNat : Nat) : ℚ) := by
  have : ((z.toNat : Nat) : ℚ) = (z : ℚ) := by
    have : (z.toNat : Int) = z := Int.toNat_of_nonneg h0
    exact_mod_cast this
  rw [this, max_eq_left (by exact_mod_cast h0), min_eq_left (by exact_mod_cast h1)]

/-- The padded minimum is an 8 bit component, below the minimum and close to it. -/
theorem paddedMin_spec {m : ℚ} (h0 : 0 ≤ m) (h1 : m ≤ 1) (M E : ℚ) :
    ∃ a ≤ 255, (fixupRange (Range.mk m M E)).min = p8 a ∧ p8 a ≤ m ∧ m ≤ p8 a + 2 / 255 + 1 / 2 ^ 20 := by
  have hfl0 : 0 ≤ rnd (m * 255) := rnd_nonneg (by linarith)
  have hfl1 : rnd (m * 255) ≤ 255 := by
    have := rnd_mono (show m * 255 ≤ 255 by linarith); rwa [rnd_255] at this
  have herr := rnd_255_err (x := m * 255) (by linarith) (by linarith)
  obtain ⟨e1, e2⟩ := abs_le.mp herr
  have z0 : 0 ≤ ⌊rnd (m * 255)⌋ := Int.floor_nonneg.mpr hfl0
  have z1 : ⌊rnd (m * 255)⌋ ≤ 255 := by
    have := Int.floor_le_floor hfl1
    rwa [show ⌊(255 : ℚ)⌋ = 255 from by norm_num] at this
  set z := ⌊rnd (m * 255)⌋ with hz
  have hq : quantizedMin0 (Range.mk m M E) = ((z.toNat : Nat) : ℚ) := by
    unfold quantizedMin0 maxRangeValue fmul
    exact clamp_int z0 z1
  set a := z.toNat with ha
  have haz : (a : Int) = z := Int.toNat_of_nonneg z0
  have ha255 : a ≤ 255 := by omega
  have hq1 : max (fsub (a : ℚ) 1) 0 = ((a - 1 : Nat) : ℚ) := by
    unfold fsub
    rcases Nat.eq_zero_or_pos a with h | h
    · rw [h]; simp
      have := rnd_nonpos (show (-1 : ℚ) ≤ 0 by norm_num)
      exact this
    · have : (a : ℚ) - 1 = ((a - 1 : Nat) : ℚ) := by push_cast [Nat.cast_sub h]; ring
      rw [this, rnd_nat (by omega)]
      exact max_eq_left (by positivity)
  have hmin : (fixupRange (Range.mk m M E)).min = if p8 a ≤ m then p8 a else p8 (a - 1) := by
    unfold fixupRange fromMinExtent
    simp only [hq, hq1]
    rw [fmul_inv ha255, fmul_inv (show a - 1 ≤ 255 by omega)]
  have hflq : (a : ℚ) ≤ rnd (m * 255) ∧ rnd (m * 255) < a + 1 := by
    have e : (a : ℚ) = (z : ℚ) := by exact_mod_cast haz
    rw [e]; exact ⟨Int.floor_le _, Int.lt_floor_add_one _⟩
  have ha255q : (a : ℚ) ≤ 255 := by exact_mod_cast ha255
  have perr := abs_le.mp (p8_err ha255)
  have ha0q : (0 : ℚ) ≤ a := by positivity
  by_cases hle : p8 a ≤ m
  · refine ⟨a, ha255, by rw [hmin, if_pos hle], hle, ?_⟩
    linarith [perr.1]
  · have hpos : 0 < a := by
      rcases Nat.eq_zero_or_pos a with h | h
      · exact absurd (by rw [h, p8_zero]; exact h0) hle
      · exact h
    refine ⟨a - 1, by omega, by rw [hmin, if_neg hle], ?_, ?_⟩
    · have perr1 := abs_le.mp (p8_err (show a - 1 ≤ 255 by omega))
      have : ((a - 1 : Nat) : ℚ) = (a : ℚ) - 1 := by push_cast [Nat.cast_sub hpos]; ring
      rw [this] at perr1
      linarith [perr1.2]
    · have perr1 := abs_le.mp (p8_err (show a - 1 ≤ 255 by omega))
      have : ((a - 1 : Nat) : ℚ) = (a : ℚ) - 1 := by push_cast [Nat.cast_sub hpos]; ring
      rw [this] at perr1
      linarith [perr1.1]

/-- The padded extent is an 8 bit component that covers the maximum. -/
theorem paddedExtent_spec {m M : ℚ} (h0 : 0 ≤ m) (hm : m ≤ M) (h1 : M ≤ 1) (E : ℚ) :
    ∃ b ≤ 255, (fixupRange (Range.mk m M E)).extent = p8 b ∧
      M ≤ (fixupRange (Range.mk m M E)).min + p8 b ∧
      (fixupRange (Range.mk m M E)).min + p8 b ≤ M + 2 / 255 + 1 / 2 ^ 20 := by
  obtain ⟨a, ha, hmin, hpa, -⟩ := paddedMin_spec h0 (hm.trans h1) M E
  rw [hmin]
  have hu := p8_unit ha
  set x := M - p8 a with hx
  have hx0 : 0 ≤ x := by linarith
  have hx1 : x ≤ 1 := by linarith
  have hr0 := rnd_nonneg hx0
  have hr1 : rnd x ≤ 1 := by have := rnd_mono hx1; rwa [rnd_one] at this
  obtain ⟨r1, r2⟩ := abs_le.mp (rnd_unit_err hx0 hx1)
  have hs0 : 0 ≤ rnd (rnd x * 255) := rnd_nonneg (by linarith)
  have hs1 : rnd (rnd x * 255) ≤ 255 := by
    have := rnd_mono (show rnd x * 255 ≤ 255 by linarith); rwa [rnd_255] at this
  obtain ⟨s1, s2⟩ := abs_le.mp (rnd_255_err (x := rnd x * 255) (by linarith) (by linarith))
  have z0 : 0 ≤ ⌈rnd (rnd x * 255)⌉ := Int.ceil_nonneg hs0
  have z1 : ⌈rnd (rnd x * 255)⌉ ≤ 255 := by
    have := Int.ceil_le_ceil hs1
    rwa [show ⌈(255 : ℚ)⌉ = 255 from by norm_num] at this
  set z := ⌈rnd (rnd x * 255)⌉ with hz
  set b := z.toNat with hb
  have hbz : (b : Int) = z := Int.toNat_of_nonneg z0
  have hb255 : b ≤ 255 := by omega
  have hbq : (b : ℚ) = (z : ℚ) := by exact_mod_cast hbz
  have hc1 : rnd (rnd x * 255) ≤ b := by rw [hbq]; exact Int.le_ceil _
  have hc2 : (b : ℚ) < rnd (rnd x * 255) + 1 := by rw [hbq]; exact Int.ceil_lt_add_one _
  have hq1 : min (fadd (b : ℚ) 1) maxRangeValue = ((min (b + 1) 255 : Nat) : ℚ) := by
    unfold fadd maxRangeValue
    have : (b : ℚ) + 1 = ((b + 1 : Nat) : ℚ) := by push_cast; ring
    rw [this, rnd_nat (by omega)]
    push_cast; rfl
  have hext : (fixupRange (Range.mk m M E)).extent = if M ≤ p8 b then p8 b else p8 (min (b + 1) 255) := by
    have hmin' := hmin
    unfold fixupRange fromMinExtent at hmin' ⊢
    simp only [] at hmin' ⊢
    rw [hmin']
    have hbb : min (max ((⌈fmul (fsub M (p8 a)) maxRangeValue⌉ : Int) : ℚ) 0) maxRangeValue = (b : ℚ) := by
      unfold fmul fsub maxRangeValue
      exact clamp_int z0 z1
    rw [hbb, hq1, fmul_inv hb255, fmul_inv (show min (b + 1) 255 ≤ 255 by omega)]
  rw [hext]
  have hbq255 : (b : ℚ) ≤ 255 := by exact_mod_cast hb255
  have hb0 : (0 : ℚ) ≤ b := by positivity
  obtain ⟨q1, q2⟩ := abs_le.mp (p8_err hb255)
  by_cases hle : M ≤ p8 b
  · refine ⟨b, hb255, by rw [if_pos hle], by linarith, ?_⟩
    linarith
  · have hblt : b + 1 ≤ 255 := by
      by_contra hc
      have : b = 255 := by omega
      exact hle (by rw [this, p8_max]; exact h1)
    rw [if_neg hle, Nat.min_eq_left hblt]
    obtain ⟨t1, t2⟩ := abs_le.mp (p8_err hblt)
    push_cast at t1 t2
    refine ⟨b + 1, hblt, rfl, ?_, ?_⟩ <;> linarith

/-! ## Ranges of samples -/

theorem foldl_min_le (l : List ℚ) (i : ℚ) : l.foldl min i ≤ i ∧ ∀ s ∈ l, l.foldl min i ≤ s := by
  induction l generalizing i with
  | nil => exact ⟨le_rfl, fun _ h => absurd h (by simp)⟩
  | cons a l ih =>
    simp only [List.foldl_cons]
    obtain ⟨h1, h2⟩ := ih (min i a)
    refine ⟨h1.trans (min_le_left _ _), fun s hs => ?_⟩
    rcases List.mem_cons.mp hs with rfl | hs
    · exact h1.trans (min_le_right _ _)
    · exact h2 s hs

theorem le_foldl_max (l : List ℚ) (i : ℚ) : i ≤ l.foldl max i ∧ ∀ s ∈ l, s ≤ l.foldl max i := by
  induction l generalizing i with
  | nil => exact ⟨le_rfl, fun _ h => absurd h (by simp)⟩
  | cons a l ih =>
    simp only [List.foldl_cons]
    obtain ⟨h1, h2⟩ := ih (max i a)
    refine ⟨(le_max_left _ _).trans h1, fun s hs => ?_⟩
    rcases List.mem_cons.mp hs with rfl | hs
    · exact (le_max_right _ _).trans h1
    · exact h2 s hs

theorem foldl_min_mem (l : List ℚ) (i : ℚ) : l.foldl min i = i ∨ l.foldl min i ∈ l := by
  induction l generalizing i with
  | nil => exact Or.inl rfl
  | cons a l ih =>
    simp only [List.foldl_cons]
    rcases ih (min i a) with h | h
    · rw [h]; rcases min_choice i a with e | e <;> rw [e] <;> simp
    · right; exact List.mem_cons_of_mem _ h

theorem foldl_max_mem (l : List ℚ) (i : ℚ) : l.foldl max i = i ∨ l.foldl max i ∈ l := by
  induction l generalizing i with
  | nil => exact Or.inl rfl
  | cons a l ih =>
    simp only [List.foldl_cons]
    rcases ih (max i a) with h | h
    · rw [h]; rcases max_choice i a with e | e <;> rw [e] <;> simp
    · right; exact List.mem_cons_of_mem _ h

/-- The range of a non empty list contains its samples; for samples in a box that contains ±1e10, its bounds are
in the box; for samples below 1e10 the bounds are samples. -/
theorem trackRange_spec {l : List ℚ} (hne : l ≠ []) :
    ∃ mn mx, trackRange l = fromMinMax mn mx ∧ (∀ s ∈ l, mn ≤ s ∧ s ≤ mx) ∧
      (mn = 10000000000 ∨ mn ∈ l) ∧ (mx = -10000000000 ∨ mx ∈ l) := by
  refine ⟨_, _, by unfold trackRange; rw [if_neg hne], fun s hs => ⟨(foldl_min_le l _).2 s hs, (le_foldl_max l _).2 s hs⟩,
    foldl_min_mem l _, foldl_max_mem l _⟩

theorem trackRange_unit {l : List ℚ} (hne : l ≠ []) (h : ∀ s ∈ l, 0 ≤ s ∧ s ≤ 1) :
    ∃ mn mx, trackRange l = fromMinMax mn mx ∧ (∀ s ∈ l, mn ≤ s ∧ s ≤ mx) ∧ mn ∈ l ∧ mx ∈ l := by
  obtain ⟨mn, mx, e, hb, h1, h2⟩ := trackRange_spec hne
  obtain ⟨s, hs⟩ := List.exists_mem_of_ne_nil l hne
  refine ⟨mn, mx, e, hb, ?_, ?_⟩
  · rcases h1 with h1 | h1
    · have := (hb s hs).1; have := (h s hs).2; linarith
    · exact h1
  · rcases h2 with h2 | h2
    · have := (hb s hs).2; have := (h s hs).1; linarith
    · exact h2

end Acl.RangeReduction
