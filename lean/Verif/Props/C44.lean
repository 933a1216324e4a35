import Verif.Layout.Headers
/-!
C44: the checked integer cast accepts a value exactly when the destination type represents it.
-/
namespace Acl.C44
open Acl.Headers

/-- The values an integral type represents. -/
def Represents (t : IntType) (x : Int) : Prop :=
  if t.signed then -(2 ^ (t.bits - 1) : Int) ≤ x ∧ x < 2 ^ (t.bits - 1) else 0 ≤ x ∧ x < 2 ^ t.bits

/-- The integral types of C++: 8, 16, 32 or 64 bits (any width from 1 to 64 here). -/
def Standard (t : IntType) : Prop := 1 ≤ t.bits ∧ t.bits ≤ 64

theorem half (w : Nat) (h : 1 ≤ w) : (2 : Int) ^ w = 2 * 2 ^ (w - 1) := by
  obtain ⟨k, rfl⟩ : ∃ k, w = k + 1 := ⟨w - 1, by omega⟩
  rw [Int.pow_succ]; simp; omega

theorem pow_pos' (w : Nat) : (0 : Int) < 2 ^ w := Int.pow_pos (by decide)

theorem pow_mono {a b : Nat} (h : a ≤ b) : (2 : Int) ^ a ≤ 2 ^ b := by
  have := Nat.pow_le_pow_right (n := 2) (by omega) h
  exact_mod_cast this

theorem bmod_eq (x : Int) (w : Nat) (h : 1 ≤ w) :
    (-(2 ^ (w - 1) : Int) ≤ Int.bmod x (2 ^ w) ∧ Int.bmod x (2 ^ w) < 2 ^ (w - 1)) ∧
    (Int.bmod x (2 ^ w) = x ↔ -(2 ^ (w - 1) : Int) ≤ x ∧ x < 2 ^ (w - 1)) := by
  have hpos : 0 < 2 ^ w := Nat.two_pow_pos w
  have h2 := half w h
  have hc : ((2 ^ w : Nat) : Int) = 2 ^ w := by push_cast; rfl
  have hl := Int.le_bmod (x := x) (m := 2 ^ w) hpos
  have hu := Int.bmod_lt (x := x) (m := 2 ^ w) hpos
  rw [hc] at hl hu
  have hr : -(2 ^ (w - 1) : Int) ≤ Int.bmod x (2 ^ w) ∧ Int.bmod x (2 ^ w) < 2 ^ (w - 1) := by
    have hp := pow_pos' (w - 1)
    generalize (2 : Int) ^ (w - 1) = q at *
    generalize Int.bmod x (2 ^ w) = y at *
    omega
  refine ⟨hr, ?_, ?_⟩
  · intro he; rw [he] at hr; exact hr
  · intro hx
    apply Int.bmod_eq_of_le
    · rw [hc, h2]; have := pow_pos' (w - 1); omega
    · rw [hc, h2]; have := pow_pos' (w - 1); omega

theorem cast_represents (t : IntType) (ht : Standard t) (x : Int) : Represents t (t.cast x) := by
  unfold Represents IntType.cast
  cases hs : t.signed
  · simp only [Bool.false_eq_true, if_false]
    exact ⟨Int.emod_nonneg _ (Int.ne_of_gt (pow_pos' _)), Int.emod_lt_of_pos _ (pow_pos' _)⟩
  · simp only [if_true]
    exact (bmod_eq x t.bits ht.1).1

/-- A cast keeps the value exactly when the destination represents it. -/
theorem cast_eq_iff (t : IntType) (ht : Standard t) (x : Int) : t.cast x = x ↔ Represents t x := by
  unfold Represents IntType.cast
  cases hs : t.signed
  · simp only [Bool.false_eq_true, if_false]
    constructor
    · intro h
      rw [← h]
      exact ⟨Int.emod_nonneg _ (Int.ne_of_gt (pow_pos' _)), Int.emod_lt_of_pos _ (pow_pos' _)⟩
    · rintro ⟨h1, h2⟩; exact Int.emod_eq_of_lt h1 h2
  · simp only [if_true]
    exact (bmod_eq x t.bits ht.1).2

/-- The check performed by the library is exact: for every source and destination integral type and every
value of the source type, it passes exactly when the destination type represents the value. -/
theorem C44_check_exact (dst src : IntType) (hd : Standard dst) (hs : Standard src) (x : Int)
    (hx : Represents src x) : isStaticCastSafe dst src x = true ↔ Represents dst x := by
  unfold isStaticCastSafe
  have back : Represents dst x → src.cast (dst.cast x) = x := by
    intro h
    rw [(cast_eq_iff dst hd x).mpr h, (cast_eq_iff src hs x).mpr hx]
  have hds := cast_represents dst hd x
  split
  · rename_i hsg
    rw [beq_iff_eq]
    refine ⟨?_, back⟩
    intro h
    -- narrowing or widening within one signedness
    by_cases hw : src.bits ≤ dst.bits
    · -- widening: the source range is contained in the destination range
      unfold Represents at hx ⊢
      rw [hsg]
      cases hss : src.signed
      · simp only [hss, Bool.false_eq_true, if_false] at hx ⊢
        have := pow_mono hw
        omega
      · simp only [hss, if_true] at hx ⊢
        have := pow_mono (a := src.bits - 1) (b := dst.bits - 1) (by omega)
        omega
    · -- narrowing: the intermediate value is a source value, so the second cast is the identity
      have hsrc : Represents src (dst.cast x) := by
        unfold Represents at hds ⊢
        rw [hsg] at hds
        cases hss : src.signed
        · simp only [hss, Bool.false_eq_true, if_false] at hds ⊢
          have := pow_mono (a := dst.bits) (b := src.bits) (by omega)
          omega
        · simp only [hss, if_true] at hds ⊢
          have := pow_mono (a := dst.bits - 1) (b := src.bits - 1) (by omega)
          omega
      rw [(cast_eq_iff src hs _).mpr hsrc] at h
      exact (cast_eq_iff dst hd x).mp h
  · rename_i hsg
    have h64 : Standard int64 := by simp [Standard, int64]
    have hu64 : Standard uint64 := by simp [Standard, uint64]
    split
    · rename_i hss
      have hdd : dst.signed = false := by
        cases h : dst.signed
        · rfl
        · rw [h, hss] at hsg; exact absurd rfl hsg
      -- the value fits in int64_t
      have hx64 : Represents int64 x := by
        unfold Represents at hx ⊢
        simp only [hss, if_true, int64] at hx ⊢
        have := pow_mono (a := src.bits - 1) (b := 64 - 1) (by have := hs.2; omega)
        omega
      rw [(cast_eq_iff int64 h64 x).mpr hx64]
      rw [Bool.and_eq_true, decide_eq_true_iff, beq_iff_eq]
      constructor
      · rintro ⟨h0, h⟩
        unfold Represents at hx hds ⊢
        simp only [hdd, hss, Bool.false_eq_true, if_false, if_true] at hx hds ⊢
        refine ⟨h0, ?_⟩
        by_cases hw : src.bits - 1 ≤ dst.bits
        · have := pow_mono hw
          omega
        · have hsrc : Represents src (dst.cast x) := by
            unfold Represents
            simp only [hss, if_true]
            have := pow_mono (a := dst.bits) (b := src.bits - 1) (by omega)
            have := pow_pos' (src.bits - 1)
            omega
          rw [(cast_eq_iff src hs _).mpr hsrc] at h
          omega
      · intro h
        refine ⟨?_, back h⟩
        unfold Represents at h
        simp only [hdd, Bool.false_eq_true, if_false] at h
        exact h.1
    · rename_i hss
      have hss : src.signed = false := by simpa using hss
      have hdd : dst.signed = true := by
        cases h : dst.signed
        · rw [h, hss] at hsg; exact absurd rfl hsg
        · rfl
      have hxu : Represents uint64 x := by
        unfold Represents at hx ⊢
        simp only [hss, Bool.false_eq_true, if_false, uint64] at hx ⊢
        have := pow_mono (a := src.bits) (b := 64) hs.2
        omega
      have hmu : Represents uint64 dst.max := by
        unfold Represents IntType.max
        simp only [hdd, if_true, uint64, Bool.false_eq_true, if_false]
        have := pow_mono (a := dst.bits - 1) (b := 64) (by have := hd.2; omega)
        have := pow_pos' (dst.bits - 1)
        omega
      rw [(cast_eq_iff uint64 hu64 x).mpr hxu, (cast_eq_iff uint64 hu64 _).mpr hmu, decide_eq_true_iff]
      unfold Represents at hx ⊢
      simp only [hss, hdd, Bool.false_eq_true, if_false, if_true, IntType.max] at hx ⊢
      have := pow_pos' (dst.bits - 1)
      omega

/-- So a cast that passes the check keeps the value, and one that fails it changes the value. -/
theorem C44_checked_cast_keeps_value (dst src : IntType) (hd : Standard dst) (hs : Standard src) (x : Int)
    (hx : Represents src x) : isStaticCastSafe dst src x = true ↔ safeStaticCast dst x = x := by
  rw [C44_check_exact dst src hd hs x hx, safeStaticCast, cast_eq_iff dst hd]

example : isStaticCastSafe ⟨8, true⟩ ⟨32, false⟩ 128 = false ∧ isStaticCastSafe ⟨8, true⟩ ⟨32, false⟩ 127 = true ∧
    isStaticCastSafe ⟨16, false⟩ ⟨32, true⟩ (-1) = false := by decide

end Acl.C44
