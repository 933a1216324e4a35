import Verif.Io.ClipText
import Mathlib.Tactic.Linarith
import Mathlib.Tactic.IntervalCases
/-
Lemmas about text files.
-/
namespace Acl.Io
open Acl.Raw

theorem digitValue_char {d : Nat} (h : d < 16) : digitValue (digitChar d) = some d := by
  interval_cases d <;> decide

theorem hexDigits_lt (n : Nat) : ∀ d ∈ hexDigits n, d < 16 := by
  induction n using Nat.strong_induction_on with
  | _ n ih =>
    rw [hexDigits]
    by_cases h : n < 16
    · rw [if_pos h]; intro d hd
      rw [List.mem_singleton] at hd; omega
    · rw [if_neg h]; intro d hd
      rcases List.mem_append.1 hd with hd | hd
      · exact ih (n / 16) (by omega) d hd
      · rw [List.mem_singleton] at hd; omega

theorem hexDigits_value (n : Nat) : (hexDigits n).foldl (fun a d => a * 16 + d) 0 = n := by
  induction n using Nat.strong_induction_on with
  | _ n ih =>
    rw [hexDigits]
    by_cases h : n < 16
    · rw [if_pos h]; simp
    · rw [if_neg h, List.foldl_append, ih (n / 16) (by omega)]
      simp only [List.foldl_cons, List.foldl_nil]; omega

theorem hexDigits_length (k : Nat) : ∀ n, n < 16 ^ (k + 1) → (hexDigits n).length ≤ k + 1 := by
  induction k with
  | zero => intro n h; rw [hexDigits, if_pos (by omega)]; simp
  | succ k ih =>
    intro n h
    rw [hexDigits]
    by_cases hn : n < 16
    · rw [if_pos hn]; simp
    · rw [if_neg hn, List.length_append]
      have := ih (n / 16) (by rw [pow_succ] at h; omega)
      simp only [List.length_singleton]; omega

theorem hexDigits_ne (n : Nat) : hexDigits n ≠ [] := by
  rw [hexDigits]; by_cases h : n < 16
  · rw [if_pos h]; simp
  · rw [if_neg h]; simp

theorem accumulate_digits (l : List Nat) (h : ∀ d ∈ l, d < 16) (a : Nat) (rest : List Char) :
    accumulate a (l.map digitChar ++ rest) = accumulate (l.foldl (fun a d => a * 16 + d) a) rest := by
  induction l generalizing a with
  | nil => rfl
  | cons d l ih =>
    simp only [List.map_cons, List.cons_append, accumulate, digitValue_char (h d (by simp)), List.foldl_cons]
    exact ih (fun d hd => h d (by simp [hd])) _

theorem magnitude_eq (s : List Char) (h : ∀ x, s[1]? = some x → x ≠ 'x' ∧ x ≠ 'X') : magnitude s = accumulate 0 s := by
  unfold magnitude
  split
  · rename_i x d rest
    have := h x (by simp)
    rw [if_neg (by rintro ⟨h1, _⟩; rcases h1 with h1 | h1; exacts [this.1 h1, this.2 h1])]
  · rfl

theorem digit_ne {c : Char} {d : Nat} (h : digitValue c = some d) :
    isSpace c = false ∧ c ≠ '-' ∧ c ≠ '+' ∧ c ≠ 'x' ∧ c ≠ 'X' := by
  refine ⟨?_, ?_, ?_, ?_, ?_⟩
  · by_contra hc
    have hc : isSpace c = true := by simpa using hc
    unfold isSpace at hc
    unfold digitValue at h
    simp only [Bool.or_eq_true, beq_iff_eq, Bool.and_eq_true, decide_eq_true_eq] at hc
    rw [if_neg (by omega), if_neg (by omega), if_neg (by omega)] at h
    cases h
  all_goals (rintro rfl; unfold digitValue at h; simp at h)

theorem strtoul16_digit (c : Char) (rest : List Char) (d : Nat) (h : digitValue c = some d) :
    strtoul16 (c :: rest) = magnitude (c :: rest) := by
  obtain ⟨hs, hm, hp, -, -⟩ := digit_ne h
  unfold strtoul16
  rw [List.dropWhile_cons, if_neg (by simp [hs])]
  split
  · rename_i hc; simp at hc; exact absurd hc.1 hm
  · rename_i hc; simp at hc; exact absurd hc.1 hp
  · rfl

theorem strtoul16_format (w : Word) (behind : List Char) : strtoul16 (formatHex w ++ '"' :: behind) = w.toNat := by
  unfold formatHex
  have hval : accumulate 0 ((hexDigits w.toNat).map digitChar ++ '"' :: behind) = w.toNat := by
    rw [accumulate_digits _ (hexDigits_lt _), hexDigits_value]
    simp only [accumulate]
    have : digitValue '"' = none := by decide
    rw [this]
  have hlt := hexDigits_lt w.toNat
  have hne := hexDigits_ne w.toNat
  generalize hexDigits w.toNat = l at *
  cases l with
  | nil => exact absurd rfl hne
  | cons d l =>
    simp only [List.map_cons, List.cons_append] at hval ⊢
    rw [strtoul16_digit _ _ d (digitValue_char (hlt d (by simp))), magnitude_eq, hval]
    intro x hx
    simp only [List.getElem?_cons_succ] at hx
    cases l with
    | nil => simp at hx; subst hx; decide
    | cons e l =>
      simp at hx; subst hx
      exact (digit_ne (digitValue_char (hlt e (by simp)))).2.2.2

theorem format_length (w : Word) : (formatHex w).length ≤ 8 := by
  unfold formatHex
  rw [List.length_map]
  exact hexDigits_length 7 _ (by have := w.isLt; norm_num; omega)

theorem hexToFloat_format (behind : List Char) (w : Word) : hexToFloat behind (formatHex w) = some w := by
  unfold hexToFloat
  rw [strtoul16_format, if_pos ⟨format_length w, w.isLt⟩]
  simp

theorem mapM_map {α β γ : Type} (f : α → β) (g : β → Option γ) (k : α → γ) (l : List α) (h : ∀ a ∈ l, g (f a) = some (k a)) :
    (l.map f).mapM g = some (l.map k) := by
  induction l with
  | nil => rfl
  | cons a l ih =>
    rw [List.map_cons, List.mapM_cons, h a (by simp), ih (fun a ha => h a (by simp [ha]))]
    rfl

theorem asStrs_hex (l : List Word) : asStrs l.length (.arr (l.map hex)) = some (l.map formatHex) := by
  simp only [asStrs, asArr, Option.bind_some, List.length_map, if_true]
  exact mapM_map hex asStr formatHex l (fun _ _ => rfl)

theorem hexToFloats_format (lib : Library) (l : List Word) : hexToFloats lib (l.map formatHex) = .ok l := by
  unfold hexToFloats
  rw [mapM_map formatHex (fun s => hexToFloat (lib.behind s) s) id l (fun a _ => hexToFloat_format _ a)]
  simp [orAssert]

theorem readSamples_map {α : Type} (one : Val → Except Error α) (f : α → Val) (k : α → α) (l : List α)
    (h : ∀ a ∈ l, one (f a) = .ok (k a)) : readSamples one l.length (l.map f) = .ok (l.map k) := by
  induction l with
  | nil => rfl
  | cons a l ih =>
    simp only [List.length_cons, List.map_cons, readSamples, h a (by simp), ih (fun a ha => h a (by simp [ha]))]
    rfl

theorem toNatBelow_nat {n m : Nat} (h : n < m) : toNatBelow m (n : ℚ) = some n := by
  unfold toNatBelow
  rw [if_pos ⟨by simp, by simp, by simpa using h⟩]
  simp

theorem toU32_nat {n : Nat} (h : n < 2 ^ 32) : toU32 (n : ℚ) = some n := by
  unfold toU32
  exact toNatBelow_nat h

theorem asU32_nat {n : Nat} (h : n < 2 ^ 32) : asU32 (nat n) = some n := by
  have := toU32_nat h
  unfold asU32 nat asNum
  rw [Option.bind_some, this]

end Acl.Io
