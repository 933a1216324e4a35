import Verif.Core.PolylineSpec
/-
Seeking finds the polyline: what is blended after a seek is the value of the polyline, up to the rounding of the time.
-/
namespace Acl.Polyline
open Acl.Interp Acl.F32 Acl.C50

/-- The rounding of a position never takes it past a frame. -/
theorem rnd_between {q : ℚ} {k : Nat} (hk : k + 1 < 2 ^ 24) (h0 : (k : ℚ) ≤ q) (h1 : q ≤ k + 1) : (k : ℚ) ≤ rnd q ∧ rnd q ≤ k + 1 := by
  have a := rnd_mono h0
  have b := rnd_mono h1
  rw [rnd_nat (by omega)] at a
  have e : (k : ℚ) + 1 = ((k + 1 : Nat) : ℚ) := by push_cast; rfl
  rw [e, rnd_nat hk] at b
  rw [e]
  exact ⟨a, b⟩

/-- Position `x` that was computed stands for position `p`. -/
def Stands (m : Nat) (x p : ℚ) : Prop :=
  ((m : ℚ) ≤ x ∧ p = m) ∨ ∃ k : Nat, k + 1 ≤ m ∧ (k : ℚ) ≤ x ∧ x ≤ k + 1 ∧ (k : ℚ) ≤ p ∧ p ≤ k + 1 ∧ |x - p| ≤ m / 2 ^ 23 + 1 / 2 ^ 21

theorem stands_of_time {m : Nat} (hm : m ≤ 2 ^ 23) (hm1 : 1 ≤ m) {rate t : ℚ} (hr : 0 < rate) (ht : 0 ≤ t) :
    Stands m (rnd (t * rate)) (framePosition t rate m) := by
  have hq : 0 ≤ t * rate := mul_nonneg ht hr.le
  unfold framePosition
  generalize t * rate = q at *
  rcases le_or_gt (m : ℚ) q with h | h
  · left
    have := rnd_mono h
    rw [rnd_nat (by omega)] at this
    refine ⟨this, ?_⟩
    rw [min_eq_right h]
    exact max_eq_right (by positivity)
  · right
    rw [min_eq_left h.le, max_eq_right hq]
    have hc := floor_toNat_cast hq
    have f0 := Int.floor_le q
    have f1 := Int.lt_floor_add_one q
    rw [← hc] at f0 f1
    generalize ⌊q⌋.toNat = k at *
    have hk : k < m := by
      have : (k : ℚ) < m := by linarith
      exact_mod_cast this
    obtain ⟨b0, b1⟩ := rnd_between (k := k) (by omega) f0 f1.le
    refine ⟨k, hk, b0, b1, f0, f1.le, ?_⟩
    have herr := rnd_err q
    rw [abs_of_nonneg hq, show pow2 (-24) = 1 / 2 ^ 24 by decide +kernel] at herr
    have h150 : pow2 (-150) ≤ 1 / 2 ^ 22 := by decide +kernel
    have hm0 : (0 : ℚ) ≤ m := by positivity
    refine herr.trans ?_
    linarith

theorem stands {m : Nat} (hm : m ≤ 2 ^ 23) {rate t : ℚ} (hr : 0 < rate) (hr2 : rate < pow2 128) :
    Stands m (rnd (clampTime t (calculateFiniteDuration (m + 1) rate) * rate)) (framePosition t rate m) := by
  unfold calculateFiniteDuration
  by_cases hm1 : m + 1 ≤ 1
  · obtain rfl : m = 0 := by omega
    rw [if_pos (by omega)]
    left
    have h1 : clampTime t (FInf.fin 0) = 0 := by
      simp only [clampTime]; exact min_eq_right (le_max_right _ _)
    rw [h1, zero_mul, rnd_zero]
    refine ⟨by simp, ?_⟩
    unfold framePosition
    exact max_eq_left (by simpa using min_le_right (t * rate) ((0 : Nat) : ℚ))
  rw [if_neg hm1, Nat.add_sub_cancel, ofNat_eq (by omega)]
  have hneg : t ≤ 0 → framePosition t rate m = framePosition 0 rate m := by
    intro h
    unfold framePosition
    have h2 : t * rate ≤ 0 := mul_nonpos_of_nonpos_of_nonneg h hr.le
    have hmq : (0 : ℚ) ≤ m := by positivity
    rw [zero_mul, min_eq_left hmq, min_eq_left (h2.trans hmq), max_eq_left h2, max_self]
  unfold fdivInf
  split
  · have herr := div_mul_err (m := m) hr hr2
    have hd0 : 0 ≤ fdiv (m : ℚ) rate := rnd_nonneg (by positivity)
    generalize fdiv (m : ℚ) rate = D at *
    simp only [clampTime]
    rcases le_or_gt t 0 with h | h
    · rw [max_eq_right h, min_eq_left hd0, hneg h]
      exact stands_of_time hm (by omega) hr le_rfl
    · rw [max_eq_left h.le]
      rcases le_or_gt t D with h2 | h2
      · rw [min_eq_left h2]
        exact stands_of_time hm (by omega) hr h.le
      · rw [min_eq_right h2.le]
        have hq : D * rate < t * rate := mul_lt_mul_of_pos_right h2 hr
        have hq0 : 0 ≤ D * rate := mul_nonneg hd0 hr.le
        unfold framePosition
        generalize D * rate = q at *
        generalize t * rate = s at *
        have hm0 : (0 : ℚ) ≤ m := by positivity
        rcases le_or_gt (m : ℚ) q with h3 | h3
        · left
          have := rnd_mono h3
          rw [rnd_nat (by omega)] at this
          refine ⟨this, ?_⟩
          rw [min_eq_right (by linarith)]
          exact max_eq_right hm0
        · right
          have he := abs_le.mp herr
          have hmb : (m : ℚ) ≤ 2 ^ 23 := by exact_mod_cast hm
          obtain ⟨k, rfl⟩ : ∃ k, m = k + 1 := ⟨m - 1, by omega⟩
          push_cast at *
          have hk : (k : ℚ) ≤ q := by linarith
          obtain ⟨b0, b1⟩ := rnd_between (k := k) (by omega) hk h3.le
          have hp0 : q ≤ max 0 (min s (k + 1)) := le_max_of_le_right (le_min hq.le h3.le)
          have hp1 : max 0 (min s ((k : ℚ) + 1)) ≤ k + 1 := max_le hm0 (min_le_right _ _)
          generalize max 0 (min s ((k : ℚ) + 1)) = p at *
          refine ⟨k, le_rfl, b0, b1, by linarith, hp1, ?_⟩
          have e := rnd_err q
          rw [abs_of_nonneg hq0, show pow2 (-24) = 1 / 2 ^ 24 by decide +kernel] at e
          have e' := abs_le.mp e
          have h150 : pow2 (-150) ≤ 1 / 2 ^ 22 := by decide +kernel
          rw [abs_le]
          constructor <;> linarith
  · simp only [clampTime]
    rcases le_or_gt t 0 with h | h
    · rw [max_eq_right h, hneg h]
      exact stands_of_time hm (by omega) hr le_rfl
    · rw [max_eq_left h.le]
      exact stands_of_time hm (by omega) hr h.le

theorem exists_last {kept : Nat → Prop} (h0 : kept 0) : ∀ k, ∃ a, a ≤ k ∧ kept a ∧ ∀ n, a < n → n ≤ k → ¬ kept n := by
  classical
  intro k
  induction k with
  | zero => exact ⟨0, le_rfl, h0, fun n h1 h2 => by omega⟩
  | succ k ih =>
    by_cases hk : kept (k + 1)
    · exact ⟨k + 1, le_rfl, hk, fun n h1 h2 => by omega⟩
    · obtain ⟨a, h1, h2, h3⟩ := ih
      refine ⟨a, by omega, h2, fun n h4 h5 => ?_⟩
      rcases Nat.lt_or_ge k n with h6 | h6
      · obtain rfl : n = k + 1 := by omega
        exact hk
      · exact h3 n h4 h6

/-- Blending with a factor near where `p` is between two frames. -/
theorem blend_near {a b p va vb alpha W e : ℚ} (hab : 1 ≤ b - a) (hW : |vb - va| ≤ W) (he : |alpha - (p - a) / (b - a)| ≤ e) :
    |((1 - alpha) * va + alpha * vb) - ((b - p) * va + (p - a) * vb) / (b - a)| ≤ W * e := by
  have hne : b - a ≠ 0 := by linarith
  have e1 : ((1 - alpha) * va + alpha * vb) - ((b - p) * va + (p - a) * vb) / (b - a) = (vb - va) * (alpha - (p - a) / (b - a)) := by
    field_simp
    ring
  rw [e1, abs_mul]
  exact mul_le_mul hW he (abs_nonneg _) ((abs_nonneg _).trans hW)

theorem factor_near {a b x p d : ℚ} (hab : 1 ≤ b - a) (hx0 : a ≤ x) (hx1 : x ≤ b) (hd : |x - p| ≤ d) :
    |rnd ((x - a) / (b - a)) - (p - a) / (b - a)| ≤ d + 1 / 2 ^ 23 ∧ |(x - a) / (b - a) - (p - a) / (b - a)| ≤ d + 1 / 2 ^ 23 := by
  have hpos : 0 < b - a := by linarith
  have h2 : |(x - a) / (b - a) - (p - a) / (b - a)| ≤ d := by
    rw [← sub_div, abs_div, abs_of_pos hpos, div_le_iff₀ hpos]
    have : (x - a) - (p - a) = x - p := by ring
    rw [this]
    have hd0 : 0 ≤ d := (abs_nonneg _).trans hd
    nlinarith
  refine ⟨?_, by linarith⟩
  have h0 : 0 ≤ (x - a) / (b - a) := div_nonneg (by linarith) hpos.le
  have h1 : (x - a) / (b - a) ≤ 1 := by rw [div_le_one hpos]; linarith
  have e := rnd_err ((x - a) / (b - a))
  rw [abs_of_nonneg h0, show pow2 (-24) = 1 / 2 ^ 24 by decide +kernel] at e
  have h150 : pow2 (-150) ≤ 1 / 2 ^ 24 := by decide +kernel
  refine (abs_sub_le _ ((x - a) / (b - a)) _).trans ?_
  linarith

theorem nat_sub_ge {a b : Nat} (h : a < b) : (1 : ℚ) ≤ b - a := by
  have : ((a + 1 : Nat) : ℚ) ≤ b := by exact_mod_cast h
  push_cast at this
  linarith

/-- What is blended is the value of the polyline at the position the time stands for. -/
theorem line_of_blend {kept : Nat → Prop} {count : Nat} {loops : Bool} {x p alpha W d : ℚ} {n0 n1 : Nat} {v : Nat → ℚ}
    (hb : Blend kept count loops .none x n0 n1 alpha) (h1 : 1 ≤ count) (k0 : kept 0) (kl : kept (count - 1)) (hlt : ∀ n, kept n → n < count)
    (st : ((lastPosition loops count : ℚ) ≤ x ∧ p = lastPosition loops count) ∨
      ∃ k : Nat, k + 1 ≤ lastPosition loops count ∧ (k : ℚ) ≤ x ∧ x ≤ k + 1 ∧ (k : ℚ) ≤ p ∧ p ≤ k + 1 ∧ |x - p| ≤ d)
    (hd : 0 ≤ d) (hW : ∀ i j, i < count → j < count → |v i - v j| ≤ W) :
    ∃ y, Line kept count loops v p y ∧ |((1 - alpha) * v n0 + alpha * v n1) - y| ≤ W * (d + 1 / 2 ^ 23) := by
  have hW0 : 0 ≤ W := (abs_nonneg _).trans (hW 0 0 h1 h1)
  have hE : 0 ≤ W * (d + 1 / 2 ^ 23) := by positivity
  have val : ∀ n, n < count → valueAt count v n = v n := fun n hn => by unfold valueAt; rw [if_neg (by omega)]
  have vale : valueAt count v count = v 0 := by unfold valueAt; rw [if_pos rfl]
  have same : ∀ a : ℚ, (1 - alpha) * a + alpha * a = a := fun a => by ring
  have hpos : position .none x = x := by unfold position; rw [applyRounding]; ring
  have hWv : ∀ i j, i < count → j < count → |valueAt count v j - v i| ≤ W := fun i j hi hj => by rw [val j hj]; exact hW j i hj hi
  -- the end of a looping clip
  have atEnd : (count : ℚ) ≤ x → loops = true ∧ ((1 - alpha) * v n0 + alpha * v n1) = v 0 := by
    intro h
    obtain ⟨e1, e2, e3⟩ := hb.ends h
    rw [e2, e3]
    exact ⟨e1, same _⟩
  -- the general case: the frames blended are those around
  have around : ∀ a b : Nat, a = n0 → b = n1 → a < b → b < count → (∀ n, a < n → n < b → ¬ kept n) → kept a → kept b →
      (a : ℚ) ≤ x → x ≤ b → (a : ℚ) ≤ p → p ≤ b → |x - p| ≤ d →
      ∃ y, Line kept count loops v p y ∧ |((1 - alpha) * v n0 + alpha * v n1) - y| ≤ W * (d + 1 / 2 ^ 23) := by
    intro a b ea eb hab hbc hn ka kb x0 x1 p0 p1 hdx
    refine ⟨_, .between a b (.inl ⟨ka, by omega⟩) (.inl ⟨kb, hbc⟩) hab hn p0 p1, ?_⟩
    have hal := hb.factor (by omega)
    rw [hpos, ← ea, ← eb] at hal
    rw [← ea, ← eb, val a (by omega), val b hbc, hal]
    exact blend_near (nat_sub_ge hab) (hW b a hbc (by omega)) (factor_near (nat_sub_ge hab) x0 x1 hdx).1
  rcases st with ⟨hx, hp⟩ | ⟨k, hk, x0, x1, p0, p1, hdx⟩
  · cases loops with
    | true =>
      obtain ⟨-, e⟩ := atEnd hx
      refine ⟨_, .frame count (.inr ⟨rfl, rfl⟩) hp, ?_⟩
      rw [e, vale, sub_self, abs_zero]
      exact hE
    | false =>
      have hx' : ((count - 1 : Nat) : ℚ) ≤ x := hx
      have hns : x < count := by
        by_contra h
        have := (hb.ends (not_lt.1 h)).1
        simp at this
      have hfl : ⌊x⌋.toNat = count - 1 := by
        have hx0 : (0 : ℚ) ≤ x := le_trans (by positivity) hx'
        have c := floor_toNat_cast hx0
        have f0 := Int.floor_le x
        have f1 := Int.lt_floor_add_one x
        rw [← c] at f0 f1
        have l1 : ⌊x⌋.toNat < count := by
          have : ((⌊x⌋.toNat : Nat) : ℚ) < count := by linarith
          exact_mod_cast this
        have l2 : count - 1 < ⌊x⌋.toNat + 1 := by
          have : ((count - 1 : Nat) : ℚ) < ((⌊x⌋.toNat + 1 : Nat) : ℚ) := by push_cast; linarith
          exact_mod_cast this
        omega
      have near := hb.inside hns
      rw [hfl] at near
      have e0 : n0 = count - 1 := by
        by_contra h
        exact near.before.2.2 (count - 1) (by have := near.before.1; omega) le_rfl kl
      have e1 : n1 = count - 1 := by
        have := near.after.1
        have l := hlt n1 near.after.2.1
        unfold following at this
        rw [if_neg (by omega)] at this
        simp only [Bool.false_eq_true, if_false] at this
        omega
      refine ⟨_, .frame (count - 1) (.inl ⟨kl, by omega⟩) hp, ?_⟩
      rw [e0, e1, same, val _ (by omega), sub_self, abs_zero]
      exact hE
  · have hkc : k + 1 ≤ count := by
      unfold lastPosition at hk
      split at hk <;> omega
    rcases Nat.lt_or_ge (k + 1) count with hkc1 | hkc1
    · rcases lt_or_eq_of_le x1 with hx1 | hx1
      · -- strictly before the next frame
        have hfl : ⌊x⌋.toNat = k := by
          have : ⌊x⌋ = (k : ℤ) := by rw [Int.floor_eq_iff]; exact ⟨by exact_mod_cast x0, by exact_mod_cast hx1⟩
          rw [this]; simp
        have hkq : (k : ℚ) + 1 ≤ count := by exact_mod_cast hkc
        have near := hb.inside (by linarith)
        rw [hfl] at near
        have fo : following loops count k = k + 1 := by unfold following; rw [if_pos hkc1]
        rw [fo] at near
        have a1 := near.before.1
        have b1 := near.after.1
        have a1q : (n0 : ℚ) ≤ k := by exact_mod_cast a1
        have b1q : (k : ℚ) + 1 ≤ n1 := by exact_mod_cast b1
        refine around n0 n1 rfl rfl (by omega) (hlt _ near.after.2.1) ?_ near.before.2.1 near.after.2.1 (by linarith) (by linarith)
          (by linarith) (by linarith) hdx
        intro n h2 h3
        rcases Nat.lt_or_ge k n with h4 | h4
        · exact near.after.2.2 n h4 h3
        · exact near.before.2.2 n h2 h4
      · -- on the next frame
        have hfl : ⌊x⌋.toNat = k + 1 := by
          have : ⌊x⌋ = ((k + 1 : Nat) : ℤ) := by rw [hx1, show (k : ℚ) + 1 = ((k + 1 : Nat) : ℚ) by push_cast; rfl, Int.floor_natCast]
          rw [this]; simp
        have hkq : (k : ℚ) + 1 < count := by exact_mod_cast hkc1
        have near := hb.inside (by linarith)
        rw [hfl] at near
        classical
        by_cases kk : kept (k + 1)
        · have e0 : n0 = k + 1 := by
            by_contra h
            exact near.before.2.2 (k + 1) (by have := near.before.1; omega) le_rfl kk
          have hbl : (1 - alpha) * v n0 + alpha * v n1 = v (k + 1) := by
            rcases lt_trichotomy n0 n1 with h | h | h
            · have hal := hb.factor h
              rw [hpos, hx1, e0] at hal
              have : (k : ℚ) + 1 - ((k + 1 : Nat) : ℚ) = 0 := by push_cast; ring
              rw [this, zero_div, rnd_zero] at hal
              rw [hal, e0]; ring
            · rw [← h, same, e0]
            · obtain ⟨-, -, -, -, hal⟩ := hb.around h
              rw [hpos, hx1, e0] at hal
              have : (k : ℚ) + 1 - ((k + 1 : Nat) : ℚ) = 0 := by push_cast; ring
              rw [this] at hal
              rw [hal, e0]; ring
          obtain ⟨a, ha1, ha2, ha3⟩ := exists_last k0 k
          have a1q : (a : ℚ) ≤ k := by exact_mod_cast ha1
          refine ⟨_, .between a (k + 1) (.inl ⟨ha2, by omega⟩) (.inl ⟨kk, hkc1⟩) (by omega) (fun n h2 h3 => ha3 n h2 (by omega))
            (by linarith) (by push_cast; exact p1), ?_⟩
          rw [hbl, val a (by omega), val (k + 1) hkc1]
          have := blend_near (a := a) (b := ((k + 1 : Nat) : ℚ)) (p := p) (va := v a) (vb := v (k + 1)) (alpha := 1) (nat_sub_ge (by omega))
            (hW (k + 1) a hkc1 (by omega)) (e := d + 1 / 2 ^ 23) (by
              have h := (factor_near (a := a) (b := ((k + 1 : Nat) : ℚ)) (x := x) (p := p) (nat_sub_ge (by omega)) (by linarith)
                (by push_cast; linarith) hdx).2
              have e : (x - a) / (((k + 1 : Nat) : ℚ) - a) = 1 := by
                rw [hx1]
                have hne : ((k + 1 : Nat) : ℚ) - a ≠ 0 := by have := nat_sub_ge (show a < k + 1 by omega); linarith
                rw [div_eq_one_iff_eq hne]
                push_cast; ring
              rwa [e] at h)
          simpa using this
        · have hne : k + 1 ≠ count - 1 := fun h => kk (h ▸ kl)
          have fo : following loops count (k + 1) = k + 1 + 1 := by unfold following; rw [if_pos (by omega)]
          rw [fo] at near
          have a1 : n0 ≤ k := by
            have := near.before.1
            have : n0 ≠ k + 1 := fun h => kk (h ▸ near.before.2.1)
            omega
          have b1 := near.after.1
          have a1q : (n0 : ℚ) ≤ k := by exact_mod_cast a1
          have b1q : (k : ℚ) + 1 + 1 ≤ n1 := by exact_mod_cast b1
          refine around n0 n1 rfl rfl (by omega) (hlt _ near.after.2.1) ?_ near.before.2.1 near.after.2.1 (by linarith) (by linarith)
            (by linarith) (by linarith) hdx
          intro n h2 h3
          rcases Nat.lt_or_ge (k + 1) n with h4 | h4
          · exact near.after.2.2 n h4 h3
          · exact near.before.2.2 n h2 h4
    · -- from the last frame to the first one
      have ec : k + 1 = count := by omega
      have hl : loops = true := by
        cases loops with
        | true => rfl
        | false =>
          have : k + 1 ≤ count - 1 := hk
          omega
      have ecq : (k : ℚ) + 1 = count := by exact_mod_cast ec
      have kk : kept k := by rw [show k = count - 1 by omega]; exact kl
      refine ⟨_, .between k count (.inl ⟨kk, by omega⟩) (.inr ⟨hl, rfl⟩) (by omega) (fun n h2 h3 => by omega) p0 (by linarith), ?_⟩
      rw [val k (by omega), vale]
      have hge := nat_sub_ge (show k < count by omega)
      have fac := (factor_near (a := k) (b := count) hge x0 (by linarith) hdx).2
      have one : (x - k) / ((count : ℚ) - k) = x - k := by rw [← ecq]; have : (k : ℚ) + 1 - k = 1 := by ring
                                                           rw [this, div_one]
      rw [one] at fac
      have fin : (1 - alpha) * v n0 + alpha * v n1 = (1 - (x - k)) * v k + (x - k) * v 0 := by
        rcases lt_or_eq_of_le x1 with hx1 | hx1
        · have hfl : ⌊x⌋.toNat = k := by
            have : ⌊x⌋ = (k : ℤ) := by rw [Int.floor_eq_iff]; exact ⟨by exact_mod_cast x0, by exact_mod_cast hx1⟩
            rw [this]; simp
          have near := hb.inside (by linarith)
          rw [hfl] at near
          have e0 : n0 = k := by
            by_contra h
            exact near.before.2.2 k (by have := near.before.1; omega) le_rfl kk
          have fo : following loops count k = 0 := by unfold following; rw [if_neg (by omega), if_pos hl]
          rw [fo] at near
          have e1 : n1 = 0 := by
            by_contra h
            exact near.after.2.2 0 le_rfl (by omega) k0
          rcases Nat.eq_zero_or_pos k with hz | hz
          · rw [e0, e1, hz]; ring
          · obtain ⟨-, -, -, -, hal⟩ := hb.around (by omega)
            rw [hpos, e0] at hal
            rw [hal, e0, e1]
        · obtain ⟨-, e⟩ := atEnd (by linarith)
          rw [e, hx1]; ring
      rw [fin]
      exact blend_near hge (hW 0 k h1 (by omega)) fac

end Acl.Polyline
