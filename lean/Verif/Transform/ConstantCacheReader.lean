import Verif.Transform.ConstantCacheLemmas
/-
The two readers of the constant sub-track data: through the cache and one sample at a time.
-/
namespace Acl.Transform

theorem setSlot_spec {samples : Nat → Option Quat} {slot : Nat} (h : slot < 32) (v : Quat) :
    setSlot samples slot v = some (fun i => if i = slot then some v else samples i) := by
  unfold setSlot; rw [if_pos h]

theorem unpackConstFull_spec (m : List (BitVec 8)) (base N : Nat) : ∀ (n w slot : Nat) (samples : Nat → Option Quat),
    slot + n ≤ 32 → base + 16 * (w + n) ≤ m.length →
    ∃ samples', unpackConstFull m n (base + 16 * w) slot samples = some (samples', base + 16 * (w + n)) ∧
      (∀ j, j < n → samples' (slot + j) = rotationAt m base true N (w + j)) ∧
      (∀ i, i < slot ∨ slot + n ≤ i → samples' i = samples i) := by
  intro n
  induction n with
  | zero => intro w slot samples _ _; exact ⟨samples, rfl, fun j hj => absurd hj (by omega), fun _ _ => rfl⟩
  | succ n ih =>
    intro w slot samples hs hm
    obtain ⟨v, hv, _⟩ := loadVec4_isSome (m := m) (k := base + 16 * w) (by omega)
    obtain ⟨s', h1, h2, h3⟩ := ih (w + 1) (slot + 1) (fun i => if i = slot then some (Quat.full v) else samples i)
      (by omega) (by omega)
    refine ⟨s', ?_, ?_, ?_⟩
    · rw [unpackConstFull, hv, Option.bind_some, setSlot_spec (by omega), Option.bind_some,
        show base + 16 * w + 16 = base + 16 * (w + 1) by omega, h1, show w + 1 + n = w + (n + 1) by omega]
    · intro j hj
      match j with
      | 0 =>
        rw [h3 (slot + 0) (Or.inl (by omega)), if_pos (by omega)]
        unfold rotationAt
        rw [if_pos rfl, Nat.add_zero, hv]; rfl
      | j + 1 =>
        have := h2 j (by omega)
        rw [show slot + (j + 1) = slot + 1 + j by omega, this, show w + (j + 1) = w + 1 + j by omega]
    · intro i hi
      rw [h3 i (by omega), if_neg (by omega)]

theorem soaPos_group {N w j : Nat} (hw : w % 4 = 0) (hj : j < 4) (c : Nat) :
    soaPos N (w + j) c = 12 * w + 4 * min 4 (N - w) * c + 4 * j := by
  unfold soaPos
  have h1 : (w + j) / 4 = w / 4 := by omega
  have h2 : (w + j) % 4 = j := by omega
  have h3 : 4 * (w / 4) = w := by omega
  rw [h1, h2, h3]
  have h4 : 48 * (w / 4) = 12 * w := by omega
  rw [h4]

theorem rotationAt_group {m : List (BitVec 8)} {base N w j g : Nat} (hw : w % 4 = 0) (hj : j < 4)
    (hg : g = min 4 (N - w)) {x y z : BitVec 32}
    (hx : loadLE32 m (base + 12 * w + 4 * g * 0 + 4 * j) = some x)
    (hy : loadLE32 m (base + 12 * w + 4 * g * 1 + 4 * j) = some y)
    (hz : loadLE32 m (base + 12 * w + 4 * g * 2 + 4 * j) = some z) :
    rotationAt m base false N (w + j) = some (.dropW ⟨x, y, z⟩) := by
  unfold rotationAt
  rw [if_neg (by decide), soaPos_group hw hj, soaPos_group hw hj, soaPos_group hw hj, ← hg]
  have e : ∀ c, base + (12 * w + 4 * g * c + 4 * j) = base + 12 * w + 4 * g * c + 4 * j := by intro c; omega
  rw [e, e, e, hx, hy, hz]

theorem unpackConstSoa_spec (m : List (BitVec 8)) (base N : Nat) (hm : base + 12 * N + 12 ≤ m.length) :
    ∀ (fuel num w slot : Nat) (samples : Nat → Option Quat),
    num ≤ fuel → w % 4 = 0 → w + num ≤ N → (num % 4 = 0 ∨ w + num = N) → slot + (num + 3) / 4 * 4 ≤ 32 →
    ∃ samples', unpackConstSoa m fuel num (base + 12 * w) slot samples = some (samples', base + 12 * (w + num)) ∧
      (∀ j, j < num → samples' (slot + j) = rotationAt m base false N (w + j)) ∧
      (∀ i, i < slot ∨ slot + (num + 3) / 4 * 4 ≤ i → samples' i = samples i) := by
  intro fuel
  induction fuel with
  | zero =>
    intro num w slot samples hf _ _ _ _
    have : num = 0 := by omega
    subst this
    exact ⟨samples, rfl, fun j hj => absurd hj (by omega), fun _ _ => rfl⟩
  | succ fuel ih =>
    intro num w slot samples hf hw hN hl hs
    by_cases h0 : num = 0
    · subst h0
      exact ⟨samples, by rw [unpackConstSoa, if_pos rfl, Nat.add_zero], fun j hj => absurd hj (by omega), fun _ _ => rfl⟩
    · obtain ⟨g, hg⟩ : ∃ g, g = min num 4 := ⟨_, rfl⟩
      have hg' : g = min 4 (N - w) := by omega
      obtain ⟨X, hX, x0, x1, x2, x3⟩ := loadVec4_isSome (m := m) (k := base + 12 * w + g * 4 * 0) (by omega)
      obtain ⟨Y, hY, y0, y1, y2, y3⟩ := loadVec4_isSome (m := m) (k := base + 12 * w + g * 4 * 1) (by omega)
      obtain ⟨Z, hZ, z0, z1, z2, z3⟩ := loadVec4_isSome (m := m) (k := base + 12 * w + g * 4 * 2) (by omega)
      obtain ⟨s1, hs1⟩ : ∃ s1 : Nat → Option Quat, s1 = (fun i => if i = slot + 3 then some (Quat.dropW ⟨X.w, Y.w, Z.w⟩) else
        if i = slot + 2 then some (Quat.dropW ⟨X.z, Y.z, Z.z⟩) else
        if i = slot + 1 then some (Quat.dropW ⟨X.y, Y.y, Z.y⟩) else
        if i = slot + 0 then some (Quat.dropW ⟨X.x, Y.x, Z.x⟩) else samples i) := ⟨_, rfl⟩
      have hlane : ∀ j, j < 4 → s1 (slot + j) = rotationAt m base false N (w + j) := by
        intro j hj
        have e : ∀ c j, base + 12 * w + 4 * g * c + 4 * j = base + 12 * w + g * 4 * c + 4 * j := by
          intro c j; rw [Nat.mul_comm 4 g]
        rw [hs1]
        match j, hj with
        | 0, _ =>
          dsimp only
          rw [if_neg (by omega), if_neg (by omega), if_neg (by omega), if_pos (by omega)]
          exact (rotationAt_group hw (by omega) hg' (by rw [e]; exact x0) (by rw [e]; exact y0) (by rw [e]; exact z0)).symm
        | 1, _ =>
          dsimp only
          rw [if_neg (by omega), if_neg (by omega), if_pos (by omega)]
          exact (rotationAt_group hw (by omega) hg' (by rw [e]; exact x1) (by rw [e]; exact y1) (by rw [e]; exact z1)).symm
        | 2, _ =>
          dsimp only
          rw [if_neg (by omega), if_pos (by omega)]
          exact (rotationAt_group hw (by omega) hg' (by rw [e]; exact x2) (by rw [e]; exact y2) (by rw [e]; exact z2)).symm
        | 3, _ =>
          dsimp only
          rw [if_pos (by omega)]
          exact (rotationAt_group hw (by omega) hg' (by rw [e]; exact x3) (by rw [e]; exact y3) (by rw [e]; exact z3)).symm
      have hkeep : ∀ i, i < slot ∨ slot + 4 ≤ i → s1 i = samples i := by
        intro i hi
        rw [hs1]; dsimp only
        rw [if_neg (by omega), if_neg (by omega), if_neg (by omega), if_neg (by omega)]
      have hgo : unpackConstSoa m (fuel + 1) num (base + 12 * w) slot samples =
          unpackConstSoa m fuel (num - g) (base + 12 * (w + g)) (slot + 4) s1 := by
        rw [unpackConstSoa, if_neg h0]
        dsimp only
        rw [← hg, hX, Option.bind_some, hY, Option.bind_some, hZ, Option.bind_some, setSlot_spec (by omega), Option.bind_some,
          setSlot_spec (by omega), Option.bind_some, setSlot_spec (by omega), Option.bind_some, setSlot_spec (by omega),
          Option.bind_some, ← hs1]
        congr 1
        omega
      rw [hgo]
      by_cases h4 : num < 4
      · have hgn : g = num := by omega
        rw [hgn, Nat.sub_self]
        have : unpackConstSoa m fuel 0 (base + 12 * (w + num)) (slot + 4) s1 = some (s1, base + 12 * (w + num)) := by
          cases fuel with
          | zero => rfl
          | succ f => rw [unpackConstSoa, if_pos rfl]
        refine ⟨s1, this, fun j hj => hlane j (by omega), fun i hi => hkeep i (by omega)⟩
      · have hg4 : g = 4 := by omega
        rw [hg4]
        obtain ⟨s', h1, h2, h3⟩ := ih (num - 4) (w + 4) (slot + 4) s1 (by omega) (by omega) (by omega) (by omega) (by omega)
        refine ⟨s', ?_, ?_, ?_⟩
        · rw [h1]; congr 3; omega
        · intro j hj
          by_cases hj4 : j < 4
          · rw [h3 (slot + j) (Or.inl (by omega))]; exact hlane j hj4
          · have := h2 (j - 4) (by omega)
            rw [show slot + 4 + (j - 4) = slot + j by omega, show w + 4 + (j - 4) = w + j by omega] at this
            exact this
        · intro i hi
          rw [h3 i (by omega)]; exact hkeep i (by omega)

/-- Size of a packed constant rotation. -/
def rotSize (full : Bool) : Nat := if full then 16 else 12

/-- State of the cache when `k` of the `N` rotations were consumed. -/
structure CacheInv (m : List (BitVec 8)) (base : Nat) (full : Bool) (N k : Nat) (c : ConstCache) : Prop where
  read : c.read = k
  le : k ≤ c.write
  total : c.write + c.left = N
  align : c.left ≠ 0 → c.write % 16 = 0
  ptr : c.rotations = base + rotSize full * c.write
  cached : ∀ j, k ≤ j → j < c.write → c.samples (j % 32) = rotationAt m base full N j

theorem init_inv (m : List (BitVec 8)) (size base : Nat) (full : Bool) (N nt : Nat) :
    CacheInv m base full N 0 (ConstCache.init size base N nt) :=
  ⟨rfl, Nat.le_refl _, Nat.zero_add _, fun _ => rfl, by simp [ConstCache.init], fun j _ h => absurd h (by simp [ConstCache.init])⟩

/-- Everything of a cache that the rotations do not touch. -/
def SameVectors (c c' : ConstCache) : Prop := c'.translations = c.translations ∧ c'.scales = c.scales

theorem unpackGroup_spec {m : List (BitVec 8)} {base : Nat} {full : Bool} {N k : Nat} {c : ConstCache}
    (hm : base + rotSize full * N + 12 ≤ m.length) (h : CacheInv m base full N k c) :
    ∃ c', c.unpackGroup m full = some c' ∧ CacheInv m base full N k c' ∧ min N (k + 16) ≤ c'.write ∧ SameVectors c c' := by
  obtain ⟨hr, hle, ht, ha, hp, hc⟩ := h
  unfold ConstCache.unpackGroup
  by_cases h0 : c.left = 0
  · rw [if_pos h0]
    exact ⟨c, rfl, ⟨hr, hle, ht, ha, hp, hc⟩, by omega, rfl, rfl⟩
  · rw [if_neg h0]
    by_cases h16 : c.write - c.read ≥ 16
    · rw [if_pos h16]
      exact ⟨c, rfl, ⟨hr, hle, ht, ha, hp, hc⟩, by omega, rfl, rfl⟩
    · rw [if_neg h16]
      have ha' := ha h0
      dsimp only
      obtain ⟨num, hn⟩ : ∃ num, num = min c.left 16 := ⟨_, rfl⟩
      rw [← hn, hp]
      obtain ⟨s', h1, h2, h3⟩ : ∃ samples', (if full then unpackConstFull m num (base + rotSize full * c.write) (c.write % 32) c.samples
          else unpackConstSoa m num num (base + rotSize full * c.write) (c.write % 32) c.samples) =
            some (samples', base + rotSize full * (c.write + num)) ∧
          (∀ j, j < num → samples' (c.write % 32 + j) = rotationAt m base full N (c.write + j)) ∧
          (∀ i, i < c.write % 32 ∨ c.write % 32 + 16 ≤ i → samples' i = c.samples i) := by
        cases full with
        | true =>
          obtain ⟨s', h1, h2, h3⟩ := unpackConstFull_spec m base N num c.write (c.write % 32) c.samples (by omega)
            (by simp only [rotSize, if_true] at hm; omega)
          exact ⟨s', h1, h2, fun i hi => h3 i (by omega)⟩
        | false =>
          obtain ⟨s', h1, h2, h3⟩ := unpackConstSoa_spec m base N (by simpa [rotSize] using hm) num num c.write (c.write % 32) c.samples
            (Nat.le_refl _) (by omega) (by omega) (by omega) (by omega)
          exact ⟨s', h1, h2, fun i hi => h3 i (by omega)⟩
      rw [h1, Option.bind_some]
      refine ⟨_, rfl, ⟨hr, ?_, ?_, ?_, ?_, ?_⟩, ?_, rfl, rfl⟩
      · dsimp only; omega
      · dsimp only; omega
      · dsimp only; omega
      · rfl
      · dsimp only
        intro j hj1 hj2
        by_cases hj : j < c.write
        · rw [h3 (j % 32) (by omega)]
          exact hc j hj1 hj
        · have := h2 (j - c.write) (by omega)
          rw [show c.write + (j - c.write) = j by omega] at this
          rw [← this]
          congr 1; omega
      · dsimp only; omega

theorem consumeRotation_spec {m : List (BitVec 8)} {base : Nat} {full : Bool} {N k : Nat} {c : ConstCache} {q : Quat}
    (h : CacheInv m base full N k c) (hk : k < c.write) (hq : rotationAt m base full N k = some q) :
    ∃ c', c.consumeRotation = some (q, c') ∧ CacheInv m base full N (k + 1) c' ∧ c'.write = c.write ∧ SameVectors c c' := by
  obtain ⟨hr, hle, ht, ha, hp, hc⟩ := h
  unfold ConstCache.consumeRotation
  rw [if_pos (by omega), hr, hc k (Nat.le_refl _) hk, hq, Option.bind_some]
  exact ⟨_, rfl, ⟨rfl, hk, ht, ha, hp, fun j h1 h2 => hc j (by omega) h2⟩, rfl, rfl, rfl⟩

/-- Reading one rotation without the cache: skip whole groups, then pick the lane. -/
theorem rotationWithinGroup_spec {m : List (BitVec 8)} {base : Nat} {full : Bool} {N : Nat} (size nt : Nat) {k : Nat} (hk : k < N)
    (c : ConstCache)
    (hskip : (if k / 4 ≠ 0 then (ConstCache.init size base N nt).skipRotationGroups full (k / 4)
      else some (ConstCache.init size base N nt)) = some c) :
    c.rotationWithinGroup m full (k % 4) = rotationAt m base full N k := by
  have hc : c.left = N - 4 * (k / 4) ∧ c.rotations = base + 4 * (k / 4) * rotSize full := by
    by_cases h0 : k / 4 ≠ 0
    · rw [if_pos h0] at hskip
      unfold ConstCache.skipRotationGroups ConstCache.init at hskip
      dsimp only at hskip
      rw [if_pos (by omega)] at hskip
      injection hskip with hskip
      subst hskip
      constructor
      · dsimp only; omega
      · dsimp only; rw [Nat.mul_comm 4 (k / 4)]; rfl
    · rw [if_neg h0] at hskip
      injection hskip with hskip
      subst hskip
      have : k / 4 = 0 := by omega
      rw [this]
      constructor
      · simp [ConstCache.init]
      · simp [ConstCache.init]
  unfold ConstCache.rotationWithinGroup
  rw [hc.1, hc.2, if_pos ⟨by omega, by omega⟩]
  cases full with
  | true =>
    rw [if_pos rfl]
    unfold rotationAt
    rw [if_pos rfl]
    have : base + 4 * (k / 4) * rotSize true + k % 4 * 16 = base + 16 * k := by simp only [rotSize, if_true]; omega
    rw [this]
    cases loadVec4 m (base + 16 * k) <;> rfl
  | false =>
    rw [if_neg (by decide)]
    dsimp only
    unfold rotationAt soaPos
    rw [if_neg (by decide)]
    have e : ∀ c, base + 4 * (k / 4) * rotSize false + k % 4 * 4 + min (N - 4 * (k / 4)) 4 * c * 4 =
        base + (48 * (k / 4) + 4 * min 4 (N - 4 * (k / 4)) * c + 4 * (k % 4)) := by
      intro c
      have : min (N - 4 * (k / 4)) 4 * c * 4 = 4 * min 4 (N - 4 * (k / 4)) * c := by
        rw [Nat.min_comm, Nat.mul_right_comm, Nat.mul_comm _ 4]
      rw [this]; simp only [rotSize]; simp only [Bool.false_eq_true, if_false]; omega
    rw [e, e, e]
    cases loadLE32 m (base + (48 * (k / 4) + 4 * min 4 (N - 4 * (k / 4)) * 0 + 4 * (k % 4))) <;>
    cases loadLE32 m (base + (48 * (k / 4) + 4 * min 4 (N - 4 * (k / 4)) * 1 + 4 * (k % 4))) <;>
    cases loadLE32 m (base + (48 * (k / 4) + 4 * min 4 (N - 4 * (k / 4)) * 2 + 4 * (k % 4))) <;> rfl

theorem rotationAt_isSome {m : List (BitVec 8)} {base : Nat} {full : Bool} {N k : Nat} (hk : k < N)
    (hm : base + rotSize full * N ≤ m.length) : ∃ q, rotationAt m base full N k = some q := by
  cases full with
  | true =>
    obtain ⟨v, hv, _⟩ := loadVec4_isSome (m := m) (k := base + 16 * k) (by simp only [rotSize, if_true] at hm; omega)
    unfold rotationAt
    rw [if_pos rfl, hv]; exact ⟨_, rfl⟩
  | false =>
    have hm' : base + 12 * N ≤ m.length := by simpa [rotSize] using hm
    have b : ∀ c, c < 3 → base + soaPos N k c + 4 ≤ m.length := by
      intro c hc
      unfold soaPos
      have h1 : 4 * min 4 (N - 4 * (k / 4)) * c ≤ 4 * min 4 (N - 4 * (k / 4)) * 2 := Nat.mul_le_mul_left _ (by omega)
      omega
    obtain ⟨x, hx⟩ := loadLE32_isSome (b 0 (by decide))
    obtain ⟨y, hy⟩ := loadLE32_isSome (b 1 (by decide))
    obtain ⟨z, hz⟩ := loadLE32_isSome (b 2 (by decide))
    unfold rotationAt
    rw [if_neg (by decide), hx, hy, hz]; exact ⟨_, rfl⟩

end Acl.Transform
