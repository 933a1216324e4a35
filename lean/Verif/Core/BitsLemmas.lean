import Verif.Core.Bits
/-! Helper lemmas for the SWAR population count. -/
namespace Acl

/-- Number of indices below `n` at which `p` holds. -/
def countBelow (n : Nat) (p : Nat → Bool) : Nat := (List.range n).countP p

theorem countBelow_succ (n : Nat) (p : Nat → Bool) :
    countBelow (n + 1) p = countBelow n p + (if p n then 1 else 0) := by
  simp [countBelow, List.range_succ, List.countP_append, List.countP_cons]

theorem countBelow_congr {n : Nat} {p q : Nat → Bool} (h : ∀ i, i < n → p i = q i) :
    countBelow n p = countBelow n q := by
  induction n with
  | zero => rfl
  | succ n ih =>
    rw [countBelow_succ, countBelow_succ, ih (fun i hi => h i (by omega)), h n (by omega)]

theorem countBelow_add (m n : Nat) (p : Nat → Bool) :
    countBelow (m + n) p = countBelow m p + countBelow n (fun i => p (m + i)) := by
  induction n with
  | zero => simp [countBelow]
  | succ n ih => rw [← Nat.add_assoc, countBelow_succ, ih, countBelow_succ]; omega

theorem and_byte (x y : Nat) :
    x &&& y = (x % 256 &&& y % 256) + 256 * ((x / 256) &&& (y / 256)) := by
  have h1 : (x &&& y) % 2^8 = (x % 2^8 &&& y % 2^8) := Nat.and_mod_two_pow
  have h2 : (x &&& y) / 2^8 = (x / 2^8 &&& y / 2^8) := Nat.and_div_two_pow
  have := Nat.mod_add_div (x &&& y) 256
  simp at h1 h2
  omega

def f1 (a : Nat) : Nat := a - ((a / 2) &&& 0x55)
def f2 (a : Nat) : Nat := (a &&& 0x33) + ((a / 4) &&& 0x33)
def f3 (a : Nat) : Nat := (a + a / 16) &&& 0x0F


theorem byte_facts : ∀ a : Fin 256,
    (∀ c : Fin 2, (a.val / 2 + 128 * c.val) &&& 0x55 = (a.val / 2) &&& 0x55) ∧
    ((a.val / 2) &&& 0x55) ≤ a.val ∧
    f3 (f2 (f1 a.val)) = countBelow 8 (fun i => a.val.testBit i) ∧
    (∀ c : Fin 4, (a.val / 4 + 64 * c.val) &&& 0x33 = (a.val / 4) &&& 0x33) ∧
    (f1 a.val < 256) ∧ (f2 a.val) % 16 ≤ 6 ∧ (f2 a.val) / 16 ≤ 6 ∧ f2 a.val < 256 := by
  decide +kernel

theorem byte_facts3 : ∀ a : Fin 256, ∀ c : Fin 7, a.val % 16 ≤ 6 ∧ a.val / 16 ≤ 6 →
    (a.val + a.val / 16 + 16 * c.val) &&& 0x0F = f3 a.val := by
  decide +kernel

/-- `n` bytes all equal to `m`. -/
def bmask : Nat → Nat → Nat
  | 0, _ => 0
  | n+1, m => m + 256 * bmask n m

/-- Apply a byte function to each of the `n` low bytes. -/
def mapB : Nat → (Nat → Nat) → Nat → Nat
  | 0, _, _ => 0
  | n+1, f, x => f (x % 256) + 256 * mapB n f (x / 256)

def sumB : Nat → (Nat → Nat) → Nat → Nat
  | 0, _, _ => 0
  | n+1, f, x => f (x % 256) + sumB n f (x / 256)

theorem mapB_mod (n : Nat) (f : Nat → Nat) (x : Nat) (h : ∀ a, a < 256 → f a < 256) :
    mapB (n+1) f x % 256 = f (x % 256) ∧ mapB (n+1) f x / 256 = mapB n f (x / 256) := by
  have := h (x % 256) (by omega)
  simp only [mapB]; omega

theorem mapB_lt (n : Nat) (f : Nat → Nat) (x : Nat) (h : ∀ a, a < 256 → f a < 256) :
    mapB n f x < 256 ^ n := by
  induction n generalizing x with
  | zero => simp [mapB]
  | succ n ih =>
    have := h (x % 256) (by omega)
    have := ih (x / 256)
    simp only [mapB]; rw [Nat.pow_succ]; omega

theorem mapB_mapB (n : Nat) (f g : Nat → Nat) (x : Nat) (h : ∀ a, a < 256 → f a < 256) :
    mapB n g (mapB n f x) = mapB n (fun a => g (f a)) x := by
  induction n generalizing x with
  | zero => rfl
  | succ n ih =>
    have ⟨h1, h2⟩ := mapB_mod n f x h
    rw [mapB, h1, h2, ih]; rfl

theorem mapB_congr (n : Nat) (f g : Nat → Nat) (x : Nat) (h : ∀ a, a < 256 → f a = g a) :
    mapB n f x = mapB n g x := by
  induction n generalizing x with
  | zero => rfl
  | succ n ih => rw [mapB, mapB, ih, h _ (by omega)]

theorem step1 (n x : Nat) (hx : x < 256 ^ n) :
    ((x / 2) &&& bmask n 0x55) ≤ x ∧ x - ((x / 2) &&& bmask n 0x55) = mapB n f1 x := by
  induction n generalizing x with
  | zero => simp at hx; subst hx; simp [mapB]
  | succ n ih =>
    rw [Nat.pow_succ] at hx
    have ⟨i1, i2⟩ := ih (x / 256) (by omega)
    have ⟨b1, b2, _⟩ := byte_facts ⟨x % 256, by omega⟩
    have b1 := b1 ⟨(x / 256) % 2, by omega⟩
    simp only at b1 b2
    rw [and_byte (x / 2) (bmask (n+1) 0x55)]
    simp only [bmask, mapB]
    have e1 : (0x55 + 256 * bmask n 0x55) % 256 = 0x55 := by omega
    have e2 : (0x55 + 256 * bmask n 0x55) / 256 = bmask n 0x55 := by omega
    have e3 : (x / 2) % 256 = (x % 256) / 2 + 128 * ((x / 256) % 2) := by omega
    have e4 : (x / 2) / 256 = (x / 256) / 2 := by omega
    rw [e1, e2, e3, e4, b1, ← i2, f1]
    omega

theorem step2 (n x : Nat) (hx : x < 256 ^ n) :
    (x &&& bmask n 0x33) + ((x / 4) &&& bmask n 0x33) = mapB n f2 x := by
  induction n generalizing x with
  | zero => simp at hx; subst hx; simp [mapB]
  | succ n ih =>
    rw [Nat.pow_succ] at hx
    have i2 := ih (x / 256) (by omega)
    have ⟨_, _, _, b1, _⟩ := byte_facts ⟨x % 256, by omega⟩
    have b1 := b1 ⟨(x / 256) % 4, by omega⟩
    simp only at b1
    rw [and_byte (x / 4) (bmask (n+1) 0x33), and_byte x (bmask (n+1) 0x33)]
    simp only [bmask, mapB]
    have e1 : (0x33 + 256 * bmask n 0x33) % 256 = 0x33 := by omega
    have e2 : (0x33 + 256 * bmask n 0x33) / 256 = bmask n 0x33 := by omega
    have e3 : (x / 4) % 256 = (x % 256) / 4 + 64 * ((x / 256) % 4) := by omega
    have e4 : (x / 4) / 256 = (x / 256) / 4 := by omega
    rw [e1, e2, e3, e4, b1, ← i2, f2]
    omega

def GoodB : Nat → Nat → Prop
  | 0, x => x = 0
  | n+1, x => (x % 256) % 16 ≤ 6 ∧ (x % 256) / 16 ≤ 6 ∧ GoodB n (x / 256)

theorem goodB_mapB (n : Nat) (f : Nat → Nat) (x : Nat) (h : ∀ a, a < 256 → f a < 256)
    (hg : ∀ a, a < 256 → f a % 16 ≤ 6 ∧ f a / 16 ≤ 6) : GoodB n (mapB n f x) := by
  induction n generalizing x with
  | zero => rfl
  | succ n ih =>
    have ⟨h1, h2⟩ := mapB_mod n f x h
    have h3 := hg (x % 256) (by omega)
    simp only [GoodB, h1, h2]
    exact ⟨h3.1, h3.2, ih _⟩

theorem goodB_mod16 (n x : Nat) (h : GoodB n x) : x % 16 ≤ 6 := by
  cases n with
  | zero => simp [GoodB] at h; omega
  | succ n => have := h.1; omega

theorem step3 (n x : Nat) (hg : GoodB n x) :
    ((x + x / 16) &&& bmask n 0x0F) = mapB n f3 x := by
  induction n generalizing x with
  | zero => simp [GoodB] at hg; subst hg; simp [mapB]
  | succ n ih =>
    obtain ⟨g1, g2, g3⟩ := hg
    have i2 := ih (x / 256) g3
    have g4 := goodB_mod16 n _ g3
    have b1 := byte_facts3 ⟨x % 256, by omega⟩ ⟨(x / 256) % 16, by omega⟩ ⟨g1, g2⟩
    simp only at b1
    rw [and_byte (x + x / 16) (bmask (n+1) 0x0F)]
    simp only [bmask, mapB]
    have e1 : (0x0F + 256 * bmask n 0x0F) % 256 = 0x0F := by omega
    have e2 : (0x0F + 256 * bmask n 0x0F) / 256 = bmask n 0x0F := by omega
    have e3 : (x + x / 16) % 256 = x % 256 + x % 256 / 16 + 16 * (x / 256 % 16) := by omega
    have e4 : (x + x / 16) / 256 = (x / 256) + (x / 256) / 16 := by omega
    rw [e1, e2, e3, e4, b1, ← i2]

theorem countBelow_bytes (n x : Nat) :
    countBelow (8 * n) (fun i => x.testBit i) =
      sumB n (fun a => countBelow 8 (fun i => a.testBit i)) x := by
  induction n generalizing x with
  | zero => rfl
  | succ n ih =>
    have : 8 * (n + 1) = 8 + 8 * n := by omega
    rw [this, countBelow_add, sumB, ← ih]
    congr 1
    · apply countBelow_congr
      intro i hi
      have : (256 : Nat) = 2 ^ 8 := by rfl
      rw [this, Nat.testBit_mod_two_pow]; simp [hi]
    · apply countBelow_congr
      intro i hi
      have : (256 : Nat) = 2 ^ 8 := by rfl
      rw [this, Nat.testBit_div_two_pow, Nat.add_comm]

theorem f1_lt (a : Nat) (h : a < 256) : f1 a < 256 := (byte_facts ⟨a, h⟩).2.2.2.2.1
theorem f2_lt (a : Nat) (h : a < 256) : f2 a < 256 := (byte_facts ⟨a, h⟩).2.2.2.2.2.2.2

theorem swar (n x : Nat) (_hx : x < 256 ^ n) :
    mapB n f3 (mapB n f2 (mapB n f1 x)) =
      mapB n (fun a => countBelow 8 (fun i => a.testBit i)) x := by
  rw [mapB_mapB _ _ _ _ f1_lt, mapB_mapB n _ f3 x (fun a h => f2_lt _ (f1_lt a h))]
  apply mapB_congr
  intro a h
  exact (byte_facts ⟨a, h⟩).2.2.1

theorem countBelow_le (n : Nat) (p : Nat → Bool) : countBelow n p ≤ n := by
  simpa [countBelow] using List.countP_le_length (p := p) (l := List.range n)

/-- The number of one bits of a word, by counting positions. -/
def popSpec {w : Nat} (v : BitVec w) : Nat := countBelow w (fun i => v.getLsbD i)

theorem mulsum4 (a b c d : Nat) (ha : a ≤ 8) (hb : b ≤ 8) (hc : c ≤ 8) (hd : d ≤ 8) :
    (a + 256 * (b + 256 * (c + 256 * (d + 256 * 0)))) * 0x01010101 % 2 ^ 32 / 2 ^ 24 =
      a + (b + (c + (d + 0))) := by
  have e : (a + 256 * (b + 256 * (c + 256 * (d + 256 * 0)))) * 0x01010101 =
    (a + (a+b)*256 + (a+b+c)*65536 + (a+b+c+d)*2^24) +
      2^32 * ((b+c+d) + (c+d)*256 + d*65536) := by omega
  rw [e, Nat.add_mul_mod_self_left, Nat.mod_eq_of_lt] <;> omega

theorem mulsum8 (a b c d e f g h : Nat) (ha : a ≤ 8) (hb : b ≤ 8) (hc : c ≤ 8) (hd : d ≤ 8)
    (he : e ≤ 8) (hf : f ≤ 8) (hg : g ≤ 8) (hh : h ≤ 8) :
    (a + 256 * (b + 256 * (c + 256 * (d + 256 * (e + 256 * (f + 256 * (g + 256 * (h + 256 * 0)))))))) * 0x0101010101010101 % 2 ^ 64 / 2 ^ 56 =
      a + (b + (c + (d + (e + (f + (g + (h + 0))))))) := by
  have e : (a + 256 * (b + 256 * (c + 256 * (d + 256 * (e + 256 * (f + 256 * (g + 256 * (h + 256 * 0)))))))) * 0x0101010101010101 =
    (a + (a+b)*2^8 + (a+b+c)*2^16 + (a+b+c+d)*2^24 + (a+b+c+d+e)*2^32 + (a+b+c+d+e+f)*2^40
      + (a+b+c+d+e+f+g)*2^48 + (a+b+c+d+e+f+g+h)*2^56) +
      2^64 * ((b+c+d+e+f+g+h) + (c+d+e+f+g+h)*2^8 + (d+e+f+g+h)*2^16 + (e+f+g+h)*2^24
        + (f+g+h)*2^32 + (g+h)*2^40 + h*2^48) := by omega
  rw [e, Nat.add_mul_mod_self_left, Nat.mod_eq_of_lt] <;> omega

theorem countSetBits32_toNat (v : BitVec 32) : (countSetBits32 v).toNat = popSpec v := by
  have hv := v.isLt
  have hx : v.toNat < 256 ^ 4 := by simpa using hv
  obtain ⟨a1, a2⟩ := step1 4 v.toNat hx
  have hy := mapB_lt 4 f1 v.toNat f1_lt
  have b2 := step2 4 _ hy
  have hz := mapB_lt 4 f2 (mapB 4 f1 v.toNat) f2_lt
  have hz' := goodB_mapB 4 f2 (mapB 4 f1 v.toNat) f2_lt
    (fun a h => ⟨(byte_facts ⟨a, h⟩).2.2.2.2.2.1, (byte_facts ⟨a, h⟩).2.2.2.2.2.2.1⟩)
  have c3 := step3 4 _ hz'
  rw [swar 4 _ hx] at c3
  have m55 : bmask 4 0x55 = 0x55555555 := by rfl
  have m33 : bmask 4 0x33 = 0x33333333 := by rfl
  have m0F : bmask 4 0x0F = 0x0F0F0F0F := by rfl
  rw [m55] at a1 a2; rw [m33] at b2; rw [m0F] at c3
  have h1 : (v - ((v >>> 1) &&& 0x55555555#32)).toNat = mapB 4 f1 v.toNat := by
    rw [← a2, BitVec.toNat_sub_of_le]
    · simp [Nat.shiftRight_eq_div_pow]
    · simp [BitVec.le_def, Nat.shiftRight_eq_div_pow]; exact a1
  generalize hw1 : v - ((v >>> 1) &&& 0x55555555#32) = v1 at h1
  have h2 : ((v1 &&& 0x33333333#32) + ((v1 >>> 2) &&& 0x33333333#32)).toNat
      = mapB 4 f2 (mapB 4 f1 v.toNat) := by
    rw [BitVec.toNat_add, ← b2, ← h1]
    simp only [BitVec.toNat_and, BitVec.toNat_ushiftRight, Nat.shiftRight_eq_div_pow]
    rw [Nat.mod_eq_of_lt]
    · rfl
    · rw [← h1] at b2
      have : 256 ^ 4 = 2 ^ 32 := by rfl
      rw [this] at hz
      rw [← h1, ← b2] at hz
      exact hz
  generalize hw2 : (v1 &&& 0x33333333#32) + ((v1 >>> 2) &&& 0x33333333#32) = v2 at h2
  have h3 : ((v2 + (v2 >>> 4)) &&& 0x0F0F0F0F#32).toNat =
      mapB 4 (fun a => countBelow 8 (fun i => a.testBit i)) v.toNat := by
    rw [← c3, ← h2]
    simp only [BitVec.toNat_and, BitVec.toNat_add, BitVec.toNat_ushiftRight,
      Nat.shiftRight_eq_div_pow]
    rw [Nat.mod_eq_of_lt]
    · rfl
    · rw [← h2] at hz'
      simp only [GoodB] at hz'
      have := v2.isLt
      omega
  have hpop : popSpec v = sumB 4 (fun a => countBelow 8 (fun i => a.testBit i)) v.toNat := by
    rw [← countBelow_bytes]; rfl
  unfold countSetBits32
  simp only [hw1, hw2]
  rw [hpop, BitVec.toNat_ushiftRight, BitVec.toNat_mul, h3]
  simp only [mapB, sumB, Nat.shiftRight_eq_div_pow]
  exact mulsum4 _ _ _ _ (countBelow_le 8 _) (countBelow_le 8 _) (countBelow_le 8 _) (countBelow_le 8 _)

theorem countSetBits64_toNat (v : BitVec 64) : (countSetBits64 v).toNat = popSpec v := by
  have hv := v.isLt
  have hx : v.toNat < 256 ^ 8 := by simpa using hv
  obtain ⟨a1, a2⟩ := step1 8 v.toNat hx
  have hy := mapB_lt 8 f1 v.toNat f1_lt
  have b2 := step2 8 _ hy
  have hz := mapB_lt 8 f2 (mapB 8 f1 v.toNat) f2_lt
  have hz' := goodB_mapB 8 f2 (mapB 8 f1 v.toNat) f2_lt
    (fun a h => ⟨(byte_facts ⟨a, h⟩).2.2.2.2.2.1, (byte_facts ⟨a, h⟩).2.2.2.2.2.2.1⟩)
  have c3 := step3 8 _ hz'
  rw [swar 8 _ hx] at c3
  have m55 : bmask 8 0x55 = 0x5555555555555555 := by rfl
  have m33 : bmask 8 0x33 = 0x3333333333333333 := by rfl
  have m0F : bmask 8 0x0F = 0x0F0F0F0F0F0F0F0F := by rfl
  rw [m55] at a1 a2; rw [m33] at b2; rw [m0F] at c3
  have h1 : (v - ((v >>> 1) &&& 0x5555555555555555#64)).toNat = mapB 8 f1 v.toNat := by
    rw [← a2, BitVec.toNat_sub_of_le]
    · simp [Nat.shiftRight_eq_div_pow]
    · simp [BitVec.le_def, Nat.shiftRight_eq_div_pow]; exact a1
  generalize hw1 : v - ((v >>> 1) &&& 0x5555555555555555#64) = v1 at h1
  have h2 : ((v1 &&& 0x3333333333333333#64) + ((v1 >>> 2) &&& 0x3333333333333333#64)).toNat
      = mapB 8 f2 (mapB 8 f1 v.toNat) := by
    rw [BitVec.toNat_add, ← b2, ← h1]
    simp only [BitVec.toNat_and, BitVec.toNat_ushiftRight, Nat.shiftRight_eq_div_pow]
    rw [Nat.mod_eq_of_lt]
    · rfl
    · rw [← h1] at b2
      have : 256 ^ 8 = 2 ^ 64 := by rfl
      rw [this] at hz
      rw [← h1, ← b2] at hz
      exact hz
  generalize hw2 : (v1 &&& 0x3333333333333333#64) + ((v1 >>> 2) &&& 0x3333333333333333#64) = v2 at h2
  have h3 : ((v2 + (v2 >>> 4)) &&& 0x0F0F0F0F0F0F0F0F#64).toNat =
      mapB 8 (fun a => countBelow 8 (fun i => a.testBit i)) v.toNat := by
    rw [← c3, ← h2]
    simp only [BitVec.toNat_and, BitVec.toNat_add, BitVec.toNat_ushiftRight,
      Nat.shiftRight_eq_div_pow]
    rw [Nat.mod_eq_of_lt]
    · rfl
    · rw [← h2] at hz'
      simp only [GoodB] at hz'
      have := v2.isLt
      omega
  have hpop : popSpec v = sumB 8 (fun a => countBelow 8 (fun i => a.testBit i)) v.toNat := by
    rw [← countBelow_bytes]; rfl
  unfold countSetBits64
  simp only [hw1, hw2]
  rw [hpop, BitVec.toNat_ushiftRight, BitVec.toNat_mul, h3]
  simp only [mapB, sumB, Nat.shiftRight_eq_div_pow]
  exact mulsum8 _ _ _ _ _ _ _ _ (countBelow_le 8 _) (countBelow_le 8 _) (countBelow_le 8 _)
    (countBelow_le 8 _) (countBelow_le 8 _) (countBelow_le 8 _) (countBelow_le 8 _) (countBelow_le 8 _)

end Acl
