import Verif.Core.Hash
/-! C06: the hash is incremental and detects any single corrupted byte. -/
namespace Acl.C06

/-- Hashing the concatenation is hashing the pieces in order (`update` can be called repeatedly). -/
theorem C06_incremental {w : Nat} (prime s : BitVec w) (a b : List (BitVec 8)) :
    fnvUpdate prime s (a ++ b) = fnvUpdate prime (fnvUpdate prime s a) b := by
  simp [fnvUpdate, List.foldl_append]

theorem mul_inj {w : Nat} (p inv : BitVec w) (h : p * inv = 1#w) (a b : BitVec w)
    (hab : a * p = b * p) : a = b := by
  have := congrArg (· * inv) hab
  simp only [BitVec.mul_assoc, h, BitVec.mul_one] at this
  exact this

theorem xor_inj {w : Nat} (a b c : BitVec w) (h : a ^^^ c = b ^^^ c) : a = b := by
  have := congrArg (· ^^^ c) h
  simpa [BitVec.xor_assoc] using this

theorem xor_inj_left {w : Nat} (a b c : BitVec w) (h : c ^^^ a = c ^^^ b) : a = b := by
  rw [BitVec.xor_comm c a, BitVec.xor_comm c b] at h
  exact xor_inj a b c h

theorem fnv_state_inj {w : Nat} (p inv : BitVec w) (h : p * inv = 1#w) (data : List (BitVec 8))
    (s t : BitVec w) (e : fnvUpdate p s data = fnvUpdate p t data) : s = t := by
  induction data generalizing s t with
  | nil => exact e
  | cons b data ih => exact xor_inj _ _ _ (mul_inj p inv h _ _ (ih _ _ e))

theorem fnv_byte_inj {w : Nat} (p inv : BitVec w) (h : p * inv = 1#w) (hw : 8 ≤ w) (s : BitVec w)
    (pre post : List (BitVec 8)) (x y : BitVec 8)
    (e : fnvUpdate p s (pre ++ x :: post) = fnvUpdate p s (pre ++ y :: post)) : x = y := by
  rw [C06_incremental, C06_incremental] at e
  have h1 : (fnvUpdate p s pre ^^^ x.setWidth w) * p = (fnvUpdate p s pre ^^^ y.setWidth w) * p :=
    fnv_state_inj p inv h post _ _ e
  have h2 := xor_inj_left _ _ _ (mul_inj p inv h _ _ h1)
  have h3 := congrArg BitVec.toNat h2
  rw [BitVec.toNat_setWidth, BitVec.toNat_setWidth] at h3
  have hp : (2:Nat) ^ 8 ≤ 2 ^ w := Nat.pow_le_pow_right (by omega) hw
  have := x.isLt
  have := y.isLt
  rw [Nat.mod_eq_of_lt (by omega), Nat.mod_eq_of_lt (by omega)] at h3
  exact BitVec.eq_of_toNat_eq h3

/-- Two buffers that differ in exactly one byte have different 32 bit hashes. -/
theorem C06_single_byte_detected_32 (pre post : List (BitVec 8)) (x y : BitVec 8) (h : x ≠ y) :
    hash32 (pre ++ x :: post) ≠ hash32 (pre ++ y :: post) := fun e =>
  h (fnv_byte_inj 16777619#32 899433627#32 (by decide) (by decide) _ pre post x y e)

/-- Two buffers that differ in exactly one byte have different 64 bit hashes. -/
theorem C06_single_byte_detected_64 (pre post : List (BitVec 8)) (x y : BitVec 8) (h : x ≠ y) :
    hash64 (pre ++ x :: post) ≠ hash64 (pre ++ y :: post) := fun e =>
  h (fnv_byte_inj 1099511628211#64 14886173955864302971#64 (by decide) (by decide) _ pre post x y e)

/-- `hash_combine` with a fixed left hash never maps two different right hashes to the same value. -/
theorem C06_hash_combine_injective (a b c : BitVec 32) (h : hashCombine32 a b = hashCombine32 a c) :
    b = c :=
  xor_inj_left _ _ _ (mul_inj 16777619#32 899433627#32 (by decide) _ _ h)

theorem hash_set_ne (l : List (BitVec 8)) (k : Nat) (hk : k < l.length) (x : BitVec 8) (hx : l[k] ≠ x) :
    hash32 (l.set k x) ≠ hash32 l := by
  have e1 : l = l.take k ++ l[k] :: l.drop (k+1) := by
    rw [← List.drop_eq_getElem_cons hk, List.take_append_drop]
  have e2 : l.set k x = l.take k ++ x :: l.drop (k+1) := List.set_eq_take_append_cons_drop.trans (by simp [hk])
  rw [e2]
  conv => rhs; rw [e1]
  exact C06_single_byte_detected_32 _ _ _ _ (fun h => hx h.symm)

theorem load32_set_ge (m : List (BitVec 8)) (off k : Nat) (x : BitVec 8) (h : k < off ∨ off + 4 ≤ k) :
    load32 (m.set k x) off = load32 m off := by
  unfold load32
  rw [List.getElem?_set_ne (by omega), List.getElem?_set_ne (by omega), List.getElem?_set_ne (by omega),
    List.getElem?_set_ne (by omega)]

theorem append_inj8 {a b : Nat} (x x' : BitVec a) (y y' : BitVec b) (h : x ++ y = x' ++ y') :
    x = x' ∧ y = y' := by
  constructor
  · apply BitVec.eq_of_getLsbD_eq
    intro i hi
    have := congrArg (fun z => z.getLsbD (b + i)) h
    have hn : ¬ (b + i < b) := by omega
    simpa [BitVec.getLsbD_append, hn] using this
  · apply BitVec.eq_of_getLsbD_eq
    intro i hi
    have := congrArg (fun z => z.getLsbD i) h
    simpa [BitVec.getLsbD_append, hi] using this

theorem load32_set_ne (m : List (BitVec 8)) (off k : Nat) (x : BitVec 8) (v : BitVec 32)
    (hk : off ≤ k ∧ k < off + 4) (hl : off + 4 ≤ m.length) (hx : m[k]? ≠ some x)
    (hv : load32 m off = some v) : ∃ v', load32 (m.set k x) off = some v' ∧ v' ≠ v := by
  have g : ∀ i, i < m.length → m[i]? = some (m.getD i 0) := by
    intro i hi; simp [List.getElem?_eq_getElem hi]
  have g' : ∀ i, i < m.length → (m.set k x)[i]? = some (if k = i then x else m.getD i 0) := by
    intro i hi
    by_cases h : k = i
    · subst h; rw [List.getElem?_set_self hi]; simp
    · rw [List.getElem?_set_ne h, g i hi]; simp [h]
  unfold load32 at hv ⊢
  rw [g _ (by omega), g _ (by omega), g _ (by omega), g _ (by omega)] at hv
  rw [g' _ (by omega), g' _ (by omega), g' _ (by omega), g' _ (by omega)]
  simp only [Option.bind_eq_bind, Option.bind_some, Option.pure_def, Option.some.injEq] at hv ⊢
  refine ⟨_, rfl, ?_⟩
  rw [← hv]
  intro heq
  obtain ⟨h012, h3⟩ := append_inj8 _ _ _ _ heq
  obtain ⟨h01, h2⟩ := append_inj8 _ _ _ _ h012
  obtain ⟨h0, h1⟩ := append_inj8 _ _ _ _ h01
  have hne : m.getD k 0 ≠ x := by
    intro h; apply hx; rw [g k (by omega), h]
  have : k = off ∨ k = off + 1 ∨ k = off + 2 ∨ k = off + 3 := by omega
  rcases this with rfl | rfl | rfl | rfl
  · simp at h3; exact hne h3.symm
  · simp at h2; exact hne h2.symm
  · simp at h1; exact hne h1.symm
  · simp at h0; exact hne h0.symm

/-- A compressed clip that passes the full validity check stops passing it when any single byte after
the size field is changed, wherever it is placed. (The size field itself is what delimits the hashed
region: see `C06_size_field_unprotected`.) -/
theorem C06_corruption_detected (m : List (BitVec 8)) (aligned : Bool) (size : BitVec 32)
    (hsz : load32 m 0 = some size) (hok : tracksIsValid m aligned true = some .ok)
    (k : Nat) (x : BitVec 8) (hk4 : 4 ≤ k) (hk : k < size.toNat) (hx : m[k]? ≠ some x) :
    ∃ v, tracksIsValid (m.set k x) aligned true = v ∧ v ≠ some .ok := by
  refine ⟨_, rfl, ?_⟩
  intro hbad
  unfold tracksIsValid at hok hbad
  cases aligned
  · simp at hok
  simp only [Bool.not_true, Bool.false_eq_true, if_false, if_true] at hok hbad
  rcases ht : load32 m 8 with _ | tag
  · simp [ht] at hok
  simp only [ht, Option.bind_eq_bind, Option.bind_some] at hok
  by_cases htag : (tag != 0xac11ac11#32) = true
  · simp [htag] at hok
  simp only [htag, Bool.false_eq_true, if_false] at hok
  rcases ha : m[14]? with _ | algo
  · simp [ha] at hok
  simp only [ha, Option.bind_some] at hok
  by_cases halgo : (algo != 0#8) = true
  · simp [halgo] at hok
  simp only [halgo, Bool.false_eq_true, if_false] at hok
  rcases hv : load16 m 12 with _ | ver
  · simp [hv] at hok
  simp only [hv, Option.bind_some] at hok
  by_cases hver : (decide (ver.toNat < 7) || decide (ver.toNat > 10)) = true
  · simp [hver] at hok
  simp only [hver, Bool.false_eq_true, if_false, hsz, Option.bind_some] at hok
  rcases hst : load32 m 4 with _ | stored
  · simp [hst] at hok
  simp only [hst, Option.bind_some] at hok
  by_cases hbnd : (decide (size.toNat < 8) || decide (m.length < size.toNat)) = true
  · simp [hbnd] at hok
  simp only [hbnd, Bool.false_eq_true, if_false] at hok
  by_cases hh : (hash32 ((m.drop 8).take (size.toNat - 8)) != stored) = true
  · simp [hh] at hok
  simp at hh hbnd
  -- the corrupted buffer
  rcases ht' : load32 (m.set k x) 8 with _ | tag'
  · simp [ht'] at hbad
  simp only [ht', Option.bind_eq_bind, Option.bind_some] at hbad
  by_cases htag' : (tag' != 0xac11ac11#32) = true
  · simp [htag'] at hbad
  simp only [htag', Bool.false_eq_true, if_false] at hbad
  rcases ha' : (m.set k x)[14]? with _ | algo'
  · simp [ha'] at hbad
  simp only [ha', Option.bind_some] at hbad
  by_cases halgo' : (algo' != 0#8) = true
  · simp [halgo'] at hbad
  simp only [halgo', Bool.false_eq_true, if_false] at hbad
  rcases hv' : load16 (m.set k x) 12 with _ | ver'
  · simp [hv'] at hbad
  simp only [hv', Option.bind_some] at hbad
  by_cases hver' : (decide (ver'.toNat < 7) || decide (ver'.toNat > 10)) = true
  · simp [hver'] at hbad
  have hsz' : load32 (m.set k x) 0 = some size := by rw [load32_set_ge _ _ _ _ (by omega), hsz]
  simp only [hver', Bool.false_eq_true, if_false, hsz', Option.bind_some] at hbad
  by_cases hk8 : k < 8
  · obtain ⟨st', e, hne⟩ := load32_set_ne m 4 k x stored (by omega) (by omega) hx hst
    have hdrop : (m.set k x).drop 8 = m.drop 8 := List.drop_set_of_lt (by omega)
    simp only [e, Option.bind_some, List.length_set, hdrop, hh] at hbad
    by_cases hb2 : (decide (size.toNat < 8) || decide (m.length < size.toNat)) = true
    · simp [hb2] at hbad
    · simp only [hb2, Bool.false_eq_true, if_false] at hbad
      have : (stored != st') = true := by simpa using fun h => hne h.symm
      simp [this] at hbad
  · have hst' : load32 (m.set k x) 4 = some stored := by rw [load32_set_ge _ _ _ _ (by omega), hst]
    have hdrop : ((m.set k x).drop 8).take (size.toNat - 8) =
        ((m.drop 8).take (size.toNat - 8)).set (k - 8) x := by
      rw [List.drop_set, if_neg (by omega), List.take_set]
    have hlen : k - 8 < ((m.drop 8).take (size.toNat - 8)).length := by
      simp; omega
    have hget : ((m.drop 8).take (size.toNat - 8))[k - 8] ≠ x := by
      intro h
      apply hx
      have hkm : k < m.length := by omega
      rw [List.getElem?_eq_getElem hkm, ← h]
      simp
      congr 1; omega
    have hne := hash_set_ne _ _ hlen x hget
    rw [← hdrop, hh] at hne
    simp only [hst', Option.bind_some, List.length_set] at hbad
    by_cases hb2 : (decide (size.toNat < 8) || decide (m.length < size.toNat)) = true
    · simp [hb2] at hbad
    · simp only [hb2, Bool.false_eq_true, if_false] at hbad
      have : (hash32 (((m.set k x).drop 8).take (size.toNat - 8)) != stored) = true := by simpa using hne
      simp [this] at hbad

/-- A compressed database that passes the full validity check stops passing it when any single byte after
the size field is changed, wherever it is placed. (The size field itself is what delimits the hashed
region: see `C06_size_field_unprotected`.) -/
theorem C06_database_corruption_detected (m : List (BitVec 8)) (aligned : Bool) (size : BitVec 32)
    (hsz : load32 m 0 = some size) (hok : databaseIsValid m aligned true = some .ok)
    (k : Nat) (x : BitVec 8) (hk4 : 4 ≤ k) (hk : k < size.toNat) (hx : m[k]? ≠ some x) :
    ∃ v, databaseIsValid (m.set k x) aligned true = v ∧ v ≠ some .ok := by
  refine ⟨_, rfl, ?_⟩
  intro hbad
  unfold databaseIsValid at hok hbad
  cases aligned
  · simp at hok
  simp only [Bool.not_true, Bool.false_eq_true, if_false, if_true] at hok hbad
  rcases ht : load32 m 8 with _ | tag
  · simp [ht] at hok
  simp only [ht, Option.bind_eq_bind, Option.bind_some] at hok
  by_cases htag : (tag != 0xac11db01#32) = true
  · simp [htag] at hok
  simp only [htag, Bool.false_eq_true, if_false] at hok
  rcases hv : load16 m 12 with _ | ver
  · simp [hv] at hok
  simp only [hv, Option.bind_some] at hok
  by_cases hver : (decide (ver.toNat < 7) || decide (ver.toNat > 10)) = true
  · simp [hver] at hok
  simp only [hver, Bool.false_eq_true, if_false, hsz, Option.bind_some] at hok
  rcases hst : load32 m 4 with _ | stored
  · simp [hst] at hok
  simp only [hst, Option.bind_some] at hok
  by_cases hbnd : (decide (size.toNat < 8) || decide (m.length < size.toNat)) = true
  · simp [hbnd] at hok
  simp only [hbnd, Bool.false_eq_true, if_false] at hok
  by_cases hh : (hash32 ((m.drop 8).take (size.toNat - 8)) != stored) = true
  · simp [hh] at hok
  simp at hh hbnd
  -- the corrupted buffer
  rcases ht' : load32 (m.set k x) 8 with _ | tag'
  · simp [ht'] at hbad
  simp only [ht', Option.bind_eq_bind, Option.bind_some] at hbad
  by_cases htag' : (tag' != 0xac11db01#32) = true
  · simp [htag'] at hbad
  simp only [htag', Bool.false_eq_true, if_false] at hbad
  rcases hv' : load16 (m.set k x) 12 with _ | ver'
  · simp [hv'] at hbad
  simp only [hv', Option.bind_some] at hbad
  by_cases hver' : (decide (ver'.toNat < 7) || decide (ver'.toNat > 10)) = true
  · simp [hver'] at hbad
  have hsz' : load32 (m.set k x) 0 = some size := by rw [load32_set_ge _ _ _ _ (by omega), hsz]
  simp only [hver', Bool.false_eq_true, if_false, hsz', Option.bind_some] at hbad
  by_cases hk8 : k < 8
  · obtain ⟨st', e, hne⟩ := load32_set_ne m 4 k x stored (by omega) (by omega) hx hst
    have hdrop : (m.set k x).drop 8 = m.drop 8 := List.drop_set_of_lt (by omega)
    simp only [e, Option.bind_some, List.length_set, hdrop, hh] at hbad
    by_cases hb2 : (decide (size.toNat < 8) || decide (m.length < size.toNat)) = true
    · simp [hb2] at hbad
    · simp only [hb2, Bool.false_eq_true, if_false] at hbad
      have : (stored != st') = true := by simpa using fun h => hne h.symm
      simp [this] at hbad
  · have hst' : load32 (m.set k x) 4 = some stored := by rw [load32_set_ge _ _ _ _ (by omega), hst]
    have hdrop : ((m.set k x).drop 8).take (size.toNat - 8) =
        ((m.drop 8).take (size.toNat - 8)).set (k - 8) x := by
      rw [List.drop_set, if_neg (by omega), List.take_set]
    have hlen : k - 8 < ((m.drop 8).take (size.toNat - 8)).length := by
      simp; omega
    have hget : ((m.drop 8).take (size.toNat - 8))[k - 8] ≠ x := by
      intro h
      apply hx
      have hkm : k < m.length := by omega
      rw [List.getElem?_eq_getElem hkm, ← h]
      simp
      congr 1; omega
    have hne := hash_set_ne _ _ hlen x hget
    rw [← hdrop, hh] at hne
    simp only [hst', Option.bind_some, List.length_set] at hbad
    by_cases hb2 : (decide (size.toNat < 8) || decide (m.length < size.toNat)) = true
    · simp [hb2] at hbad
    · simp only [hb2, Bool.false_eq_true, if_false] at hbad
      have : (hash32 (((m.set k x).drop 8).take (size.toNat - 8)) != stored) = true := by simpa using hne
      simp [this] at hbad

/-- A small buffer image that passes the check: size 16, hash, tag, version 10, algorithm 0, type 0. -/
def sample : List (BitVec 8) :=
  [16#8, 0#8, 0#8, 0#8] ++ [0x13#8, 0xfa#8, 0x72#8, 0x5c#8] ++ [0x11#8, 0xac#8, 0x11#8, 0xac#8, 10#8, 0#8, 0#8, 12#8]

/-- The hypotheses of `C06_corruption_detected` are met by `sample`. -/
example : load32 sample 0 = some 16#32 ∧ tracksIsValid sample true true = some .ok ∧
    sample[15]? ≠ some 0#8 ∧ tracksIsValid (sample.set 15 0#8) true true = some .badHash := by
  decide +kernel

/-- Limit of the guarantee: a corrupted size field makes the check read past the end of the buffer
(undefined behaviour) instead of reporting an error. -/
theorem C06_size_field_unprotected :
    tracksIsValid sample true true = some .ok ∧ tracksIsValid (sample.set 0 17#8) true true = none := by
  decide +kernel

end Acl.C06
