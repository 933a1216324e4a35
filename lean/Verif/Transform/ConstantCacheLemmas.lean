import Verif.Transform.ConstantCache
import Verif.Core.PackingLemmas
/-
Lemmas about the constant sub-track data.
-/
namespace Acl.Transform

/-! ### Words in a buffer -/

theorem bytesLE32 (v : BitVec 32) : bytesLE v =
    [v.extractLsb' 0 8, v.extractLsb' 8 8, v.extractLsb' 16 8, v.extractLsb' 24 8] := rfl

theorem join_bytes32 (v : BitVec 32) :
    (v.extractLsb' 24 8 ++ v.extractLsb' 16 8 ++ v.extractLsb' 8 8 ++ v.extractLsb' 0 8 : BitVec 32) = v := by
  apply BitVec.eq_of_getLsbD_eq
  intro i hi
  simp only [BitVec.getLsbD_append, BitVec.getLsbD_extractLsb']
  by_cases h0 : i < 8
  · simp [h0]
  · by_cases h1 : i - 8 < 8
    · simp [h0, h1]; congr 1; omega
    · by_cases h2 : i - 8 - 8 < 8
      · simp [h0, h1, h2]; congr 1; omega
      · have h3 : i - 8 - 8 - 8 < 8 := by omega
        simp [h0, h1, h2, h3]; congr 1; omega

theorem floatBytes_length (fs : List (BitVec 32)) : (floatBytes fs).length = 4 * fs.length := by
  unfold floatBytes
  induction fs with
  | nil => rfl
  | cons f fs ih => rw [List.flatMap_cons, List.length_append, ih, bytesLE_length, List.length_cons]; omega

theorem floatBytes_append (a b : List (BitVec 32)) : floatBytes (a ++ b) = floatBytes a ++ floatBytes b := by
  unfold floatBytes; exact List.flatMap_append

theorem loadLE32_front (v : BitVec 32) (pre post : List (BitVec 8)) :
    loadLE32 (pre ++ bytesLE v ++ post) pre.length = some v := by
  unfold loadLE32
  rw [bytesLE32, List.append_assoc]
  have h : ∀ j, (pre ++ ([v.extractLsb' 0 8, v.extractLsb' 8 8, v.extractLsb' 16 8, v.extractLsb' 24 8] ++ post))[pre.length + j]? =
      ([v.extractLsb' 0 8, v.extractLsb' 8 8, v.extractLsb' 16 8, v.extractLsb' 24 8] ++ post)[j]? := by
    intro j
    rw [List.getElem?_append_right (by omega)]
    congr 1; omega
  have h0 := h 0
  rw [Nat.add_zero] at h0
  rw [h0, h 1, h 2, h 3]
  simp only [List.cons_append, List.getElem?_cons_zero, List.getElem?_cons_succ]
  rw [join_bytes32]

/-- Loading back a float written among others. -/
theorem loadLE32_floatBytes (fs : List (BitVec 32)) (pre post : List (BitVec 8)) (i : Nat) (hi : i < fs.length) :
    loadLE32 (pre ++ floatBytes fs ++ post) (pre.length + 4 * i) = some fs[i] := by
  have hsplit : fs.take i ++ fs[i] :: fs.drop (i + 1) = fs := by
    rw [← List.drop_eq_getElem_cons hi, List.take_append_drop]
  have : floatBytes fs = floatBytes (fs.take i) ++ (bytesLE fs[i] ++ floatBytes (fs.drop (i + 1))) := by
    have h := floatBytes_append (fs.take i) (fs[i] :: fs.drop (i + 1))
    rw [hsplit] at h
    exact h
  rw [this]
  have h := loadLE32_front fs[i] (pre ++ floatBytes (fs.take i)) (floatBytes (fs.drop (i + 1)) ++ post)
  rw [List.length_append, floatBytes_length, List.length_take, Nat.min_eq_left (by omega)] at h
  simp only [List.append_assoc] at h ⊢
  exact h

theorem loadLE32_isSome {m : List (BitVec 8)} {k : Nat} (h : k + 4 ≤ m.length) : ∃ v, loadLE32 m k = some v := by
  unfold loadLE32
  rw [List.getElem?_eq_getElem (show k < m.length by omega), List.getElem?_eq_getElem (show k + 1 < m.length by omega),
    List.getElem?_eq_getElem (show k + 2 < m.length by omega), List.getElem?_eq_getElem (show k + 3 < m.length by omega)]
  exact ⟨_, rfl⟩

theorem loadVec4_eq {m : List (BitVec 8)} {k : Nat} {x y z w : BitVec 32} (hx : loadLE32 m k = some x)
    (hy : loadLE32 m (k + 4) = some y) (hz : loadLE32 m (k + 8) = some z) (hw : loadLE32 m (k + 12) = some w) :
    loadVec4 m k = some ⟨x, y, z, w⟩ := by
  unfold loadVec4; rw [hx, hy, hz, hw]

theorem loadVec4_isSome {m : List (BitVec 8)} {k : Nat} (h : k + 16 ≤ m.length) : ∃ v, loadVec4 m k = some v ∧
    loadLE32 m k = some v.x ∧ loadLE32 m (k + 4) = some v.y ∧ loadLE32 m (k + 8) = some v.z ∧ loadLE32 m (k + 12) = some v.w := by
  obtain ⟨x, hx⟩ := loadLE32_isSome (m := m) (k := k) (by omega)
  obtain ⟨y, hy⟩ := loadLE32_isSome (m := m) (k := k + 4) (by omega)
  obtain ⟨z, hz⟩ := loadLE32_isSome (m := m) (k := k + 8) (by omega)
  obtain ⟨w, hw⟩ := loadLE32_isSome (m := m) (k := k + 12) (by omega)
  exact ⟨_, loadVec4_eq hx hy hz hw, hx, hy, hz, hw⟩

/-! ### Where the samples are -/

/-- Offset of component `c` of sample `k` of `n` in the SOA layout. -/
def soaPos (n k c : Nat) : Nat := 48 * (k / 4) + 4 * min 4 (n - 4 * (k / 4)) * c + 4 * (k % 4)

/-- Constant rotation `k` of the `n` stored at `base`. -/
def rotationAt (m : List (BitVec 8)) (base : Nat) (full : Bool) (n k : Nat) : Option Quat :=
  if full then (loadVec4 m (base + 16 * k)).map .full
  else
    match loadLE32 m (base + soaPos n k 0), loadLE32 m (base + soaPos n k 1), loadLE32 m (base + soaPos n k 2) with
    | some x, some y, some z => some (.dropW ⟨x, y, z⟩)
    | _, _, _ => none

/-- Constant translation or scale `k` stored at `base`. -/
def vec3At (m : List (BitVec 8)) (base k : Nat) : Option Vec3 :=
  match loadLE32 m (base + 12 * k), loadLE32 m (base + 12 * k + 4), loadLE32 m (base + 12 * k + 8) with
  | some x, some y, some z => some ⟨x, y, z⟩
  | _, _, _ => none

theorem vec3At_load {m : List (BitVec 8)} {base k : Nat} (h : base + 12 * k + 16 ≤ m.length) :
    (loadVec4 m (base + 12 * k)).map Vec4.xyz = vec3At m base k := by
  obtain ⟨v, hv, hx, hy, hz, _⟩ := loadVec4_isSome h
  unfold vec3At
  rw [hv, hx, hy, hz]; rfl

theorem vec3At_isSome {m : List (BitVec 8)} {base k : Nat} (h : base + 12 * k + 12 ≤ m.length) :
    ∃ v, vec3At m base k = some v := by
  obtain ⟨x, hx⟩ := loadLE32_isSome (m := m) (k := base + 12 * k) (by omega)
  obtain ⟨y, hy⟩ := loadLE32_isSome (m := m) (k := base + 12 * k + 4) (by omega)
  obtain ⟨z, hz⟩ := loadLE32_isSome (m := m) (k := base + 12 * k + 8) (by omega)
  unfold vec3At; rw [hx, hy, hz]; exact ⟨_, rfl⟩

/-! ### Writer -/

def xs (rs : List Vec4) : List (BitVec 32) := rs.map Vec4.x
def ys (rs : List Vec4) : List (BitVec 32) := rs.map Vec4.y
def zs (rs : List Vec4) : List (BitVec 32) := rs.map Vec4.z

/-- One SOA group. -/
def soaGroup (rs : List Vec4) : List (BitVec 8) := floatBytes (xs rs) ++ floatBytes (ys rs) ++ floatBytes (zs rs)

/-- SOA groups of four, the last one partial. -/
def soaBytes : List Vec4 → List (BitVec 8)
  | a :: b :: c :: d :: rest => soaGroup [a, b, c, d] ++ soaBytes rest
  | rs => soaGroup rs

theorem soaGroup_length (rs : List Vec4) : (soaGroup rs).length = 12 * rs.length := by
  unfold soaGroup xs ys zs
  simp only [List.length_append, floatBytes_length, List.length_map]; omega

theorem soaGroup_nil : soaGroup [] = [] := rfl

theorem soaBytes_short (rs : List Vec4) (h : rs.length < 4) : soaBytes rs = soaGroup rs := by
  match rs, h with
  | [], _ => rfl
  | [_], _ => rfl
  | [_, _], _ => rfl
  | [_, _, _], _ => rfl

theorem soaBytes_length : ∀ (rs : List Vec4), (soaBytes rs).length = 12 * rs.length
  | [] => rfl
  | [_] => by rw [soaBytes_short _ (by simp), soaGroup_length]
  | [_, _] => by rw [soaBytes_short _ (by simp), soaGroup_length]
  | [_, _, _] => by rw [soaBytes_short _ (by simp), soaGroup_length]
  | a :: b :: c :: d :: rest => by
    rw [soaBytes, List.length_append, soaGroup_length, soaBytes_length rest]
    simp only [List.length_cons, List.length_nil]; omega

/-- The swizzle state after some pushes: whole groups are out, the rest is buffered. -/
structure SwizzleInv (st : SwizzleState) (buf : List Vec4) : Prop where
  short : buf.length < 4
  hx : st.xs = xs buf
  hy : st.ys = ys buf
  hz : st.zs = zs buf

theorem push_inv {st : SwizzleState} {buf : List Vec4} (h : SwizzleInv st buf) (v : Vec4) :
    ∃ buf', SwizzleInv (st.push v) buf' ∧
      ∀ rest, (st.push v).out ++ soaBytes (buf' ++ rest) = st.out ++ soaBytes (buf ++ v :: rest) := by
  obtain ⟨hs, hx, hy, hz⟩ := h
  unfold SwizzleState.push
  have hx' : st.xs ++ [v.x] = xs (buf ++ [v]) := by rw [hx]; simp [xs]
  have hy' : st.ys ++ [v.y] = ys (buf ++ [v]) := by rw [hy]; simp [ys]
  have hz' : st.zs ++ [v.z] = zs (buf ++ [v]) := by rw [hz]; simp [zs]
  dsimp only
  rw [hx', hy', hz']
  by_cases h4 : (xs (buf ++ [v])).length ≥ 4
  · rw [if_pos h4]
    refine ⟨[], ⟨by decide, rfl, rfl, rfl⟩, ?_⟩
    intro rest
    have hb : (buf ++ [v]).length = 4 := by
      unfold xs at h4; rw [List.length_map] at h4
      simp only [List.length_append, List.length_cons, List.length_nil] at h4 ⊢; omega
    have hr : buf ++ v :: rest = (buf ++ [v]) ++ rest := by simp
    rw [hr, List.nil_append]
    match hbv : buf ++ [v], hb with
    | [a, b, c, d], _ =>
      rw [show ([a, b, c, d] ++ rest : List Vec4) = a :: b :: c :: d :: rest from rfl, soaBytes]
      unfold SwizzleState.flush soaGroup
      simp only [List.append_assoc]
  · rw [if_neg h4]
    refine ⟨buf ++ [v], ⟨?_, rfl, rfl, rfl⟩, ?_⟩
    · unfold xs at h4; rw [List.length_map] at h4; omega
    · intro rest; simp

theorem swizzle_foldl (bones : List ConstBone) : ∀ (st : SwizzleState) (buf : List Vec4), SwizzleInv st buf →
    ∃ buf', SwizzleInv (bones.foldl (fun st b => if isStoredConstant b.rotation then st.push b.rotationSample else st) st) buf' ∧
      (bones.foldl (fun st b => if isStoredConstant b.rotation then st.push b.rotationSample else st) st).out ++ soaBytes buf' =
        st.out ++ soaBytes (buf ++ (bones.filter (fun b => isStoredConstant b.rotation)).map ConstBone.rotationSample) := by
  induction bones with
  | nil => intro st buf h; exact ⟨buf, h, by simp⟩
  | cons b bones ih =>
    intro st buf h
    rw [List.foldl_cons, List.filter_cons]
    by_cases hb : isStoredConstant b.rotation = true
    · rw [if_pos hb, if_pos hb]
      obtain ⟨buf1, h1, e1⟩ := push_inv h b.rotationSample
      obtain ⟨buf2, h2, e2⟩ := ih _ buf1 h1
      exact ⟨buf2, h2, by rw [e2, e1, List.map_cons]⟩
    · rw [if_neg hb, if_neg hb]
      exact ih st buf h

theorem writeConstantRotations_dropW (bones : List ConstBone) :
    writeConstantRotations true bones =
      soaBytes ((bones.filter (fun b => isStoredConstant b.rotation)).map ConstBone.rotationSample) := by
  obtain ⟨buf, h, e⟩ := swizzle_foldl bones ⟨[], [], [], []⟩ [] ⟨by decide, rfl, rfl, rfl⟩
  unfold writeConstantRotations
  rw [if_pos rfl]
  dsimp only
  generalize bones.foldl (fun st b => if isStoredConstant b.rotation then st.push b.rotationSample else st)
    (⟨[], [], [], []⟩ : SwizzleState) = st at *
  rw [List.nil_append, List.nil_append] at e
  rw [← e, soaBytes_short buf h.short]
  have hl : st.xs.length = buf.length := by rw [h.hx]; simp [xs]
  by_cases h0 : st.xs.length ≠ 0
  · rw [if_pos h0]
    unfold SwizzleState.flush soaGroup
    rw [h.hx, h.hy, h.hz]; simp only [List.append_assoc]
  · rw [if_neg h0]
    have : buf = [] := List.length_eq_zero_iff.1 (by omega)
    rw [this, soaGroup_nil, List.append_nil]

theorem foldl_append_filter {β : Type} (p : ConstBone → Bool) (f : ConstBone → List β) (bones : List ConstBone) :
    ∀ out, bones.foldl (fun out b => if p b then out ++ f b else out) out = out ++ (bones.filter p).flatMap f := by
  induction bones with
  | nil => intro out; simp
  | cons b bones ih =>
    intro out
    rw [List.foldl_cons, ih, List.filter_cons]
    by_cases hb : p b = true
    · rw [if_pos hb, if_pos hb, List.flatMap_cons, List.append_assoc]
    · rw [if_neg hb, if_neg hb]

/-- Reading component `c` of sample `k` out of SOA bytes. -/
def comp (v : Vec4) : Nat → BitVec 32
  | 0 => v.x
  | 1 => v.y
  | _ => v.z

theorem soaGroup_words (rs : List Vec4) : soaGroup rs = floatBytes (xs rs ++ ys rs ++ zs rs) := by
  unfold soaGroup; rw [floatBytes_append, floatBytes_append]

theorem soaGroup_load (rs : List Vec4) (pre post : List (BitVec 8)) (k c : Nat) (hk : k < rs.length) (hc : c < 3) :
    loadLE32 (pre ++ soaGroup rs ++ post) (pre.length + (4 * rs.length * c + 4 * k)) = some (comp rs[k] c) := by
  rw [soaGroup_words]
  have hl : (xs rs ++ ys rs ++ zs rs).length = 3 * rs.length := by
    unfold xs ys zs; simp only [List.length_append, List.length_map]; omega
  have hi : rs.length * c + k < (xs rs ++ ys rs ++ zs rs).length := by
    rw [hl]
    have : rs.length * c ≤ rs.length * 2 := Nat.mul_le_mul_left _ (by omega)
    omega
  have h := loadLE32_floatBytes (xs rs ++ ys rs ++ zs rs) pre post (rs.length * c + k) hi
  have he : pre.length + (4 * rs.length * c + 4 * k) = pre.length + 4 * (rs.length * c + k) := by
    rw [Nat.mul_add, Nat.mul_assoc]
  rw [he, h]
  congr 1
  match c, hc with
  | 0, _ =>
    simp only [Nat.mul_zero, Nat.zero_add]
    rw [List.getElem_append_left (by simp [xs, ys]; omega), List.getElem_append_left (by simp [xs]; omega)]
    simp [xs, comp]
  | 1, _ =>
    simp only [Nat.mul_one]
    rw [List.getElem_append_left (by simp [xs, ys]; omega), List.getElem_append_right (by simp [xs])]
    simp [xs, ys, comp]
  | 2, _ =>
    rw [List.getElem_append_right (by simp [xs, ys]; omega)]
    have : rs.length * 2 + k - (xs rs ++ ys rs).length = k := by simp [xs, ys]; omega
    simp only [this]
    simp [zs, comp]

theorem soaBytes_load : ∀ (rs : List Vec4) (pre post : List (BitVec 8)) (k c : Nat) (hk : k < rs.length) (_ : c < 3),
    loadLE32 (pre ++ soaBytes rs ++ post) (pre.length + soaPos rs.length k c) = some (comp rs[k] c)
  | a :: b :: c' :: d :: rest, pre, post, k, c, hk, hc => by
    rw [soaBytes]
    by_cases h4 : k < 4
    · have h := soaGroup_load [a, b, c', d] pre (soaBytes rest ++ post) k c h4 hc
      have hp : soaPos (a :: b :: c' :: d :: rest).length k c = 4 * [a, b, c', d].length * c + 4 * k := by
        unfold soaPos
        rw [Nat.div_eq_of_lt h4, Nat.mod_eq_of_lt h4]
        simp only [List.length_cons, List.length_nil]
        rw [Nat.min_eq_left (by omega)]; omega
      rw [hp]
      simp only [List.append_assoc] at h ⊢
      rw [h]
      congr 2
      match k, h4 with
      | 0, _ => rfl
      | 1, _ => rfl
      | 2, _ => rfl
      | 3, _ => rfl
    · obtain ⟨j, rfl⟩ : ∃ j, k = j + 4 := ⟨k - 4, by omega⟩
      have hj : j < rest.length := by simp only [List.length_cons] at hk; omega
      have h := soaBytes_load rest (pre ++ soaGroup [a, b, c', d]) post j c hj hc
      have hp : pre.length + soaPos (a :: b :: c' :: d :: rest).length (j + 4) c =
          (pre ++ soaGroup [a, b, c', d]).length + soaPos rest.length j c := by
        unfold soaPos
        rw [List.length_append, soaGroup_length, Nat.add_div_right j (by decide), Nat.add_mod_right]
        simp only [List.length_cons, List.length_nil]
        have : rest.length + 1 + 1 + 1 + 1 - 4 * (j / 4).succ = rest.length - 4 * (j / 4) := by omega
        rw [this]
        omega
      rw [hp]
      simp only [List.append_assoc] at h ⊢
      rw [h]
      rfl
  | [], _, _, k, _, hk, _ => absurd hk (by simp)
  | [a], pre, post, k, c, hk, hc => soa_short_load [a] (by simp) pre post k c hk hc
  | [a, b], pre, post, k, c, hk, hc => soa_short_load [a, b] (by simp) pre post k c hk hc
  | [a, b, d], pre, post, k, c, hk, hc => soa_short_load [a, b, d] (by simp) pre post k c hk hc
where
  soa_short_load (rs : List Vec4) (hs : rs.length < 4) (pre post : List (BitVec 8)) (k c : Nat) (hk : k < rs.length) (hc : c < 3) :
      loadLE32 (pre ++ soaBytes rs ++ post) (pre.length + soaPos rs.length k c) = some (comp rs[k] c) := by
    rw [soaBytes_short rs hs]
    have h := soaGroup_load rs pre post k c hk hc
    have hp : soaPos rs.length k c = 4 * rs.length * c + 4 * k := by
      unfold soaPos
      rw [Nat.div_eq_of_lt (by omega), Nat.mod_eq_of_lt (by omega), Nat.min_eq_right (by omega)]
      simp only [Nat.mul_zero, Nat.sub_zero, Nat.zero_add]
    rw [hp, h]

/-- Words written as consecutive records of `w` floats. -/
theorem records_load {α : Type} (w : Nat) (f : α → List (BitVec 32)) (hf : ∀ a, (f a).length = w) :
    ∀ (rs : List α) (pre post : List (BitVec 8)) (k c : Nat) (hk : k < rs.length) (hc : c < w),
      loadLE32 (pre ++ rs.flatMap (fun a => floatBytes (f a)) ++ post) (pre.length + (4 * w * k + 4 * c)) =
        some ((f rs[k])[c]'(by rw [hf]; exact hc)) := by
  intro rs
  induction rs with
  | nil => intro _ _ k _ hk; exact absurd hk (by simp)
  | cons a rs ih =>
    intro pre post k c hk hc
    rw [List.flatMap_cons]
    match k, hk with
    | 0, _ =>
      have h := loadLE32_floatBytes (f a) pre (rs.flatMap (fun a => floatBytes (f a)) ++ post) c (by rw [hf]; exact hc)
      simp only [List.append_assoc] at h ⊢
      rw [Nat.mul_zero, Nat.zero_add, h]
      rfl
    | k + 1, hk =>
      have h := ih (pre ++ floatBytes (f a)) post k c (by simp only [List.length_cons] at hk; omega) hc
      have hp : pre.length + (4 * w * (k + 1) + 4 * c) = (pre ++ floatBytes (f a)).length + (4 * w * k + 4 * c) := by
        rw [List.length_append, floatBytes_length, hf, Nat.mul_add]; omega
      rw [hp]
      simp only [List.append_assoc] at h ⊢
      rw [h]
      rfl

theorem records_length {α : Type} (w : Nat) (f : α → List (BitVec 32)) (hf : ∀ a, (f a).length = w) (rs : List α) :
    (rs.flatMap (fun a => floatBytes (f a))).length = 4 * w * rs.length := by
  induction rs with
  | nil => simp
  | cons a rs ih =>
    rw [List.flatMap_cons, List.length_append, ih, floatBytes_length, hf, List.length_cons, Nat.mul_add]; omega

end Acl.Transform
