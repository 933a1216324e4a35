import Verif.Transform.PoseUtils
import Verif.Transform.ErrorMetricLemmas
/-!
C79: converting poses between local and object space. Model: Verif/Transform/PoseUtils.lean. Specification: `Chain`, the bones from a bone
up to the root, and `mulPoint`, a transform applied to a point.
-/
namespace Acl.C79
open Acl.Metric Acl.PoseUtils

/-- Specification: the bones from bone `i` up to the root, bone 0. -/
inductive Chain (parents : List Nat) : Nat → List Nat → Prop
  | root : Chain parents 0 [0]
  | child {i p : Nat} {l : List Nat} : i ≠ 0 → parents[i]? = some p → Chain parents p l → Chain parents i (i :: l)

/-- Every bone but the first has a parent before it. -/
def Sorted (parents : List Nat) (n : Nat) : Prop := ∀ i, 0 < i → i < n → ∃ p, p < i ∧ parents[i]? = some p

/-- The buffers are the same, or do not overlap. -/
def Apart (src dst n : Nat) : Prop := src + n ≤ dst ∨ dst + n ≤ src

/-- A rotation is a unit quaternion, and a scale is the same along every axis. -/
def UnitRotation (t : Qvv) : Prop := t.rotation.normSq = 1
def UniformScale (t : Qvv) : Prop := ∃ k, t.scale = ⟨k, k, k⟩
def Rigid (t : Qvv) : Prop := UnitRotation t ∧ t.scale = one

/-! ### Transforms -/

theorem normalize_unit {t : Qvv} (h : UnitRotation t) : qvvNormalize t = t := by
  unfold UnitRotation at h
  unfold qvvNormalize quatNormalize
  rw [h, Real.sqrt_one]
  simp

theorem unit_mul {a b : Qvv} (ha : UnitRotation a) (hb : UnitRotation b) : UnitRotation (qvvMul a b) := by
  unfold UnitRotation qvvMul at *
  simp only [quatMul_normSq, ha, hb, mul_one]

theorem uniform_mul {a b : Qvv} (ha : UniformScale a) (hb : UniformScale b) : UniformScale (qvvMul a b) := by
  obtain ⟨x, hx⟩ := ha
  obtain ⟨y, hy⟩ := hb
  exact ⟨x * y, by simp [qvvMul, hx, hy, V3.mul]⟩

theorem conjugate_mul (a b : Quat) : conjugate (quatMul a b) = quatMul (conjugate b) (conjugate a) := by
  apply Quat.ext' <;> simp only [quatMul, conjugate] <;> ring

theorem mul_assoc3 (p : V3) (a b : Quat) : rotate p (quatMul a b) = rotate (rotate p a) b := by
  have h : ∀ q, ofVector (rotate p q) = quatMul (quatMul (conjugate q) (ofVector p)) q := by
    intro q
    apply Quat.ext' <;> simp only [rotate, toVector, ofVector, quatMul, conjugate] <;> ring
  show toVector _ = toVector (quatMul (quatMul (conjugate b) (ofVector (rotate p a))) b)
  rw [h a, conjugate_mul]
  simp only [quatMul_assoc]

/-- Multiplying transforms is applying one after the other, when the scale of the second is uniform. -/
theorem point_mul {a b : Qvv} (hb : UniformScale b) (p : V3) : mulPoint p (qvvMul a b) = mulPoint (mulPoint p a) b := by
  obtain ⟨k, hk⟩ := hb
  unfold mulPoint qvvMul
  simp only [mul_assoc3, hk]
  rw [show p.mul (a.scale.mul ⟨k, k, k⟩) = (p.mul a.scale).scaled k by apply V3.ext' <;> simp only [V3.mul, V3.scaled] <;> ring]
  rw [show ∀ v : V3, v.mul ⟨k, k, k⟩ = v.scaled k from fun v => by apply V3.ext' <;> simp only [V3.mul, V3.scaled] <;> ring]
  rw [show ∀ v : V3, v.mul ⟨k, k, k⟩ = v.scaled k from fun v => by apply V3.ext' <;> simp only [V3.mul, V3.scaled] <;> ring]
  rw [show ∀ u v : V3, (u.add v).scaled k = (u.scaled k).add (v.scaled k) from fun u v => by
    apply V3.ext' <;> simp only [V3.add, V3.scaled] <;> ring]
  rw [rotate_add, rotate_scaled, rotate_scaled]
  apply V3.ext' <;> simp only [V3.add] <;> ring

/-! ### Memory -/

theorem write_same (m : Mem) (a : Nat) (t : Qvv) : write m a t a = t := by simp [write]

theorem write_other (m : Mem) {a b : Nat} (t : Qvv) (h : b ≠ a) : write m a t b = m b := by simp [write, h]

theorem toObject_run {parents : List Nat} {src n dst : Nat} {m : Mem} (hs : Sorted parents n) (hb : src = dst ∨ Apart src dst n) (k : Nat) (hk : k < n) :
    ∃ m', bones (toObject parents src n dst) k (write m dst (m src)) = some m' ∧
      (∀ a, a < dst ∨ dst + k < a → m' a = m a) ∧ m' dst = m src ∧
      ∀ i p, 0 < i → i ≤ k → parents[i]? = some p → m' (dst + i) = qvvNormalize (qvvMul (m (src + i)) (m' (dst + p))) := by
  induction k with
  | zero => exact ⟨_, rfl, fun a ha => write_other _ _ (by omega), write_same _ _ _, fun i p h1 h2 => by omega⟩
  | succ k ih =>
    obtain ⟨m1, h1, h2, h3, h4⟩ := ih (by omega)
    obtain ⟨p, hp, hpp⟩ := hs (k + 1) (by omega) hk
    refine ⟨write m1 (dst + (k + 1)) (qvvNormalize (qvvMul (m1 (src + (k + 1))) (m1 (dst + p)))), ?_, ?_, ?_, ?_⟩
    · simp only [bones, h1, Option.bind_eq_bind, Option.bind_some, toObject, hpp]
      rw [if_pos (by omega)]
    · intro a ha
      rw [write_other _ _ (by omega)]
      exact h2 a (by omega)
    · rw [write_other _ _ (by omega)]; exact h3
    · intro i q hi hik hq
      have hqi : q < i := by
        obtain ⟨r, hr, hrr⟩ := hs i hi (by omega)
        rw [hq] at hrr
        injection hrr with e
        omega
      rw [write_other (b := dst + q) _ _ (by omega)]
      by_cases e : i = k + 1
      · subst e
        rw [hpp] at hq
        injection hq with hq
        subst hq
        rw [write_same, h2 (src + (k + 1)) (by rcases hb with hb | hb; · omega
                                               · unfold Apart at hb; omega)]
      · rw [write_other _ _ (by omega)]
        exact h4 i q hi (by omega) hq

/-- What local_to_object_space leaves in memory. -/
theorem localToObject_spec {parents : List Nat} {src n dst : Nat} {m : Mem} (hn : 0 < n) (hs : Sorted parents n) (hb : src = dst ∨ Apart src dst n) :
    ∃ m', localToObject parents src n dst m = some m' ∧ (∀ a, a < dst ∨ dst + n ≤ a → m' a = m a) ∧ m' dst = m src ∧
      ∀ i p, 0 < i → i < n → parents[i]? = some p → m' (dst + i) = qvvNormalize (qvvMul (m (src + i)) (m' (dst + p))) := by
  obtain ⟨m', h1, h2, h3, h4⟩ := toObject_run (m := m) hs hb (n - 1) (by omega)
  refine ⟨m', ?_, fun a ha => h2 a (by omega), h3, fun i p hi hin => h4 i p hi (by omega)⟩
  unfold localToObject
  rw [if_neg (by omega), h1]

theorem toLocal_run {parents : List Nat} {src n dst : Nat} {m : Mem} (hs : Sorted parents n) (hb : Apart src dst n) (k : Nat) (hk : k < n) :
    ∃ m', bones (toLocal parents src n dst) k (write m dst (m src)) = some m' ∧
      (∀ a, a < dst ∨ dst + k < a → m' a = m a) ∧ m' dst = m src ∧
      ∀ i p, 0 < i → i ≤ k → parents[i]? = some p → m' (dst + i) = qvvNormalize (qvvMul (qvvInverse (m (src + p))) (m (src + i))) := by
  unfold Apart at hb
  induction k with
  | zero => exact ⟨_, rfl, fun a ha => write_other _ _ (by omega), write_same _ _ _, fun i p h1 h2 => by omega⟩
  | succ k ih =>
    obtain ⟨m1, h1, h2, h3, h4⟩ := ih (by omega)
    obtain ⟨p, hp, hpp⟩ := hs (k + 1) (by omega) hk
    refine ⟨write m1 (dst + (k + 1)) (qvvNormalize (qvvMul (qvvInverse (m1 (src + p))) (m1 (src + (k + 1))))), ?_, ?_, ?_, ?_⟩
    · simp only [bones, h1, Option.bind_eq_bind, Option.bind_some, toLocal, hpp]
      rw [if_pos (by omega)]
    · intro a ha
      rw [write_other _ _ (by omega)]
      exact h2 a (by omega)
    · rw [write_other _ _ (by omega)]; exact h3
    · intro i q hi hik hq
      by_cases e : i = k + 1
      · subst e
        rw [hpp] at hq
        injection hq with hq
        subst hq
        rw [write_same, h2 (src + (k + 1)) (by omega), h2 (src + p) (by omega)]
      · rw [write_other _ _ (by omega)]
        exact h4 i q hi (by omega) hq

theorem objectToLocal_spec {parents : List Nat} {src n dst : Nat} {m : Mem} (hn : 0 < n) (hs : Sorted parents n) (hb : Apart src dst n) :
    ∃ m', objectToLocal parents src n dst m = some m' ∧ (∀ a, a < dst ∨ dst + n ≤ a → m' a = m a) ∧ m' dst = m src ∧
      ∀ i p, 0 < i → i < n → parents[i]? = some p → m' (dst + i) = qvvNormalize (qvvMul (qvvInverse (m (src + p))) (m (src + i))) := by
  obtain ⟨m', h1, h2, h3, h4⟩ := toLocal_run (m := m) hs hb (n - 1) (by omega)
  refine ⟨m', ?_, fun a ha => h2 a (by omega), h3, fun i p hi hin => h4 i p hi (by omega)⟩
  unfold objectToLocal
  rw [if_neg (by omega), h1]

theorem chain_exists {parents : List Nat} {n : Nat} (hs : Sorted parents n) (i : Nat) (hi : i < n) : ∃ l, Chain parents i l := by
  induction i using Nat.strong_induction_on with
  | _ i ih =>
    by_cases h0 : i = 0
    · subst h0; exact ⟨[0], .root⟩
    · obtain ⟨p, hp, hpp⟩ := hs i (by omega) hi
      obtain ⟨l, hl⟩ := ih p hp (by omega)
      exact ⟨i :: l, .child h0 hpp hl⟩

/-- C79: local_to_object_space, in place or from one buffer to another, with parents before their children, gives for each bone the
transform that moves any point as the local transforms of the bone, its parent and so on up to the root do one after the other, when
rotations are unit quaternions and scales uniform. It writes nothing else. -/
theorem C79_local_to_object (parents : List Nat) (src n dst : Nat) (m : Mem) (hs : Sorted parents n) (hb : src = dst ∨ Apart src dst n)
    (hu : ∀ i < n, UnitRotation (m (src + i)) ∧ UniformScale (m (src + i))) :
    ∃ m', localToObject parents src n dst m = some m' ∧ (∀ a, a < dst ∨ dst + n ≤ a → m' a = m a) ∧
      ∀ i < n, ∃ l, Chain parents i l ∧ ∀ point, mulPoint point (m' (dst + i)) = l.foldl (fun x b => mulPoint x (m (src + b))) point := by
  by_cases hn : n = 0
  · exact ⟨m, by simp [localToObject, hn], fun _ _ => rfl, fun i hi => by omega⟩
  obtain ⟨m', h1, h2, h3, h4⟩ := localToObject_spec (m := m) (by omega) hs hb
  refine ⟨m', h1, h2, ?_⟩
  suffices h : ∀ i < n, (UnitRotation (m' (dst + i)) ∧ UniformScale (m' (dst + i))) ∧
      ∃ l, Chain parents i l ∧ ∀ point, mulPoint point (m' (dst + i)) = l.foldl (fun x b => mulPoint x (m (src + b))) point from
    fun i hi => (h i hi).2
  intro i
  induction i using Nat.strong_induction_on with
  | _ i ih =>
    intro hi
    by_cases h0 : i = 0
    · subst h0
      have e : m' (dst + 0) = m (src + 0) := h3
      rw [e]
      exact ⟨hu 0 hi, [0], .root, fun _ => rfl⟩
    · obtain ⟨p, hp, hpp⟩ := hs i (by omega) hi
      obtain ⟨⟨hp1, hp2⟩, l, hl, hpoint⟩ := ih p hp (by omega)
      have hun := unit_mul (hu i hi).1 hp1
      rw [h4 i p (by omega) hi hpp, normalize_unit hun]
      refine ⟨⟨hun, uniform_mul (hu i hi).2 hp2⟩, i :: l, .child h0 hpp hl, fun point => ?_⟩
      rw [point_mul hp2, hpoint]
      rfl

/-! ### object_to_local_space -/

def identity : Qvv := ⟨⟨0, 0, 0, 1⟩, ⟨0, 0, 0⟩, one⟩

theorem Qvv.ext' {a b : Qvv} (h1 : a.rotation = b.rotation) (h2 : a.translation = b.translation) (h3 : a.scale = b.scale) : a = b := by
  cases a; cases b; simp_all

theorem mul_one3 (v : V3) : v.mul one = v := by apply V3.ext' <;> simp [V3.mul, one]

theorem rigid_uniform {t : Qvv} (h : Rigid t) : UniformScale t := ⟨1, h.2⟩

theorem rigid_mul {a b : Qvv} (ha : Rigid a) (hb : Rigid b) : Rigid (qvvMul a b) :=
  ⟨unit_mul ha.1 hb.1, by simp [qvvMul, ha.2, hb.2, mul_one3]⟩

theorem rigid_assoc {a b c : Qvv} (hb : Rigid b) (hc : Rigid c) : qvvMul (qvvMul a b) c = qvvMul a (qvvMul b c) := by
  apply Qvv.ext'
  · simp only [qvvMul, quatMul_assoc]
  · simp only [qvvMul, hb.2, hc.2, mul_one3, rotate_add, mul_assoc3]
    apply V3.ext' <;> simp only [V3.add] <;> ring
  · simp only [qvvMul, hb.2, hc.2, mul_one3]

theorem quat_inverse {q : Quat} (h : q.normSq = 1) : quatMul (conjugate q) q = ⟨0, 0, 0, 1⟩ ∧ quatMul q (conjugate q) = ⟨0, 0, 0, 1⟩ := by
  unfold Quat.normSq at h
  constructor <;> apply Quat.ext' <;> simp only [quatMul, conjugate] <;> first | ring1 | linarith

theorem rotate_identity (v : V3) : rotate v ⟨0, 0, 0, 1⟩ = v := by
  apply V3.ext' <;> simp [rotate, toVector, quatMul, conjugate, ofVector]

theorem div_one3 : one.div one = one := by apply V3.ext' <;> simp [V3.div, one]

theorem rigid_inv {t : Qvv} (h : Rigid t) : Rigid (qvvInverse t) :=
  ⟨by show (conjugate _).normSq = 1; rw [conjugate_normSq]; exact h.1, by show one.div t.scale = one; rw [h.2, div_one3]⟩

theorem rotate_neg (v : V3) (q : Quat) : rotate (V3.sub ⟨0, 0, 0⟩ v) q = V3.sub ⟨0, 0, 0⟩ (rotate v q) := by
  apply V3.ext' <;> simp only [rotate, toVector, quatMul, conjugate, ofVector, V3.sub] <;> ring

theorem inv_mul {t : Qvv} (h : Rigid t) : qvvMul (qvvInverse t) t = identity := by
  apply Qvv.ext'
  · exact (quat_inverse h.1).1
  · simp only [qvvMul, qvvInverse, h.2, div_one3, mul_one3, rotate_neg, ← mul_assoc3, (quat_inverse h.1).1, rotate_identity, identity]
    apply V3.ext' <;> simp [V3.add, V3.sub]
  · simp only [qvvMul, qvvInverse, h.2, div_one3, mul_one3, identity]

theorem mul_inv {t : Qvv} (h : Rigid t) : qvvMul t (qvvInverse t) = identity := by
  apply Qvv.ext'
  · exact (quat_inverse h.1).2
  · simp only [qvvMul, qvvInverse, h.2, div_one3, mul_one3, identity]
    apply V3.ext' <;> simp [V3.add, V3.sub]
  · simp only [qvvMul, qvvInverse, h.2, div_one3, mul_one3, identity]

theorem mul_identity {t : Qvv} : qvvMul t identity = t := by
  apply Qvv.ext'
  · simp only [qvvMul, identity]
    apply Quat.ext' <;> simp [quatMul]
  · simp only [qvvMul, identity, mul_one3, rotate_identity]
    apply V3.ext' <;> simp [V3.add]
  · simp only [qvvMul, identity, mul_one3]

theorem identity_mul {t : Qvv} : qvvMul identity t = t := by
  apply Qvv.ext'
  · simp only [qvvMul, identity]
    apply Quat.ext' <;> simp [quatMul]
  · simp only [qvvMul, identity]
    apply V3.ext' <;> simp [V3.add, V3.mul, rotate, toVector, quatMul, conjugate, ofVector]
  · simp only [qvvMul, identity]
    apply V3.ext' <;> simp [V3.mul, one]

theorem commute_iff {l p : Qvv} (hl : Rigid l) (hp : Rigid p) : qvvMul (qvvInverse p) (qvvMul l p) = l ↔ qvvMul l p = qvvMul p l := by
  constructor
  · intro h
    calc qvvMul l p = qvvMul identity (qvvMul l p) := identity_mul.symm
      _ = qvvMul (qvvMul p (qvvInverse p)) (qvvMul l p) := by rw [mul_inv hp]
      _ = qvvMul p (qvvMul (qvvInverse p) (qvvMul l p)) := rigid_assoc (rigid_inv hp) (rigid_mul hl hp)
      _ = qvvMul p l := by rw [h]
  · intro h
    rw [h, ← rigid_assoc hp hl, inv_mul hp, identity_mul]

/-- C79: object_to_local_space undoes local_to_object_space for a bone (rigid transforms, buffers that do not overlap) exactly when
the bone is the first, or its local transform commutes with the object space transform of its parent. -/
theorem C79_object_to_local (parents : List Nat) (src n obj dst : Nat) (m : Mem) (hs : Sorted parents n) (hb : src = obj ∨ Apart src obj n)
    (hb2 : Apart obj dst n) (hu : ∀ i < n, Rigid (m (src + i))) :
    ∃ m1 m2, localToObject parents src n obj m = some m1 ∧ objectToLocal parents obj n dst m1 = some m2 ∧
      (∀ a, a < dst ∨ dst + n ≤ a → m2 a = m1 a) ∧
      ∀ i < n, (m2 (dst + i) = m (src + i) ↔
        i = 0 ∨ ∃ p, parents[i]? = some p ∧ qvvMul (m (src + i)) (m1 (obj + p)) = qvvMul (m1 (obj + p)) (m (src + i))) := by
  by_cases hn : n = 0
  · exact ⟨m, m, by simp [localToObject, hn], by simp [objectToLocal, hn], fun _ _ => rfl, fun i hi => by omega⟩
  obtain ⟨m1, h1, -, h3, h4⟩ := localToObject_spec (m := m) (by omega) hs hb
  obtain ⟨m2, g1, g2, g3, g4⟩ := objectToLocal_spec (m := m1) (by omega) hs hb2
  refine ⟨m1, m2, h1, g1, g2, ?_⟩
  have hr : ∀ i < n, Rigid (m1 (obj + i)) ∧ ∀ p, 0 < i → parents[i]? = some p → m1 (obj + i) = qvvMul (m (src + i)) (m1 (obj + p)) := by
    intro i
    induction i using Nat.strong_induction_on with
    | _ i ih =>
      intro hi
      by_cases h0 : i = 0
      · subst h0
        have e : m1 (obj + 0) = m (src + 0) := h3
        rw [e]
        exact ⟨hu 0 hi, fun p h => by omega⟩
      · obtain ⟨p, hp, hpp⟩ := hs i (by omega) hi
        have hrig := rigid_mul (hu i hi) (ih p hp (by omega)).1
        have e := h4 i p (by omega) hi hpp
        rw [normalize_unit hrig.1] at e
        refine ⟨e ▸ hrig, fun q _ hq => ?_⟩
        rw [hpp] at hq
        injection hq with hq
        rw [← hq]; exact e
  intro i hi
  by_cases h0 : i = 0
  · subst h0
    have e1 : m1 (obj + 0) = m (src + 0) := h3
    have e2 : m2 (dst + 0) = m1 (obj + 0) := g3
    rw [e2, e1]
    simp
  · obtain ⟨p, hp, hpp⟩ := hs i (by omega) hi
    have hP := (hr p (by omega)).1
    have hO := hr i hi
    rw [g4 i p (by omega) hi hpp, normalize_unit (rigid_mul (rigid_inv hP) hO.1).1, hO.2 p (by omega) hpp, commute_iff (hu i hi) hP]
    constructor
    · exact fun h => Or.inr ⟨p, hpp, h⟩
    · rintro (h | ⟨q, hq, h⟩)
      · exact absurd h h0
      · rw [hpp] at hq
        injection hq with hq
        rw [hq]; exact h

/-! ### Findings and examples -/

/-- Turned around the z axis. -/
def turned : Qvv := ⟨⟨0, 0, 1, 0⟩, ⟨0, 0, 0⟩, one⟩

/-- A translation. -/
def shift (v : V3) : Qvv := ⟨⟨0, 0, 0, 1⟩, v, one⟩

def moved (x : ℝ) : Qvv := shift ⟨x, 0, 0⟩

theorem rigid_turned : Rigid turned := ⟨by simp [UnitRotation, turned, Quat.normSq], rfl⟩
theorem rigid_shift (v : V3) : Rigid (shift v) := ⟨by simp [UnitRotation, shift, Quat.normSq], rfl⟩
theorem rigid_moved (x : ℝ) : Rigid (moved x) := rigid_shift _

theorem shift_mul (x y : V3) : qvvMul (shift x) (shift y) = shift (x.add y) := by
  apply Qvv.ext'
  · apply Quat.ext' <;> simp [qvvMul, shift, quatMul]
  · simp only [qvvMul, shift, mul_one3, rotate_identity]
  · simp [qvvMul, shift, mul_one3]

theorem moved_mul (x y : ℝ) : qvvMul (moved x) (moved y) = moved (x + y) := by
  simp [moved, shift_mul, V3.add]

theorem moved_inverse (x : ℝ) : qvvInverse (moved x) = moved (-x) := by
  apply Qvv.ext'
  · apply Quat.ext' <;> simp [qvvInverse, moved, shift, conjugate]
  · apply V3.ext' <;> simp [qvvInverse, moved, shift, conjugate, rotate, toVector, quatMul, ofVector, V3.sub, V3.mul, V3.div, one]
  · simp [qvvInverse, moved, shift, div_one3]

/-- C79: without rotations and scale, object_to_local_space undoes local_to_object_space for every bone of every tree. -/
theorem C79_translations (parents : List Nat) (src n obj dst : Nat) (m : Mem) (hs : Sorted parents n) (hb : src = obj ∨ Apart src obj n)
    (hb2 : Apart obj dst n) (hu : ∀ i < n, ∃ v, m (src + i) = ⟨⟨0, 0, 0, 1⟩, v, ⟨1, 1, 1⟩⟩) :
    ∃ m1 m2, localToObject parents src n obj m = some m1 ∧ objectToLocal parents obj n dst m1 = some m2 ∧ ∀ i < n, m2 (dst + i) = m (src + i) := by
  have hrig : ∀ i < n, Rigid (m (src + i)) := by
    intro i hi
    obtain ⟨v, hv⟩ := hu i hi
    rw [hv]
    exact rigid_shift v
  obtain ⟨m1, m2, h1, h2, -, h4⟩ := C79_object_to_local parents src n obj dst m hs hb hb2 hrig
  refine ⟨m1, m2, h1, h2, fun i hi => (h4 i hi).2 ?_⟩
  by_cases h0 : i = 0
  · exact Or.inl h0
  obtain ⟨m1', e1, -, e3, e4⟩ := localToObject_spec (m := m) (by omega : 0 < n) hs hb
  rw [h1] at e1
  injection e1 with e1
  subst e1
  have hall : ∀ j < n, ∃ v, m1 (obj + j) = shift v := by
    intro j
    induction j using Nat.strong_induction_on with
    | _ j ih =>
      intro hj
      obtain ⟨v, hv⟩ := hu j hj
      by_cases hj0 : j = 0
      · subst hj0
        exact ⟨v, e3.trans hv⟩
      · obtain ⟨p, hp, hpp⟩ := hs j (by omega) hj
        obtain ⟨x, hx⟩ := ih p hp (by omega)
        refine ⟨v.add x, ?_⟩
        rw [e4 j p (by omega) hj hpp, hx, hv, ← shift_mul]
        exact normalize_unit (rigid_mul (rigid_shift v) (rigid_shift x)).1
  obtain ⟨p, hp, hpp⟩ := hs i (by omega) hi
  obtain ⟨v, hv⟩ := hu i hi
  obtain ⟨x, hx⟩ := hall p (by omega)
  refine Or.inr ⟨p, hpp, ?_⟩
  rw [hx, hv]
  show qvvMul (shift v) (shift x) = qvvMul (shift x) (shift v)
  rw [shift_mul, shift_mul]
  congr 1
  apply V3.ext' <;> simp only [V3.add] <;> ring

theorem not_commute : qvvMul (moved 1) turned ≠ qvvMul turned (moved 1) := by
  intro h
  have := congrArg (fun t => t.translation.x) h
  simp [qvvMul, moved, shift, turned, rotate, toVector, quatMul, conjugate, ofVector, V3.add, V3.mul, one] at this
  norm_num at this

/-- Finding: object_to_local_space multiplies in the wrong order. A bone in front of a parent that is turned around comes out behind it. -/
theorem C79_order_finding : ∃ (m : Mem) (m1 m2 : Mem), (∀ i < 2, Rigid (m i)) ∧ localToObject [0, 0] 0 2 2 m = some m1 ∧
    objectToLocal [0, 0] 2 2 4 m1 = some m2 ∧ m2 (4 + 1) ≠ m 1 := by
  have hs : Sorted [0, 0] 2 := by
    intro i h1 h2
    have e : i = 1 := by omega
    subst e
    exact ⟨0, h1, rfl⟩
  have hu : ∀ i < 2, Rigid (((fun a => if a = 0 then turned else moved 1) : Mem) (0 + i)) := by
    intro i hi
    show Rigid (if 0 + i = 0 then turned else moved 1)
    split
    · exact rigid_turned
    · exact rigid_moved 1
  obtain ⟨m1, m2, h1, h2, -, h4⟩ := C79_object_to_local [0, 0] 0 2 2 4 (fun a => if a = 0 then turned else moved 1) hs (by unfold Apart; omega)
    (by unfold Apart; omega) hu
  refine ⟨_, m1, m2, fun i hi => by simpa using hu i hi, h1, h2, fun h => ?_⟩
  rcases (h4 1 (by omega)).1 h with h | ⟨p, hp, h⟩
  · omega
  · have hp0 : p = 0 := by simpa using hp.symm
    subst hp0
    obtain ⟨m1', e1, -, e3, -⟩ := localToObject_spec (parents := [0, 0]) (src := 0) (n := 2) (dst := 2)
      (m := fun a => if a = 0 then turned else moved 1) (by omega) hs (by unfold Apart; omega)
    rw [h1] at e1
    injection e1 with e1
    subst e1
    have e : m1 (2 + 0) = turned := e3
    rw [e] at h
    exact not_commute h

/-- Finding: contrary to its comment, object_to_local_space does not work in place, not even without rotations: three bones in a row,
each 1 from its parent; the parent of the last was already overwritten. -/
theorem C79_in_place_finding : ∃ (m m1 m2 : Mem), (∀ i, m i = moved 1) ∧ localToObject [0, 0, 1] 0 3 0 m = some m1 ∧
    objectToLocal [0, 0, 1] 0 3 0 m1 = some m2 ∧ m2 2 = moved 2 := by
  have hn : ∀ x, qvvNormalize (moved x) = moved x := fun x => normalize_unit (rigid_moved x).1
  refine ⟨fun _ => moved 1, _, _, fun _ => rfl, by simp [localToObject, bones, toObject]; rfl, by simp [objectToLocal, bones, toLocal]; rfl, ?_⟩
  simp [write, moved_mul, moved_inverse, hn]
  norm_num

/-- A tree whose bones 1 and 2 hang on bone 0, and bone 3 on bone 1. -/
example : Sorted [0, 0, 0, 1] 4 := by
  intro i h1 h2
  have h : i = 1 ∨ i = 2 ∨ i = 3 := by omega
  rcases h with rfl | rfl | rfl
  · exact ⟨0, by omega, rfl⟩
  · exact ⟨0, by omega, rfl⟩
  · exact ⟨1, by omega, rfl⟩

example : UnitRotation turned ∧ UniformScale { turned with scale := ⟨2, 2, 2⟩ } := ⟨rigid_turned.1, 2, rfl⟩

end Acl.C79
