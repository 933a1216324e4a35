import Verif.Raw.PreProcessLemmas
import Verif.Transform.ErrorMetricLemmas
/-!
C70: pre-processing of transform tracks. Without loss, only the sign of quaternions changes; with loss, every sub-track is as it was, constant with its first
value, or its default value, and a sample moves by no more than the precision per sub-track and action; when there is an error, the tracks are as they
were, or their rotations were normalized.
Specification vocabulary: `Metric`, `Settings`, `Measure.distance` (the error of the metric between two transforms of a track at a sample, on
top of the additive base: Raw/PreProcess.lean), `Metric.rotate` (Transform/ErrorMetric.lean).
-/
namespace Acl.C70
open Acl.F32 Acl.Transform Acl.Compact Acl.PreProcess

/-! ## Signs -/

theorem xor_sign (b : BitVec 32) : (b ^^^ 0x80000000#32).toNat % 2 ^ 31 = b.toNat % 2 ^ 31 ∧
    (b ^^^ 0x80000000#32).toNat / 2 ^ 31 = 1 - b.toNat / 2 ^ 31 := by
  have hlt := b.isLt
  rw [BitVec.toNat_xor, show (0x80000000#32).toNat = 2 ^ 31 from by decide, Nat.xor_mod_two_pow, Nat.xor_div_two_pow]
  rw [show 2 ^ 31 % 2 ^ 31 = 0 from by decide, show 2 ^ 31 / 2 ^ 31 = 1 from by decide, Nat.xor_zero]
  refine ⟨rfl, ?_⟩
  have : b.toNat / 2 ^ 31 = 0 ∨ b.toNat / 2 ^ 31 = 1 := by omega
  rcases this with h | h <;> rw [h] <;> rfl

theorem ofBits_flip (b : BitVec 32) : ofBits (b ^^^ 0x80000000#32) = - ofBits b := by
  have hlt := b.isLt
  obtain ⟨h1, h2⟩ := xor_sign b
  unfold ofBits
  by_cases h : b.toNat < 2 ^ 31
  · rw [if_neg (by omega), if_pos h, show (b ^^^ 0x80000000#32).toNat - 2 ^ 31 = b.toNat by omega]
  · rw [if_pos (by omega), if_neg h, neg_neg, show (b ^^^ 0x80000000#32).toNat = b.toNat - 2 ^ 31 by omega]

/-- Specification: a quaternion as real numbers -/
noncomputable def quatOf (q : Vec4) : Acl.Metric.Quat := ⟨(ofBits q.x : ℝ), (ofBits q.y : ℝ), (ofBits q.z : ℝ), (ofBits q.w : ℝ)⟩

theorem rotate_negate (q : Vec4) (v : Acl.Metric.V3) : Acl.Metric.rotate v (quatOf (negate q)) = Acl.Metric.rotate v (quatOf q) := by
  have e : quatOf (negate q) = ⟨-(ofBits q.x : ℝ), -(ofBits q.y : ℝ), -(ofBits q.z : ℝ), -(ofBits q.w : ℝ)⟩ := by
    unfold quatOf negate
    simp only [ofBits_flip, Rat.cast_neg]
  rw [e]
  unfold quatOf
  apply Acl.Metric.V3.ext' <;>
  · simp only [Acl.Metric.rotate, Acl.Metric.toVector, Acl.Metric.quatMul, Acl.Metric.conjugate, Acl.Metric.ofVector]
    ring

theorem positiveW_nonneg (q : Vec4) : 0 ≤ ofBits (positiveW q).w := by
  unfold positiveW
  split
  · assumption
  · next h => unfold negate; dsimp only; rw [ofBits_flip]; linarith [not_le.1 h]

/-- Specification: the same rotation, and at most the sign differs -/
def SameRotation (q q' : Vec4) : Prop :=
  (q' = q ∨ (ofBits q'.x = - ofBits q.x ∧ ofBits q'.y = - ofBits q.y ∧ ofBits q'.z = - ofBits q.z ∧ ofBits q'.w = - ofBits q.w)) ∧
    ∀ v, Acl.Metric.rotate v (quatOf q') = Acl.Metric.rotate v (quatOf q)

theorem sameRotation_positiveW (q : Vec4) : SameRotation q (positiveW q) := by
  unfold positiveW
  split
  · exact ⟨Or.inl rfl, fun _ => rfl⟩
  · refine ⟨Or.inr ?_, rotate_negate q⟩
    unfold negate
    exact ⟨ofBits_flip _, ofBits_flip _, ofBits_flip _, ofBits_flip _⟩

/-! ## Lists -/

theorem mapRotations_get {f : Vec4 → Vec4} {l : List TransformTrack} {j : Nat} {t : TransformTrack} (ht : l[j]? = some t) :
    (mapRotations f l)[j]? = some ⟨t.default, t.samples.map fun s => { s with rotation := f s.rotation }⟩ := by
  unfold mapRotations
  rw [List.getElem?_map, ht]
  rfl

variable {C E σ : Type} [LinearOrder E]

/-- Specification: a valid list of transform tracks, with `n` samples each, and settings that suit it. -/
structure Ok (s : Settings C E σ) (n : Nat) (l : List TransformTrack) : Prop where
  tracks : l ≠ []
  samples : 0 < n
  uniform : ∀ t ∈ l, t.samples.length = n
  additive : s.additive = true → ∃ b, s.base = some b ∧ b ≠ []

variable {env : Env σ} {s : Settings C E σ} {wraps : Bool} {n : Nat} {l : List TransformTrack}

theorem numSamples_eq (h : Ok s n l) : TrackList.numSamples ⟨.transform l, wraps⟩ = n := by
  cases hl : l with
  | nil => exact absurd hl h.tracks
  | cons t r => exact h.uniform t (by rw [hl]; simp)

theorem isEmpty_eq (h : Ok s n l) : TrackList.isEmpty ⟨.transform l, wraps⟩ = false := by
  cases hl : l with
  | nil => exact absurd hl h.tracks
  | cons t r => rfl

theorem additiveError_eq (h : Ok s n l) : additiveError s ⟨.transform l, wraps⟩ = none := by
  unfold additiveError
  cases ha : s.additive with
  | false => rfl
  | true =>
    obtain ⟨b, hb, hne⟩ := h.additive ha
    rw [hb]
    cases b with
    | nil => exact absurd rfl hne
    | cons x r => rfl

/-- The measure of a run -/
def measureOf (env : Env σ) (s : Settings C E σ) (m : Metric C E σ) (l : List TransformTrack) : Measure C E σ :=
  ⟨m, env.shells (rotationActions env s.actions s.lossy l), env.baseKey, if s.additive then s.base else none⟩

/-- Specification: the error of a transform in place of sample `i` of track `j`: what the metric says, after the additive base of the same track was applied to
both transforms when the list is additive. -/
def errorAt (env : Env σ) (s : Settings C E σ) (m : Metric C E σ) (l : List TransformTrack) (j i : Nat) (raw lossy : Qvv) : E :=
  match s.additive, s.base with
  | true, some base =>
    let b := m.convertBase (env.baseKey i) (((base.getD j []).getD (env.baseKey i) ⟨⟨0, 0, 0, 0⟩, ⟨0, 0, 0, 0⟩, ⟨0, 0, 0, 0⟩⟩))
    m.error (env.shells (rotationActions env s.actions s.lossy l) j) (m.additive b (m.convert i false raw)) (m.additive b (m.convert i true lossy))
  | _, _ => m.error (env.shells (rotationActions env s.actions s.lossy l) j) (m.convert i false raw) (m.convert i true lossy)

theorem errorAt_eq (env : Env σ) (s : Settings C E σ) (m : Metric C E σ) (l : List TransformTrack) (j i : Nat) (raw lossy : Qvv) :
    errorAt env s m l j i raw lossy = (measureOf env s m l).distance j i raw lossy := by
  unfold errorAt measureOf Measure.distance Measure.prepared sampleAt
  rcases s.additive with _ | _ <;> rcases s.base with _ | b <;> rfl

theorem run_lossless (h : Ok s n l) (hs : s.lossy = false) :
    preProcess env s ⟨.transform l, wraps⟩ = (none, ⟨.transform (rotationActions env s.actions false l), wraps⟩) := by
  unfold preProcess
  rw [isEmpty_eq h, numSamples_eq h, additiveError_eq h, if_neg (by simp), if_neg (by have := h.samples; omega), hs]
  rfl

theorem run_lossy (h : Ok s n l) (hs : s.lossy = true) {m : Metric C E σ} (hm : s.metric = some m) :
    preProcess env s ⟨.transform l, wraps⟩ = (none, ⟨.transform (transformActions (measureOf env s m l) s.actions wraps n
      (rotationActions env s.actions true l)), wraps⟩) := by
  unfold preProcess
  rw [isEmpty_eq h, numSamples_eq h, additiveError_eq h, if_neg (by simp), if_neg (by have := h.samples; omega), hs, hm]
  unfold measureOf
  rw [hs]
  rfl

theorem lossless_get {actions : Actions} {j : Nat} {t : TransformTrack} (ht : l[j]? = some t) :
    (rotationActions env actions false l)[j]? =
      some (if actions.ensurePositiveW then ⟨t.default, t.samples.map fun s => { s with rotation := positiveW s.rotation }⟩ else t) := by
  unfold rotationActions normalizeRotations
  simp only [Bool.not_false, if_true, ite_self]
  by_cases hp : actions.ensurePositiveW = true
  · rw [if_pos hp, if_pos hp]
    exact mapRotations_get ht
  · rw [if_neg hp, if_neg hp]; exact ht

/-- **C70.** Pre-processing without loss never fails on transform tracks, and it only changes the sign of quaternions, when asked to: to a W that is not
negative; every point is rotated as it was. Translations, scales, default values, the number of samples and the looping policy stay. -/
theorem C70_lossless (h : Ok s n l) (hs : s.lossy = false) :
    ∃ l', preProcess env s ⟨.transform l, wraps⟩ = (none, ⟨.transform l', wraps⟩) ∧ l'.length = l.length ∧
      (s.actions.ensurePositiveW = false → l' = l) ∧
      ∀ (j : Nat) (t : TransformTrack), l[j]? = some t → ∃ t', l'[j]? = some t' ∧ t'.default = t.default ∧ t'.samples.length = t.samples.length ∧
        ∀ (i : Nat) (x y : Qvv), t.samples[i]? = some x → t'.samples[i]? = some y →
          y.translation = x.translation ∧ y.scale = x.scale ∧ SameRotation x.rotation y.rotation ∧
          (s.actions.ensurePositiveW = true → 0 ≤ ofBits y.rotation.w) := by
  refine ⟨_, run_lossless h hs, ?_, ?_, ?_⟩
  · unfold rotationActions normalizeRotations ensurePositiveW mapRotations
    simp only [Bool.not_false, if_true, ite_self]
    split <;> simp
  · intro hp
    unfold rotationActions normalizeRotations
    simp [hp]
  · intro j t ht
    refine ⟨_, lossless_get ht, ?_⟩
    by_cases hp : s.actions.ensurePositiveW = true
    · rw [if_pos hp]
      refine ⟨rfl, by simp, ?_⟩
      intro i x y hx hy
      rw [List.getElem?_map, hx, Option.map_some, Option.some.injEq] at hy
      subst hy
      exact ⟨rfl, rfl, sameRotation_positiveW _, fun _ => positiveW_nonneg _⟩
    · rw [if_neg hp]
      refine ⟨rfl, rfl, ?_⟩
      intro i x y hx hy
      rw [hx, Option.some.injEq] at hy
      subst hy
      exact ⟨rfl, rfl, ⟨Or.inl rfl, fun _ => rfl⟩, fun h => absurd h hp⟩

/-! ## Errors -/

/-- Specification: what the actions on rotations make of a rotation, with loss: normalized when it is not, then with a W that is not negative. -/
def rotationOf (env : Env σ) (actions : Actions) (q : Vec4) : Vec4 :=
  let q1 := if actions.normalizeRotations = true ∧ env.isNormalized q = false then env.normalize q else q
  if actions.ensurePositiveW then positiveW q1 else q1

/-- Specification: a sample after the actions on rotations. -/
def sampleOf (env : Env σ) (actions : Actions) (x : Qvv) : Qvv := ⟨rotationOf env actions x.rotation, x.translation, x.scale⟩

theorem rotationActions_eq (actions : Actions) (l : List TransformTrack) :
    rotationActions env actions true l = l.map fun t => ⟨t.default, t.samples.map (sampleOf env actions)⟩ := by
  unfold rotationActions normalizeRotations ensurePositiveW mapRotations
  unfold sampleOf rotationOf
  cases h1 : actions.normalizeRotations <;> cases h2 : actions.ensurePositiveW
  · simp
  · simp
  · simp
  · simp [Function.comp_def]

/-- **C70.** When pre-processing fails, the track list is as it was; when what is missing is the error metric, the rotations may have been normalized and
had their sign changed, nothing else. -/
theorem C70_error {a a' : TrackList} {e : Error} (h : preProcess env s a = (some e, a')) :
    (a' = a ∧ s.additive = true ∧ e ≠ .missingMetric) ∨
    (e = .missingMetric ∧ s.lossy = true ∧ s.metric = none ∧ ∃ l, a.tracks = .transform l ∧
      a' = ⟨.transform (l.map fun t => ⟨t.default, t.samples.map (sampleOf env s.actions)⟩), a.wraps⟩) := by
  unfold preProcess at h
  split at h
  · simp at h
  split at h
  · simp at h
  split at h
  · next e' he =>
    left
    rw [Prod.mk.injEq] at h
    obtain ⟨h1, h2⟩ := h
    have h1 := Option.some.inj h1
    refine ⟨h2.symm, ?_, ?_⟩
    · unfold additiveError at he
      cases ha : s.additive with
      | true => rfl
      | false => rw [ha] at he; simp at he
    · unfold additiveError at he
      intro hm
      rw [h1, hm] at he
      split at he
      · simp at he
      · split at he
        · simp at he
        · simp at he
        · split at he <;> simp at he
  · split at h
    · simp at h
    · next l hl =>
      split at h
      · simp at h
      · next hs =>
        have hs' : s.lossy = true := by simpa using hs
        split at h
        · next hm =>
          right
          split at h
          · rw [Prod.mk.injEq] at h
            obtain ⟨h1, h2⟩ := h
            refine ⟨(Option.some.inj h1).symm, hs', hm, l, hl, ?_⟩
            rw [← h2, hs', rotationActions_eq]
          · simp at h
        · simp at h

/-- **C70.** Pre-processing fails exactly when there is something to do and: an additive format is asked for with scalar tracks, without a base, or with an
empty one; or the tracks are transforms, loss is accepted, one of the three actions that need the error metric is asked for and there is none. -/
theorem C70_fails (a : TrackList) : (preProcess env s a).1 ≠ none ↔ a.isEmpty = false ∧ a.numSamples ≠ 0 ∧
    ((s.additive = true ∧ ((∃ l, a.tracks = .scalar l) ∨ s.base = none ∨ s.base = some [])) ∨
      ((∃ l, a.tracks = .transform l) ∧ s.lossy = true ∧ s.metric = none ∧
        (s.actions.optimizeLooping = true ∨ s.actions.sanitizeConstant = true ∨ s.actions.sanitizeDefault = true))) := by
  rcases a with ⟨tr, w⟩
  unfold preProcess
  cases he : TrackList.isEmpty ⟨tr, w⟩ with
  | true => simp
  | false =>
    by_cases hn : TrackList.numSamples ⟨tr, w⟩ = 0
    · simp [hn]
    · rw [if_neg (by simp), if_neg hn]
      simp only [true_and, ne_eq, hn, not_false_eq_true]
      unfold additiveError needsMetric
      have hor : ∀ x y z : Bool, (x = false → y = false → z = true) ↔ (x = true ∨ y = true ∨ z = true) := by decide
      cases tr with
      | scalar l => cases ha : s.additive <;> simp
      | transform l =>
        cases ha : s.additive with
        | false => cases hl : s.lossy <;> cases hm : s.metric <;> simp [hor]
        | true =>
          cases hb : s.base with
          | none => simp
          | some b =>
            cases b with
            | nil => simp
            | cons x r => cases hl : s.lossy <;> cases hm : s.metric <;> simp [hor]

/-- **C70.** There is nothing to do without tracks or samples. -/
theorem C70_nothing {a : TrackList} (h : a.isEmpty = true ∨ a.numSamples = 0) : preProcess env s a = (none, a) := by
  unfold preProcess
  by_cases he : a.isEmpty = true
  · rw [if_pos he]
  · rw [if_neg he]
    rcases h with h | h
    · exact absurd h he
    · rw [if_pos h]

/-! ## With loss -/

theorem sampleAt_some {l : List Qvv} {i : Nat} {x : Qvv} (h : l[i]? = some x) : sampleAt l i = x := by
  unfold sampleAt; rw [List.getD_eq_getElem?_getD, h]; rfl

theorem replaceFrom_length (f : Nat) (kind : Kind) (v : Vec4) (l : List Qvv) : (replaceFrom f kind v l).length = l.length := by
  unfold replaceFrom; simp

theorem replaceFrom_get {f : Nat} {kind : Kind} {v : Vec4} {l : List Qvv} {i : Nat} (hi : i < l.length) :
    sampleAt (replaceFrom f kind v l) i = if f ≤ i then (sampleAt l i).set kind v else sampleAt l i := by
  have hx := List.getElem?_eq_getElem hi
  rw [sampleAt_some hx]
  refine sampleAt_some ?_
  unfold replaceFrom
  rw [List.getElem?_mapIdx, hx]
  rfl

theorem set_get (x : Qvv) (kind : Kind) : x.set kind (Qvv.get x kind) = x := by cases kind <;> rfl

theorem get_set (x : Qvv) (kind : Kind) (v : Vec4) : Qvv.get (x.set kind v) kind = v := by cases kind <;> rfl

theorem get_set_ne (x : Qvv) {kind kind' : Kind} (h : kind' ≠ kind) (v : Vec4) : Qvv.get (x.set kind v) kind' = Qvv.get x kind' := by
  cases kind <;> cases kind' <;> first | rfl | exact absurd rfl h

/-- A sub-track is replaced, or nothing is. -/
inductive Step (kind : Kind) (ok : Nat → Qvv → Qvv → Prop) (v : Vec4) (l l' : List Qvv) : Prop where
  | kept (e : l' = l)
  | replaced (length : l'.length = l.length) (value : ∀ i, i < l.length → sampleAt l' i = (sampleAt l i).set kind v)
      (within : ∀ i, i < l.length → ok i (sampleAt l i) (sampleAt l' i))

/-- Specification: a transform in place of another one at a sample of a track is within the precision of the track. -/
def Fits (M : Measure C E σ) (j i : Nat) (x y : Qvv) : Prop := M.distance j i x y ≤ M.metric.precision (M.shells j)

theorem areConstant_iff (M : Measure C E σ) (j : Nat) (l : List Qvv) (v : Vec4) (kind : Kind) :
    areConstant M j l v kind = true ↔ ∀ i, i < l.length → Fits M j i (sampleAt l i) ((sampleAt l i).set kind v) := by
  unfold areConstant Fits
  rw [List.all_eq_true]
  constructor
  · intro h i hi
    have := h i (List.mem_range.2 hi)
    simpa using this
  · intro h i hi
    simpa using h i (List.mem_range.1 hi)

theorem constantSub_step (M : Measure C E σ) (j : Nat) (kind : Kind) (l : List Qvv) :
    Step kind (Fits M j) (Qvv.get (sampleAt l 0) kind) l (constantSub M j kind l) := by
  unfold constantSub
  by_cases h : areConstant M j l (Qvv.get (sampleAt l 0) kind) kind = true
  · rw [if_pos h]
    have key : ∀ i, i < l.length → sampleAt (replaceFrom 1 kind (Qvv.get (sampleAt l 0) kind) l) i = (sampleAt l i).set kind (Qvv.get (sampleAt l 0) kind) := by
      intro i hi
      rw [replaceFrom_get hi]
      split
      · rfl
      · have : i = 0 := by omega
        subst this
        exact (set_get _ _).symm
    refine Step.replaced (replaceFrom_length _ _ _ _) key fun i hi => ?_
    rw [key i hi]
    exact (areConstant_iff M j l _ kind).1 h i hi
  · rw [if_neg h]; exact Step.kept rfl

theorem defaultSub_step (M : Measure C E σ) (j : Nat) (d : Qvv) (kind : Kind) (l : List Qvv) :
    Step kind (Fits M j) (Qvv.get d kind) l (defaultSub M j d kind l) := by
  unfold defaultSub
  by_cases h : areConstant M j l (Qvv.get d kind) kind = true
  · rw [if_pos h]
    have key : ∀ i, i < l.length → sampleAt (replaceFrom 0 kind (Qvv.get d kind) l) i = (sampleAt l i).set kind (Qvv.get d kind) := by
      intro i hi
      rw [replaceFrom_get hi, if_pos (Nat.zero_le _)]
    refine Step.replaced (replaceFrom_length _ _ _ _) key fun i hi => ?_
    rw [key i hi]
    exact (areConstant_iff M j l _ kind).1 h i hi
  · rw [if_neg h]; exact Step.kept rfl

theorem Step.length_eq {kind : Kind} {ok : Nat → Qvv → Qvv → Prop} {v : Vec4} {l l' : List Qvv} (h : Step kind ok v l l') : l'.length = l.length := by
  cases h with
  | kept e => rw [e]
  | replaced h1 _ _ => exact h1

/-- A step leaves the other sub-tracks alone. -/
theorem Step.other {kind kind' : Kind} {ok : Nat → Qvv → Qvv → Prop} {v : Vec4} {l l' : List Qvv} (h : Step kind ok v l l') (hne : kind' ≠ kind)
    {i : Nat} (hi : i < l.length) : Qvv.get (sampleAt l' i) kind' = Qvv.get (sampleAt l i) kind' := by
  cases h with
  | kept e => rw [e]
  | replaced _ h2 _ => rw [h2 i hi, get_set_ne _ hne]

theorem Step.own {kind : Kind} {ok : Nat → Qvv → Qvv → Prop} {v : Vec4} {l l' : List Qvv} (h : Step kind ok v l l') :
    (∀ i, i < l.length → Qvv.get (sampleAt l' i) kind = Qvv.get (sampleAt l i) kind) ∨ ∀ i, i < l.length → Qvv.get (sampleAt l' i) kind = v := by
  cases h with
  | kept e => exact Or.inl fun i _ => by rw [e]
  | replaced _ h2 _ => exact Or.inr fun i hi => by rw [h2 i hi, get_set]

/-- Three steps, one for each kind of sub-track; the values may depend on the list before the step. -/
theorem three_steps {ok : Nat → Qvv → Qvv → Prop} {l l1 l2 l3 : List Qvv} {v1 v2 v3 : Vec4} (h1 : Step .rotation ok v1 l l1)
    (h2 : Step .translation ok v2 l1 l2) (h3 : Step .scale ok v3 l2 l3) : l3.length = l.length ∧
      ((∀ i, i < l.length → Qvv.get (sampleAt l3 i) .rotation = Qvv.get (sampleAt l i) .rotation) ∨ ∀ i, i < l.length → Qvv.get (sampleAt l3 i) .rotation = v1) ∧
      ((∀ i, i < l.length → Qvv.get (sampleAt l3 i) .translation = Qvv.get (sampleAt l i) .translation) ∨ ∀ i, i < l.length → Qvv.get (sampleAt l3 i) .translation = v2) ∧
      ((∀ i, i < l.length → Qvv.get (sampleAt l3 i) .scale = Qvv.get (sampleAt l i) .scale) ∨ ∀ i, i < l.length → Qvv.get (sampleAt l3 i) .scale = v3) := by
  have e1 := h1.length_eq
  have e2 := h2.length_eq
  have e3 := h3.length_eq
  refine ⟨by omega, ?_, ?_, ?_⟩
  · have a : ∀ i, i < l.length → Qvv.get (sampleAt l3 i) .rotation = Qvv.get (sampleAt l1 i) .rotation := fun i hi => by
      rw [h3.other (by decide) (by omega), h2.other (by decide) (by omega)]
    rcases h1.own with h | h
    · exact Or.inl fun i hi => (a i hi).trans (h i hi)
    · exact Or.inr fun i hi => (a i hi).trans (h i hi)
  · have a : ∀ i, i < l.length → Qvv.get (sampleAt l3 i) .translation = Qvv.get (sampleAt l2 i) .translation := fun i hi => by
      rw [h3.other (by decide) (by omega)]
    have b : ∀ i, i < l.length → Qvv.get (sampleAt l1 i) .translation = Qvv.get (sampleAt l i) .translation := fun i hi => h1.other (by decide) hi
    rcases h2.own with h | h
    · exact Or.inl fun i hi => (a i hi).trans ((h i (by omega)).trans (b i hi))
    · exact Or.inr fun i hi => (a i hi).trans (h i (by omega))
  · have b : ∀ i, i < l.length → Qvv.get (sampleAt l2 i) .scale = Qvv.get (sampleAt l i) .scale := fun i hi =>
      (h2.other (by decide) (by omega)).trans (h1.other (by decide) hi)
    rcases h3.own with h | h
    · exact Or.inl fun i hi => (h i (by omega)).trans (b i hi)
    · exact Or.inr fun i hi => h i (by omega)

/-- The sub-tracks after the constant ones are sanitized: as they were, or constant with their first value -/
theorem constantTransform_subs (M : Measure C E σ) (j : Nat) (t : TransformTrack) (hne : 0 < t.samples.length) :
    (constantTransform M j t).samples.length = t.samples.length ∧ ∀ kind,
      (∀ i, i < t.samples.length → Qvv.get (sampleAt (constantTransform M j t).samples i) kind = Qvv.get (sampleAt t.samples i) kind) ∨
      (∀ i, i < t.samples.length → Qvv.get (sampleAt (constantTransform M j t).samples i) kind = Qvv.get (sampleAt t.samples 0) kind) := by
  have s1 := constantSub_step M j .rotation t.samples
  have s2 := constantSub_step M j .translation (constantSub M j .rotation t.samples)
  have s3 := constantSub_step M j .scale (constantSub M j .translation (constantSub M j .rotation t.samples))
  have l1 := s1.length_eq
  obtain ⟨h0, h1, h2, h3⟩ := three_steps s1 s2 s3
  refine ⟨h0, fun kind => ?_⟩
  have e2 : Qvv.get (sampleAt (constantSub M j .rotation t.samples) 0) .translation = Qvv.get (sampleAt t.samples 0) .translation :=
    s1.other (by decide) hne
  have e3 : Qvv.get (sampleAt (constantSub M j .translation (constantSub M j .rotation t.samples)) 0) .scale = Qvv.get (sampleAt t.samples 0) .scale :=
    (s2.other (by decide) (by omega)).trans (s1.other (by decide) hne)
  rw [e2] at h2
  rw [e3] at h3
  cases kind
  · exact h1
  · exact h2
  · exact h3

theorem defaultTransform_subs (M : Measure C E σ) (j : Nat) (t : TransformTrack) :
    (defaultTransform M j t).samples.length = t.samples.length ∧ ∀ kind,
      (∀ i, i < t.samples.length → Qvv.get (sampleAt (defaultTransform M j t).samples i) kind = Qvv.get (sampleAt t.samples i) kind) ∨
      (∀ i, i < t.samples.length → Qvv.get (sampleAt (defaultTransform M j t).samples i) kind = Qvv.get t.default kind) := by
  have s1 := defaultSub_step M j t.default .rotation t.samples
  have s2 := defaultSub_step M j t.default .translation (defaultSub M j t.default .rotation t.samples)
  have s3 := defaultSub_step M j t.default .scale (defaultSub M j t.default .translation (defaultSub M j t.default .rotation t.samples))
  obtain ⟨h0, h1, h2, h3⟩ := three_steps s1 s2 s3
  refine ⟨h0, fun kind => ?_⟩
  cases kind
  · exact h1
  · exact h2
  · exact h3

/-- The list after the looping action -/
def looped (M : Measure C E σ) (actions : Actions) (wraps : Bool) (n : Nat) (l : List TransformTrack) : List TransformTrack :=
  if actions.optimizeLooping && loops true wraps n then loopTransform M n l else l

theorem isLooping_iff (M : Measure C E σ) (n : Nat) (l : List TransformTrack) : isLooping M n l = true ↔ ∀ (j : Nat) (t : TransformTrack), l[j]? = some t →
    M.metric.error (M.shells j) (M.loopPrepared n j 0 (sampleAt t.samples 0)) (M.loopPrepared n j M.baseLast (sampleAt t.samples (n - 1))) ≤
      M.metric.precision (M.shells j) := by
  unfold isLooping
  rw [List.all_eq_true]
  have e : ∀ (j : Nat) (t : TransformTrack), l[j]? = some t → (l.map (·.samples)).getD j [] = t.samples := by
    intro j t ht
    rw [List.getD_eq_getElem?_getD, List.getElem?_map, ht]
    rfl
  constructor
  · intro h j t ht
    have := h j (List.mem_range.2 (List.getElem?_eq_some_iff.1 ht).1)
    rw [e j t ht] at this
    simpa using this
  · intro h j hj
    have hj := List.mem_range.1 hj
    have ht := List.getElem?_eq_getElem hj
    rw [e j _ ht]
    simpa using h j _ ht

/-- A track after the looping action -/
theorem looped_get (M : Measure C E σ) (actions : Actions) (wraps : Bool) {n : Nat} {l : List TransformTrack} {j : Nat} {t : TransformTrack}
    (ht : l[j]? = some t) : ∃ t1, (looped M actions wraps n l)[j]? = some t1 ∧ t1.default = t.default ∧ (t1 = t ∨
      (actions.optimizeLooping = true ∧ 1 < n ∧ t1.samples = t.samples.set (n - 1) (sampleAt t.samples 0) ∧
        M.metric.error (M.shells j) (M.loopPrepared n j 0 (sampleAt t.samples 0)) (M.loopPrepared n j M.baseLast (sampleAt t.samples (n - 1))) ≤
          M.metric.precision (M.shells j))) := by
  unfold looped
  by_cases hc : (actions.optimizeLooping && loops true wraps n) = true
  · rw [if_pos hc]
    unfold loopTransform
    by_cases hl : isLooping M n l = true
    · rw [if_pos hl, List.getElem?_map, ht, Option.map_some]
      have h1 : actions.optimizeLooping = true ∧ 1 < n := by
        unfold loops at hc
        simp only [Bool.and_eq_true, decide_eq_true_eq] at hc
        exact ⟨hc.1, hc.2.2⟩
      exact ⟨_, rfl, rfl, Or.inr ⟨h1.1, h1.2, rfl, (isLooping_iff M n l).1 hl j t ht⟩⟩
    · rw [if_neg hl]; exact ⟨t, ht, rfl, Or.inl rfl⟩
  · rw [if_neg hc]; exact ⟨t, ht, rfl, Or.inl rfl⟩

/-- A track after all the actions -/
theorem actions_get (M : Measure C E σ) (actions : Actions) (wraps : Bool) {n : Nat} {l : List TransformTrack} {j : Nat} {t1 : TransformTrack}
    (h1 : (looped M actions wraps n l)[j]? = some t1) : (transformActions M actions wraps n l)[j]? =
      some ((fun t2 => if actions.sanitizeDefault then defaultTransform M j t2 else t2) (if actions.sanitizeConstant then constantTransform M j t1 else t1)) := by
  have e : transformActions M actions wraps n l = (fun l2 : List TransformTrack => if actions.sanitizeDefault then l2.mapIdx (defaultTransform M) else l2)
      (if actions.sanitizeConstant then (looped M actions wraps n l).mapIdx (constantTransform M) else looped M actions wraps n l) := rfl
  rw [e]
  cases actions.sanitizeConstant <;> cases actions.sanitizeDefault <;> simp [List.getElem?_mapIdx, h1]

theorem input_get (h : Ok s n l) (actions : Actions) {j : Nat} {t : TransformTrack} (ht : l[j]? = some t) :
    (rotationActions env actions true l)[j]? = some ⟨t.default, t.samples.map (sampleOf env actions)⟩ ∧ t.samples.length = n ∧
      ∀ i, i < n → sampleAt (t.samples.map (sampleOf env actions)) i = sampleOf env actions (sampleAt t.samples i) := by
  refine ⟨by rw [rotationActions_eq, List.getElem?_map, ht]; rfl, h.uniform t (List.mem_of_getElem? ht), fun i hi => ?_⟩
  have hx := List.getElem?_eq_getElem (l := t.samples) (i := i) (by rw [h.uniform t (List.mem_of_getElem? ht)]; exact hi)
  rw [sampleAt_some hx]
  exact sampleAt_some (by rw [List.getElem?_map, hx]; rfl)

theorem set_sample {n : Nat} {l : List Qvv} (hl : l.length = n) (x : Qvv) {i : Nat} (hi : i < n) :
    sampleAt (l.set (n - 1) x) i = if i = n - 1 then x else sampleAt l i := by
  unfold sampleAt
  rw [List.getD_eq_getElem?_getD, List.getD_eq_getElem?_getD, List.getElem?_set]
  by_cases hn : n - 1 = i
  · rw [if_pos hn, if_pos (by omega), if_pos hn.symm]; rfl
  · rw [if_neg hn, if_neg (fun h => hn h.symm)]

theorem actions_length (M : Measure C E σ) (actions : Actions) (wraps : Bool) (n : Nat) (l : List TransformTrack) :
    (transformActions M actions wraps n l).length = l.length := by
  have h1 : (loopTransform M n l).length = l.length := by unfold loopTransform; split <;> simp
  unfold transformActions
  dsimp only
  split <;> split <;> split <;> simp [h1]

theorem rotationActions_length (actions : Actions) (l : List TransformTrack) : (rotationActions env actions true l).length = l.length := by
  rw [rotationActions_eq]; simp

/-- **C70.** With loss: every sub-track ends up with its default value at every sample, with its first value at every sample, or as it was - after the actions on
rotations -, but for the last sample, which may be the first one; and only the actions that were asked for do it. Pre-processing does not fail, and keeps the
tracks, the default values, the number of samples and the looping policy. -/
theorem C70_subtracks (h : Ok s n l) (hs : s.lossy = true) {m : Metric C E σ} (hm : s.metric = some m) :
    ∃ l', preProcess env s ⟨.transform l, wraps⟩ = (none, ⟨.transform l', wraps⟩) ∧ l'.length = l.length ∧
      ∀ (j : Nat) (t : TransformTrack), l[j]? = some t → ∃ t', l'[j]? = some t' ∧ t'.default = t.default ∧ t'.samples.length = n ∧ ∀ kind,
        (s.actions.sanitizeDefault = true ∧ ∀ i, i < n → Qvv.get (sampleAt t'.samples i) kind = Qvv.get t.default kind) ∨
        (s.actions.sanitizeConstant = true ∧ ∀ i, i < n → Qvv.get (sampleAt t'.samples i) kind = Qvv.get (sampleOf env s.actions (sampleAt t.samples 0)) kind) ∨
        (∀ i, i < n → Qvv.get (sampleAt t'.samples i) kind = Qvv.get (sampleOf env s.actions (sampleAt t.samples i)) kind ∨
          (s.actions.optimizeLooping = true ∧ i = n - 1 ∧ Qvv.get (sampleAt t'.samples i) kind = Qvv.get (sampleOf env s.actions (sampleAt t.samples 0)) kind)) := by
  refine ⟨_, run_lossy h hs hm, by rw [actions_length, rotationActions_length], ?_⟩
  intro j t ht
  obtain ⟨g1, g2, g3⟩ := input_get (env := env) h s.actions ht
  have hn := h.samples
  generalize hM : measureOf env s m l = M
  obtain ⟨t1, e1, d1, hcase⟩ := looped_get M s.actions wraps (n := n) g1
  refine ⟨_, actions_get M s.actions wraps e1, ?_⟩
  have len1 : t1.samples.length = n := by
    rcases hcase with rfl | ⟨-, -, e, -⟩
    · simp [g2]
    · rw [e]; simp [g2]
  have first1 : sampleAt t1.samples 0 = sampleOf env s.actions (sampleAt t.samples 0) := by
    rcases hcase with rfl | ⟨-, hn1, e, -⟩
    · exact g3 0 hn
    · rw [e, set_sample (by simp [g2]) _ hn, if_neg (by omega)]; exact g3 0 hn
  have val1 : ∀ i, i < n → sampleAt t1.samples i = sampleOf env s.actions (sampleAt t.samples i) ∨
      (s.actions.optimizeLooping = true ∧ i = n - 1 ∧ sampleAt t1.samples i = sampleOf env s.actions (sampleAt t.samples 0)) := by
    intro i hi
    rcases hcase with rfl | ⟨ha, hn1, e, -⟩
    · exact Or.inl (g3 i hi)
    · rw [e, set_sample (by simp [g2]) _ hi]
      split
      · next hl => exact Or.inr ⟨ha, hl, g3 0 hn⟩
      · exact Or.inl (g3 i hi)
  -- the constant sub-tracks
  obtain ⟨t2, ht2, d2, len2, val2⟩ : ∃ t2, (if s.actions.sanitizeConstant then constantTransform M j t1 else t1) = t2 ∧ t2.default = t1.default ∧
      t2.samples.length = n ∧ ∀ kind, (∀ i, i < n → Qvv.get (sampleAt t2.samples i) kind = Qvv.get (sampleAt t1.samples i) kind) ∨
        (s.actions.sanitizeConstant = true ∧ ∀ i, i < n → Qvv.get (sampleAt t2.samples i) kind = Qvv.get (sampleAt t1.samples 0) kind) := by
    cases hc : s.actions.sanitizeConstant with
    | false => exact ⟨t1, rfl, rfl, len1, fun kind => Or.inl fun i _ => rfl⟩
    | true =>
      obtain ⟨a, b⟩ := constantTransform_subs M j t1 (by omega)
      refine ⟨_, rfl, rfl, by rw [if_pos rfl, a, len1], fun kind => ?_⟩
      rw [if_pos rfl]
      rw [len1] at b
      rcases b kind with b | b
      · exact Or.inl b
      · exact Or.inr ⟨rfl, b⟩
  rw [ht2]
  dsimp only
  -- the default sub-tracks
  obtain ⟨t3, ht3, d3, len3, val3⟩ : ∃ t3, (if s.actions.sanitizeDefault then defaultTransform M j t2 else t2) = t3 ∧ t3.default = t2.default ∧
      t3.samples.length = n ∧ ∀ kind, (∀ i, i < n → Qvv.get (sampleAt t3.samples i) kind = Qvv.get (sampleAt t2.samples i) kind) ∨
        (s.actions.sanitizeDefault = true ∧ ∀ i, i < n → Qvv.get (sampleAt t3.samples i) kind = Qvv.get t2.default kind) := by
    cases hc : s.actions.sanitizeDefault with
    | false => exact ⟨t2, rfl, rfl, len2, fun kind => Or.inl fun i _ => rfl⟩
    | true =>
      obtain ⟨a, b⟩ := defaultTransform_subs M j t2
      refine ⟨_, rfl, rfl, by rw [if_pos rfl, a, len2], fun kind => ?_⟩
      rw [if_pos rfl]
      rw [len2] at b
      rcases b kind with b | b
      · exact Or.inl b
      · exact Or.inr ⟨rfl, b⟩
  rw [ht3]
  refine ⟨by rw [d3, d2, d1], len3, fun kind => ?_⟩
  rcases val3 kind with v3 | ⟨ha, v3⟩
  · rcases val2 kind with v2 | ⟨ha, v2⟩
    · right; right
      intro i hi
      rw [v3 i hi, v2 i hi]
      rcases val1 i hi with e | ⟨a1, a2, a3⟩
      · exact Or.inl (by rw [e])
      · exact Or.inr ⟨a1, a2, by rw [a3]⟩
    · right; left
      exact ⟨ha, fun i hi => by rw [v3 i hi, v2 i hi, first1]⟩
  · left
    exact ⟨ha, fun i hi => by rw [v3 i hi, d2, d1]⟩

/-! ## How far -/

/-- Specification: how many times the precision a sample can move. -/
def steps (actions : Actions) (n i : Nat) : Nat :=
  (if actions.optimizeLooping = true ∧ i = n - 1 then 1 else 0) + (if actions.sanitizeConstant then 3 else 0) + (if actions.sanitizeDefault then 3 else 0)

section
variable [AddCommMonoid E] [IsOrderedAddMonoid E]

/-- Specification: what the errors of a metric satisfy (C67 has the metrics of the library). -/
structure Laws (M : Measure C E σ) : Prop where
  self : ∀ j i x, M.distance j i x x ≤ 0
  triangle : ∀ j i x y z, M.distance j i x z ≤ M.distance j i x y + M.distance j i y z
  precision : ∀ j, 0 ≤ M.metric.precision (M.shells j)

/-- Every sample of a list is within `k` times the precision. -/
def Near (M : Measure C E σ) (j k : Nat) (l l' : List Qvv) : Prop :=
  l'.length = l.length ∧ ∀ i, i < l.length → M.distance j i (sampleAt l i) (sampleAt l' i) ≤ k • M.metric.precision (M.shells j)

theorem near_trans {M : Measure C E σ} (hM : Laws M) {j a b : Nat} {l l' l'' : List Qvv} (h1 : Near M j a l l') (h2 : Near M j b l' l'') :
    Near M j (a + b) l l'' := by
  refine ⟨h2.1.trans h1.1, fun i hi => ?_⟩
  rw [add_nsmul]
  exact le_trans (hM.triangle j i _ (sampleAt l' i) _) (add_le_add (h1.2 i hi) (h2.2 i (by rw [h1.1]; exact hi)))

theorem near_step {M : Measure C E σ} (hM : Laws M) {j : Nat} {kind : Kind} {v : Vec4} {l l' : List Qvv} (h : Step kind (Fits M j) v l l') : Near M j 1 l l' := by
  refine ⟨h.length_eq, fun i hi => ?_⟩
  rw [one_nsmul]
  cases h with
  | kept e => rw [e]; exact le_trans (hM.self j i _) (hM.precision j)
  | replaced _ _ h3 => exact h3 i hi

theorem near_constant {M : Measure C E σ} (hM : Laws M) (j : Nat) (t : TransformTrack) : Near M j 3 t.samples (constantTransform M j t).samples :=
  near_trans hM (near_trans hM (near_step hM (constantSub_step M j .rotation _)) (near_step hM (constantSub_step M j .translation _)))
    (near_step hM (constantSub_step M j .scale _))

theorem near_default {M : Measure C E σ} (hM : Laws M) (j : Nat) (t : TransformTrack) : Near M j 3 t.samples (defaultTransform M j t).samples :=
  near_trans hM (near_trans hM (near_step hM (defaultSub_step M j t.default .rotation _)) (near_step hM (defaultSub_step M j t.default .translation _)))
    (near_step hM (defaultSub_step M j t.default .scale _))

theorem near_refl {M : Measure C E σ} (hM : Laws M) (j : Nat) (l : List Qvv) : Near M j 0 l l := by
  refine ⟨rfl, fun i _ => ?_⟩
  rw [zero_nsmul]
  exact hM.self j i _

/-- Specification: the looping test and the error agree: there is no additive base, the metric is symmetric and it treats both of its arguments alike. -/
structure Plain (M : Measure C E σ) : Prop where
  base : M.base = none
  symmetric : ∀ sh a b, M.metric.error sh a b = M.metric.error sh b a
  convert : ∀ i x, M.metric.convert i false x = M.metric.convert i true x

/-- **C70.** Within what: every sample of the result is within the precision of its track, times one for each sub-track of each action that
sanitizes, plus one for the last sample when looping clips are optimized; in the metric that was given, with the shells of the tracks as they are after the
actions on rotations. Optimizing looping clips asks for a clip that is not additive (see the finding). -/
theorem C70_precision (h : Ok s n l) (hs : s.lossy = true) {m : Metric C E σ} (hm : s.metric = some m) (hM : Laws (measureOf env s m l))
    (hp : s.actions.optimizeLooping = true → Plain (measureOf env s m l)) :
    ∃ l', preProcess env s ⟨.transform l, wraps⟩ = (none, ⟨.transform l', wraps⟩) ∧
      ∀ (j : Nat) (t t' : TransformTrack), l[j]? = some t → l'[j]? = some t' → ∀ i, i < n →
        errorAt env s m l j i (sampleOf env s.actions (sampleAt t.samples i)) (sampleAt t'.samples i) ≤
          steps s.actions n i • m.precision (env.shells (rotationActions env s.actions s.lossy l) j) := by
  refine ⟨_, run_lossy h hs hm, ?_⟩
  intro j t t' ht ht' i hi
  rw [errorAt_eq, show env.shells (rotationActions env s.actions s.lossy l) j = (measureOf env s m l).shells j from rfl]
  obtain ⟨g1, g2, g3⟩ := input_get (env := env) h s.actions ht
  have hmet : (measureOf env s m l).metric = m := rfl
  generalize hMe : measureOf env s m l = M at *
  obtain ⟨t1, e1, d1, hcase⟩ := looped_get M s.actions wraps (n := n) g1
  rw [actions_get M s.actions wraps e1, Option.some.injEq] at ht'
  have hn := h.samples
  have len1 : t1.samples.length = n := by
    rcases hcase with rfl | ⟨-, -, e, -⟩
    · simp [g2]
    · rw [e]; simp [g2]
  have near1 : M.distance j i (sampleOf env s.actions (sampleAt t.samples i)) (sampleAt t1.samples i) ≤
      (if s.actions.optimizeLooping = true ∧ i = n - 1 then 1 else 0) • M.metric.precision (M.shells j) := by
    have hzero : ∀ x k, M.distance j i x x ≤ k • M.metric.precision (M.shells j) := fun x k =>
      le_trans (hM.self j i x) (nsmul_nonneg (hM.precision j) k)
    rcases hcase with rfl | ⟨ha, hn1, e, hle⟩
    · rw [g3 i hi]; exact hzero _ _
    · rw [e, set_sample (by simp [g2]) _ hi]
      by_cases hl : i = n - 1
      · rw [if_pos hl, if_pos ⟨ha, hl⟩, one_nsmul, hl]
        dsimp only at hle ⊢
        rw [g3 0 hn, g3 (n - 1) (by omega)] at hle
        rw [g3 0 hn]
        obtain ⟨p1, p2, p3⟩ := hp ha
        unfold Measure.distance Measure.prepared
        unfold Measure.loopPrepared at hle
        rw [p1] at hle ⊢
        dsimp only at hle ⊢
        rw [p3, p2]
        exact hle
      · rw [if_neg hl]
        dsimp only
        rw [g3 i hi]; exact hzero _ _
  have near2 : Near M j (if s.actions.sanitizeConstant then 3 else 0) t1.samples
      (if s.actions.sanitizeConstant then constantTransform M j t1 else t1).samples := by
    cases s.actions.sanitizeConstant with
    | false => exact near_refl hM j _
    | true => exact near_constant hM j t1
  generalize (if s.actions.sanitizeConstant then constantTransform M j t1 else t1) = t2 at *
  dsimp only at ht'
  have near3 : Near M j (if s.actions.sanitizeDefault then 3 else 0) t2.samples t'.samples := by
    rw [← ht']
    cases s.actions.sanitizeDefault with
    | false => exact near_refl hM j _
    | true => exact near_default hM j t2
  have near23 := (near_trans hM near2 near3).2 i (by omega)
  refine le_trans (hM.triangle j i _ (sampleAt t1.samples i) _) ?_
  refine le_trans (add_le_add near1 near23) ?_
  rw [← hmet, ← add_nsmul]
  unfold steps
  rw [add_assoc]

end

/-- **C70.** When the error between the first and the last sample of every track is within the precision, they are equal afterwards, in every track. -/
theorem C70_looping (h : Ok s n l) (hs : s.lossy = true) {m : Metric C E σ} (hm : s.metric = some m) (ha : s.actions.optimizeLooping = true)
    (hw : wraps = false) (hn : 1 < n)
    (hall : ∀ (j : Nat) (t : TransformTrack), l[j]? = some t →
      m.error ((measureOf env s m l).shells j) ((measureOf env s m l).loopPrepared n j 0 (sampleOf env s.actions (sampleAt t.samples 0)))
        ((measureOf env s m l).loopPrepared n j (measureOf env s m l).baseLast (sampleOf env s.actions (sampleAt t.samples (n - 1)))) ≤
      m.precision ((measureOf env s m l).shells j)) :
    ∃ l', preProcess env s ⟨.transform l, wraps⟩ = (none, ⟨.transform l', wraps⟩) ∧
      ∀ (j : Nat) (t' : TransformTrack), l'[j]? = some t' → sampleAt t'.samples (n - 1) = sampleAt t'.samples 0 := by
  refine ⟨_, run_lossy h hs hm, ?_⟩
  intro j t' ht'
  have hj : j < l.length := by
    have := (List.getElem?_eq_some_iff.1 ht').1
    rw [actions_length, rotationActions_length] at this
    exact this
  have ht := List.getElem?_eq_getElem hj
  obtain ⟨g1, g2, g3⟩ := input_get (env := env) h s.actions ht
  have hmet : (measureOf env s m l).metric = m := rfl
  have hin : ∀ (j : Nat) (t : TransformTrack), (rotationActions env s.actions true l)[j]? = some t →
      ∃ t0, l[j]? = some t0 ∧ t = ⟨t0.default, t0.samples.map (sampleOf env s.actions)⟩ := by
    intro j t htt
    have hj : j < l.length := by
      have := (List.getElem?_eq_some_iff.1 htt).1
      rw [rotationActions_length] at this
      exact this
    refine ⟨l[j], List.getElem?_eq_getElem hj, ?_⟩
    have := (input_get (env := env) h s.actions (List.getElem?_eq_getElem hj)).1
    rw [htt] at this
    exact Option.some.inj this
  generalize hMe : measureOf env s m l = M at *
  have e1 : (looped M s.actions wraps n (rotationActions env s.actions true l))[j]? =
      some ⟨(l[j]).default, ((l[j]).samples.map (sampleOf env s.actions)).set (n - 1) (sampleAt ((l[j]).samples.map (sampleOf env s.actions)) 0)⟩ := by
    unfold looped loops
    rw [ha, hw, if_pos (by simp [hn])]
    unfold loopTransform
    rw [if_pos ?_, List.getElem?_map, g1]
    · rfl
    · rw [isLooping_iff]
      intro j t htt
      obtain ⟨t0, ht0, rfl⟩ := hin j t htt
      obtain ⟨-, k2, k3⟩ := input_get (env := env) h s.actions ht0
      dsimp only
      rw [k3 0 (by omega), k3 (n - 1) (by omega), hmet]
      exact hall j t0 ht0
  rw [actions_get M s.actions wraps e1, Option.some.injEq] at ht'
  generalize ht1 : (⟨(l[j]).default, ((l[j]).samples.map (sampleOf env s.actions)).set (n - 1) (sampleAt ((l[j]).samples.map (sampleOf env s.actions)) 0)⟩ :
    TransformTrack) = t1 at *
  have len1 : t1.samples.length = n := by rw [← ht1]; simp [g2]
  have eq1 : ∀ kind, Qvv.get (sampleAt t1.samples (n - 1)) kind = Qvv.get (sampleAt t1.samples 0) kind := by
    intro kind
    rw [← ht1]
    dsimp only
    rw [set_sample (by simp [g2]) _ (by omega), if_pos rfl, set_sample (by simp [g2]) _ (by omega), if_neg (by omega)]
  have ext : ∀ a b : Qvv, (∀ kind, Qvv.get a kind = Qvv.get b kind) → a = b := by
    rintro ⟨a1, a2, a3⟩ ⟨b1, b2, b3⟩ hk
    have k1 := hk .rotation
    have k2 := hk .translation
    have k3 := hk .scale
    simp only [Qvv.get] at k1 k2 k3
    rw [k1, k2, k3]
  have eq2 : (if s.actions.sanitizeConstant then constantTransform M j t1 else t1).samples.length = n ∧
      ∀ kind, Qvv.get (sampleAt (if s.actions.sanitizeConstant then constantTransform M j t1 else t1).samples (n - 1)) kind =
        Qvv.get (sampleAt (if s.actions.sanitizeConstant then constantTransform M j t1 else t1).samples 0) kind := by
    cases s.actions.sanitizeConstant with
    | false => exact ⟨len1, eq1⟩
    | true =>
      rw [if_pos rfl]
      obtain ⟨a, b⟩ := constantTransform_subs M j t1 (by omega)
      refine ⟨by rw [a, len1], fun kind => ?_⟩
      rcases b kind with b | b
      · rw [b _ (by omega), b _ (by omega)]; exact eq1 kind
      · rw [b _ (by omega), b _ (by omega)]
  generalize (if s.actions.sanitizeConstant then constantTransform M j t1 else t1) = t2 at *
  obtain ⟨len2, eq2⟩ := eq2
  refine ext _ _ fun kind => ?_
  rw [← ht']
  dsimp only
  cases s.actions.sanitizeDefault with
  | false => exact eq2 kind
  | true =>
    rw [if_pos rfl]
    obtain ⟨-, b⟩ := defaultTransform_subs M j t2
    rcases b kind with b | b
    · rw [b _ (by omega), b _ (by omega)]; exact eq2 kind
    · rw [b _ (by omega), b _ (by omega)]

/-- **C70.** Sanitizing misses no rotation: when the error of the first rotation in place of the one of every sample is within the precision, the rotations
are all the same afterwards; likewise for the default rotation, unless the first one was used. -/
theorem C70_misses_no_rotation (h : Ok s n l) (hs : s.lossy = true) {m : Metric C E σ} (hm : s.metric = some m) (ha : s.actions.optimizeLooping = false)
    {j : Nat} {t : TransformTrack} (ht : l[j]? = some t) :
    ∃ l' t', preProcess env s ⟨.transform l, wraps⟩ = (none, ⟨.transform l', wraps⟩) ∧ l'[j]? = some t' ∧
      (s.actions.sanitizeConstant = true →
        (∀ i, i < n → Fits (measureOf env s m l) j i (sampleOf env s.actions (sampleAt t.samples i))
          ((sampleOf env s.actions (sampleAt t.samples i)).set .rotation (rotationOf env s.actions (sampleAt t.samples 0).rotation))) →
        ∀ i, i < n → (sampleAt t'.samples i).rotation = (sampleAt t'.samples 0).rotation) ∧
      (s.actions.sanitizeDefault = true → s.actions.sanitizeConstant = false →
        (∀ i, i < n → Fits (measureOf env s m l) j i (sampleOf env s.actions (sampleAt t.samples i))
          ((sampleOf env s.actions (sampleAt t.samples i)).set .rotation t.default.rotation)) →
        ∀ i, i < n → (sampleAt t'.samples i).rotation = t.default.rotation) := by
  obtain ⟨g1, g2, g3⟩ := input_get (env := env) h s.actions ht
  have hn := h.samples
  generalize hMe : measureOf env s m l = M at *
  have e1 : (looped M s.actions wraps n (rotationActions env s.actions true l))[j]? = some ⟨t.default, t.samples.map (sampleOf env s.actions)⟩ := by
    unfold looped; rw [ha]; exact g1
  refine ⟨_, _, by rw [run_lossy h hs hm, hMe], actions_get M s.actions wraps e1, ?_, ?_⟩
  · intro hc hall
    rw [hc, if_pos rfl]
    have hlen : (t.samples.map (sampleOf env s.actions)).length = n := by simp [g2]
    have hk : ∀ i, i < n → Qvv.get (sampleAt (constantTransform M j ⟨t.default, t.samples.map (sampleOf env s.actions)⟩).samples i) .rotation =
        rotationOf env s.actions (sampleAt t.samples 0).rotation := by
      have hcon : areConstant M j (t.samples.map (sampleOf env s.actions)) (Qvv.get (sampleAt (t.samples.map (sampleOf env s.actions)) 0) .rotation) .rotation = true := by
        rw [areConstant_iff, hlen]
        intro i hi
        rw [g3 i hi, g3 0 hn]
        exact hall i hi
      have s1 := constantSub_step M j .rotation (t.samples.map (sampleOf env s.actions))
      have s2 := constantSub_step M j .translation (constantSub M j .rotation (t.samples.map (sampleOf env s.actions)))
      have s3 := constantSub_step M j .scale (constantSub M j .translation (constantSub M j .rotation (t.samples.map (sampleOf env s.actions))))
      have l1 := s1.length_eq
      have l2 := s2.length_eq
      intro i hi
      unfold constantTransform
      dsimp only
      rw [s3.other (by decide) (by omega), s2.other (by decide) (by omega)]
      unfold constantSub
      rw [if_pos hcon, replaceFrom_get (by omega), g3 0 hn]
      split
      · exact get_set _ _ _
      · have : i = 0 := by omega
        subst this
        rw [g3 0 hn]; rfl
    generalize hu : constantTransform M j ⟨t.default, t.samples.map (sampleOf env s.actions)⟩ = u at *
    have hulen : u.samples.length = n := by
      rw [← hu]
      obtain ⟨a, -⟩ := constantTransform_subs M j ⟨t.default, t.samples.map (sampleOf env s.actions)⟩ (by dsimp only; omega)
      rw [a]; exact hlen
    intro i hi
    dsimp only
    have k1 := hk i hi
    have k0 := hk 0 hn
    change Qvv.get _ .rotation = Qvv.get _ .rotation
    split
    · obtain ⟨-, b⟩ := defaultTransform_subs M j u
      rcases b .rotation with b | b
      · rw [b i (by omega), b 0 (by omega), k1, k0]
      · rw [b i (by omega), b 0 (by omega)]
    · rw [k1, k0]
  · intro hd hc hall i hi
    have hlen : (t.samples.map (sampleOf env s.actions)).length = n := by simp [g2]
    rw [hc, if_neg (by simp)]
    dsimp only
    rw [hd, if_pos rfl]
    have hcon : areConstant M j (t.samples.map (sampleOf env s.actions)) (Qvv.get t.default .rotation) .rotation = true := by
      rw [areConstant_iff, hlen]
      intro i hi
      rw [g3 i hi]
      exact hall i hi
    have s1 := defaultSub_step M j t.default .rotation (t.samples.map (sampleOf env s.actions))
    have s2 := defaultSub_step M j t.default .translation (defaultSub M j t.default .rotation (t.samples.map (sampleOf env s.actions)))
    have s3 := defaultSub_step M j t.default .scale (defaultSub M j t.default .translation (defaultSub M j t.default .rotation (t.samples.map (sampleOf env s.actions))))
    have l1 := s1.length_eq
    have l2 := s2.length_eq
    change Qvv.get _ .rotation = _
    unfold defaultTransform
    dsimp only
    rw [s3.other (by decide) (by omega), s2.other (by decide) (by omega)]
    unfold defaultSub
    rw [if_pos hcon, replaceFrom_get (by omega), if_pos (Nat.zero_le _)]
    exact get_set _ _ _

/-! ## The metrics of the library -/

theorem distance_triangle (a b c : Acl.Metric.V3) : Acl.Metric.distance a c ≤ Acl.Metric.distance a b + Acl.Metric.distance b c := by
  have e : a.sub c = (a.sub b).add (b.sub c) := by
    apply Acl.Metric.V3.ext' <;> simp [Acl.Metric.V3.sub, Acl.Metric.V3.add]
  unfold Acl.Metric.distance
  rw [e]
  exact Acl.Metric.V3.norm_add _ _

/-- The error of transforms with scale satisfies the laws, with or without an additive base, if the metric converts the raw and the lossy transforms alike. -/
theorem C70_library_laws (M : Measure Acl.Metric.Qvv ℝ (ℝ × ℝ)) (he : M.metric.error = fun sh a b => Acl.Metric.calculateError sh.1 a b)
    (hp : M.metric.precision = fun sh => sh.2) (h0 : ∀ j, 0 ≤ (M.shells j).2) (hc : ∀ i x, M.metric.convert i false x = M.metric.convert i true x) :
    Laws M ∧ (M.base = none → Plain M) := by
  have hprep : ∀ j i x, M.prepared j i false x = M.prepared j i true x := by
    intro j i x
    unfold Measure.prepared
    split <;> rw [hc]
  refine ⟨⟨?_, ?_, fun j => by rw [hp]; exact h0 j⟩, fun hb => ⟨hb, ?_, hc⟩⟩
  · intro j i x
    unfold Measure.distance
    rw [he, hprep]
    dsimp only
    unfold Acl.Metric.calculateError
    simp [Acl.Metric.distance_self]
  · intro j i x y z
    unfold Measure.distance
    rw [he, hprep j i x, hprep j i y]
    dsimp only
    unfold Acl.Metric.calculateError
    refine max_le (max_le ?_ ?_) ?_
    · exact le_trans (distance_triangle _ _ _) (add_le_add (le_trans (le_max_left _ _) (le_max_left _ _)) (le_trans (le_max_left _ _) (le_max_left _ _)))
    · exact le_trans (distance_triangle _ _ _) (add_le_add (le_trans (le_max_right _ _) (le_max_left _ _)) (le_trans (le_max_right _ _) (le_max_left _ _)))
    · exact le_trans (distance_triangle _ _ _) (add_le_add (le_max_right _ _) (le_max_right _ _))
  · intro sh a b
    rw [he]
    dsimp only
    unfold Acl.Metric.calculateError
    rw [Acl.Metric.distance_comm (Acl.Metric.mulPoint (Acl.Metric.shellX sh.1) a), Acl.Metric.distance_comm (Acl.Metric.mulPoint (Acl.Metric.shellY sh.1) a),
      Acl.Metric.distance_comm (Acl.Metric.mulPoint (Acl.Metric.shellZ sh.1) a)]

/-! ## Findings -/

/-- A metric on the X of translations -/
def exMetric (p : ℚ) : Metric ℚ ℚ Unit where
  convert := fun _ _ x => ofBits x.translation.x
  convertBase := fun _ x => ofBits x.translation.x
  additive := fun a b => a + b
  error := fun _ a b => |a - b|
  precision := fun _ => p

def exEnv : Env Unit where
  isNormalized := fun _ => true
  normalize := id
  shells := fun _ _ => ()
  baseKey := id

/-- A transform with the identity rotation and scale -/
def exQvv (x : BitVec 32) : Qvv := ⟨⟨0, 0, 0, 0x3F800000#32⟩, ⟨x, 0, 0, 0⟩, ⟨0x3F800000#32, 0x3F800000#32, 0x3F800000#32, 0⟩⟩

theorem ofBits_zero : ofBits 0 = 0 := by decide +kernel

/-- Finding: the looping test of an additive clip compares the first sample on the first sample of the base with the last one on the last: when the base does
not loop, the last sample is replaced although this moves it arbitrarily far. Here the clip goes from `v` to 0, on a base that goes from 0 to `v`, with a precision of
zero: the last sample becomes `v`, on top of `v`. -/
theorem C70_additive_loop_finding (v : BitVec 32) (s : Settings ℚ ℚ Unit) (hs : s.lossy = true) (hm : s.metric = some (exMetric 0)) (ha : s.additive = true)
    (hb : s.base = some [[exQvv 0, exQvv v]]) (hact : s.actions = ⟨false, false, true, false, false⟩) :
    preProcess exEnv s ⟨.transform [⟨exQvv 0, [exQvv v, exQvv 0]⟩], false⟩ = (none, ⟨.transform [⟨exQvv 0, [exQvv v, exQvv v]⟩], false⟩) ∧
    (measureOf exEnv s (exMetric 0) [⟨exQvv 0, [exQvv v, exQvv 0]⟩]).distance 0 1 (exQvv 0) (exQvv v) = |ofBits v| := by
  have hok : Ok s 2 [⟨exQvv 0, [exQvv v, exQvv 0]⟩] := ⟨by simp, by simp, by simp, fun _ => ⟨_, hb, by simp⟩⟩
  have hM : measureOf exEnv s (exMetric 0) [⟨exQvv 0, [exQvv v, exQvv 0]⟩] = ⟨exMetric 0, fun _ => (), id, some [[exQvv 0, exQvv v]]⟩ := by
    unfold measureOf
    rw [ha, hb]
    rfl
  constructor
  · rw [run_lossy hok hs hm, hM, rotationActions_eq, hact]
    have e : ∀ x, sampleOf exEnv ⟨false, false, true, false, false⟩ x = x := by
      intro x
      unfold sampleOf rotationOf
      simp
    unfold transformActions
    simp only [List.map_cons, List.map_nil, e, Bool.false_eq_true, if_false]
    rw [if_pos (by decide)]
    unfold loopTransform
    rw [if_pos ?_]
    · rfl
    · rw [isLooping_iff]
      intro j t ht
      have hj : j = 0 := by
        have := (List.getElem?_eq_some_iff.1 ht).1
        simpa using this
      subst hj
      simp only [List.getElem?_cons_zero, Option.some.injEq] at ht
      subst ht
      simp only [Measure.loopPrepared, Measure.baseLast, exMetric, sampleAt, exQvv, List.getD_cons_zero, List.length_cons, List.length_nil, List.getD_cons_succ,
        Nat.add_one_sub_one]
      rw [ofBits_zero, zero_add, add_zero, sub_self, abs_zero]
  · rw [hM]
    simp only [Measure.distance, Measure.prepared, exMetric, sampleAt, exQvv, List.getD_cons_zero, List.getD_cons_succ, id]
    rw [ofBits_zero]
    have : ofBits v + 0 - (ofBits v + ofBits v) = - ofBits v := by ring
    rw [this, abs_neg]

/-- Finding: the precision holds for one action on one sub-track, not for all of them together. The translations 0 and 1, with the default -1 and the precision 1,
both become -1: the second one moves by 2. -/
theorem C70_total_finding (s : Settings ℚ ℚ Unit) (hs : s.lossy = true) (hm : s.metric = some (exMetric 1)) (ha : s.additive = false)
    (hact : s.actions = ⟨true, false, true, true, true⟩) :
    preProcess exEnv s ⟨.transform [⟨exQvv 0xBF800000#32, [exQvv 0, exQvv 0x3F800000#32]⟩], false⟩ =
      (none, ⟨.transform [⟨exQvv 0xBF800000#32, [exQvv 0xBF800000#32, exQvv 0xBF800000#32]⟩], false⟩) ∧
    (measureOf exEnv s (exMetric 1) [⟨exQvv 0xBF800000#32, [exQvv 0, exQvv 0x3F800000#32]⟩]).distance 0 1 (exQvv 0x3F800000#32) (exQvv 0xBF800000#32) = 2 := by
  have hok : Ok s 2 [⟨exQvv 0xBF800000#32, [exQvv 0, exQvv 0x3F800000#32]⟩] := ⟨by simp, by simp, by simp, fun h => by rw [ha] at h; simp at h⟩
  have hM : measureOf exEnv s (exMetric 1) [⟨exQvv 0xBF800000#32, [exQvv 0, exQvv 0x3F800000#32]⟩] = ⟨exMetric 1, fun _ => (), id, none⟩ := by
    unfold measureOf
    rw [ha]
    rfl
  constructor
  · rw [run_lossy hok hs hm, hM, hact]
    have e : transformActions ⟨exMetric 1, fun _ => (), id, none⟩ ⟨true, false, true, true, true⟩ false 2
        (rotationActions exEnv ⟨true, false, true, true, true⟩ true [⟨exQvv 0xBF800000#32, [exQvv 0, exQvv 0x3F800000#32]⟩]) =
        [⟨exQvv 0xBF800000#32, [exQvv 0xBF800000#32, exQvv 0xBF800000#32]⟩] := by decide +kernel
    rw [e]
  · rw [hM]
    decide +kernel

/-! ### A case -/

def exSettings : Settings ℚ ℚ Unit where
  actions := ⟨true, true, true, true, true⟩
  lossy := true
  metric := some (exMetric 1)
  additive := false
  base := none

/-- A translation that varies and loops, and a constant one -/
def exTracks : List TransformTrack :=
  [⟨exQvv 0, [exQvv 0x40400000#32, exQvv 0, exQvv 0x40000000#32]⟩, ⟨exQvv 0, [exQvv 0x41200000#32, exQvv 0x41300000#32, exQvv 0x41200000#32]⟩]

example : Ok exSettings 3 exTracks := ⟨by decide +kernel, by decide, by decide +kernel, by decide⟩

example : Laws (measureOf exEnv exSettings (exMetric 1) exTracks) ∧ Plain (measureOf exEnv exSettings (exMetric 1) exTracks) := by
  refine ⟨⟨?_, ?_, ?_⟩, ⟨rfl, fun _ a b => abs_sub_comm a b, fun _ _ => rfl⟩⟩
  · intro j i x
    change |_ - _| ≤ (0 : ℚ)
    rw [abs_nonpos_iff, sub_eq_zero]
    rfl
  · intro j i x y z
    exact abs_sub_le _ _ _
  · intro j
    change (0 : ℚ) ≤ 1
    norm_num

example : preProcess exEnv exSettings ⟨.transform exTracks, false⟩ = (none, ⟨.transform
    [⟨exQvv 0, [exQvv 0x40400000#32, exQvv 0, exQvv 0x40400000#32]⟩, ⟨exQvv 0, [exQvv 0x41200000#32, exQvv 0x41200000#32, exQvv 0x41200000#32]⟩], false⟩) := by
  decide +kernel

/-- Without loss -/
example : Ok ({ exSettings with lossy := false, metric := none } : Settings ℚ ℚ Unit) 3 exTracks := ⟨by decide +kernel, by decide, by decide +kernel, by decide⟩

/-- An error -/
example : (preProcess exEnv ({ exSettings with metric := none } : Settings ℚ ℚ Unit) ⟨.transform exTracks, false⟩).1 = some .missingMetric := by decide +kernel

end Acl.C70
