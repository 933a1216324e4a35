import Verif.Transform.ErrorMetricLemmas
/-
C68: additive clips: applying to a base what was made additive to that base gives back the transform, and the default values of an
additive clip leave the base as it is.

Numbers are exact (reals): rounding is not part of this property.
-/
namespace Acl.C68

open Acl.Metric

/-! ## Specification -/

/-- A rotation. -/
def Unit (q : Quat) : Prop := q.x ^ 2 + q.y ^ 2 + q.z ^ 2 + q.w ^ 2 = 1

/-- A base transform that can be undone. -/
def Invertible (t : Qvv) : Prop := Unit t.rotation ∧ t.scale.x ≠ 0 ∧ t.scale.y ≠ 0 ∧ t.scale.z ≠ 0

/-- The same scale along every axis. -/
def Uniform (t : Qvv) : Prop := t.scale.x = t.scale.y ∧ t.scale.y = t.scale.z

/-- How a transform is made additive to a base. -/
noncomputable def convertTo (format : Additive) (base transform : Qvv) : Qvv :=
  match format with
  | .none => transform
  | .relative => convertToRelative base transform
  | .additive0 => convertToAdditive0 base transform
  | .additive1 => convertToAdditive1 base transform

/-- The value a default sub-track decompresses to, given the default scale bit the compressor stored. -/
def defaultTransform (bit : ℕ) : Qvv := ⟨⟨0, 0, 0, 1⟩, ⟨0, 0, 0⟩, ⟨bit, bit, bit⟩⟩

theorem Qvv.ext' {a b : Qvv} (h1 : a.rotation = b.rotation) (h2 : a.translation = b.translation) (h3 : a.scale = b.scale) : a = b := by
  cases a; cases b; simp_all

theorem undo_right {q : Quat} (h : Unit q) (a : Quat) : quatMul (quatMul a (conjugate q)) q = a := by
  unfold Unit at h
  apply Quat.ext' <;> simp only [quatMul, conjugate]
  · linear_combination a.x * h
  · linear_combination a.y * h
  · linear_combination a.z * h
  · linear_combination a.w * h

theorem undo_left {q : Quat} (h : Unit q) (a : Quat) : quatMul (quatMul a q) (conjugate q) = a := by
  unfold Unit at h
  apply Quat.ext' <;> simp only [quatMul, conjugate]
  · linear_combination a.x * h
  · linear_combination a.y * h
  · linear_combination a.z * h
  · linear_combination a.w * h

theorem rotate_mul (v : V3) (a b : Quat) : rotate (rotate v a) b = rotate v (quatMul a b) := by
  apply V3.ext' <;> simp only [rotate, toVector, quatMul, conjugate, ofVector] <;> ring

theorem rotate_undo {q : Quat} (h : Unit q) (v : V3) : rotate (rotate v (conjugate q)) q = v := by
  rw [rotate_mul]
  have e : quatMul (conjugate q) q = ⟨0, 0, 0, 1⟩ := by
    unfold Unit at h
    apply Quat.ext' <;> simp only [quatMul, conjugate]
    · ring
    · ring
    · ring
    · linear_combination h
  rw [e]
  apply V3.ext' <;> simp only [rotate, toVector, quatMul, conjugate, ofVector] <;> ring

/-! ## There and back -/

/-- A transform made additive to a base, then applied to that base, is the transform: for both additive formats, and for the relative
format when the base has the same scale along every axis. -/
theorem C68_round_trip (format : Additive) {base : Qvv} (hb : Invertible base) (transform : Qvv) (hu : format = .relative → Uniform base) :
    applyAdditive format base (convertTo format base transform) = transform := by
  obtain ⟨hq, hx, hy, hz⟩ := hb
  cases format with
  | none => rfl
  | additive0 =>
    apply Qvv.ext'
    · exact undo_right hq _
    · apply V3.ext' <;> simp only [applyAdditive, convertTo, convertToAdditive0, transformAdd0, V3.add, V3.sub] <;> ring
    · apply V3.ext' <;> simp only [applyAdditive, convertTo, convertToAdditive0, transformAdd0, V3.div, V3.mul] <;> field_simp
  | additive1 =>
    apply Qvv.ext'
    · exact undo_right hq _
    · apply V3.ext' <;> simp only [applyAdditive, convertTo, convertToAdditive1, transformAdd1, V3.add, V3.sub] <;> ring
    · apply V3.ext' <;> simp only [applyAdditive, convertTo, convertToAdditive1, transformAdd1, V3.div, V3.mul, V3.add, V3.sub, one] <;>
        field_simp <;> ring
  | relative =>
    obtain ⟨h1, h2⟩ := hu rfl
    apply Qvv.ext'
    · exact undo_right hq _
    · show (rotate (V3.mul (V3.add (rotate (V3.mul transform.translation (one.div base.scale)) (conjugate base.rotation))
        (V3.sub ⟨0, 0, 0⟩ (rotate (base.translation.mul (one.div base.scale)) (conjugate base.rotation)))) base.scale) base.rotation).add
        base.translation = transform.translation
      have hs : ∀ v : V3, v.mul base.scale = v.scaled base.scale.x := by
        intro v
        apply V3.ext' <;> simp only [V3.mul, V3.scaled]
        · ring
        · rw [h1]; ring
        · rw [h1, h2]; ring
      have hd : ∀ v : V3, v.mul (one.div base.scale) = v.scaled (1 / base.scale.x) := by
        intro v
        apply V3.ext' <;> simp only [V3.mul, V3.scaled, V3.div, one]
        · ring
        · rw [h1]; ring
        · rw [h1, h2]; ring
      have hn : ∀ a b : V3, a.add (V3.sub ⟨0, 0, 0⟩ b) = a.sub b := by
        intro a b
        apply V3.ext' <;> simp only [V3.add, V3.sub] <;> ring
      rw [hs, hd, hd, hn, ← rotate_sub, rotate_scaled, rotate_undo hq]
      apply V3.ext' <;> simp only [V3.scaled, V3.sub, V3.add] <;> field_simp <;> ring
    · apply V3.ext' <;> simp only [applyAdditive, convertTo, convertToRelative, qvvMul, qvvInverse, V3.div, V3.mul, one] <;> field_simp

/-- And the other way around, for both additive formats: what is applied to a base is found again. -/
theorem C68_round_trip_back (format : Additive) {base : Qvv} (hb : Invertible base) (additive : Qvv) (hf : format ≠ .relative) :
    convertTo format base (applyAdditive format base additive) = additive := by
  obtain ⟨hq, hx, hy, hz⟩ := hb
  cases format with
  | none => rfl
  | relative => exact absurd rfl hf
  | additive0 =>
    apply Qvv.ext'
    · exact undo_left hq _
    · apply V3.ext' <;> simp only [applyAdditive, convertTo, convertToAdditive0, transformAdd0, V3.add, V3.sub] <;> ring
    · apply V3.ext' <;> simp only [applyAdditive, convertTo, convertToAdditive0, transformAdd0, V3.div, V3.mul] <;> field_simp
  | additive1 =>
    apply Qvv.ext'
    · exact undo_left hq _
    · apply V3.ext' <;> simp only [applyAdditive, convertTo, convertToAdditive1, transformAdd1, V3.add, V3.sub] <;> ring
    · apply V3.ext' <;> simp only [applyAdditive, convertTo, convertToAdditive1, transformAdd1, V3.div, V3.mul, V3.add, V3.sub, one] <;>
        field_simp <;> ring

/-! ## Default values -/

/-- Applying the default values of a compressed additive clip, with the scale its header announces, leaves any base as it is. -/
theorem C68_default (format : Additive) (hf : format ≠ .none) (base : Qvv) :
    applyAdditive format base (defaultTransform (defaultScaleBit format)) = base := by
  cases format with
  | none => exact absurd rfl hf
  | relative =>
    apply Qvv.ext'
    · apply Quat.ext' <;> simp [applyAdditive, qvvMul, quatMul, defaultTransform]
    · apply V3.ext' <;> simp [applyAdditive, qvvMul, defaultTransform, rotate, toVector, quatMul, conjugate, ofVector, V3.add, V3.mul]
    · apply V3.ext' <;> simp [applyAdditive, qvvMul, defaultTransform, V3.mul, defaultScaleBit]
  | additive0 =>
    apply Qvv.ext'
    · apply Quat.ext' <;> simp [applyAdditive, transformAdd0, quatMul, defaultTransform]
    · apply V3.ext' <;> simp [applyAdditive, transformAdd0, defaultTransform, V3.add]
    · apply V3.ext' <;> simp [applyAdditive, transformAdd0, defaultTransform, V3.mul, defaultScaleBit]
  | additive1 =>
    apply Qvv.ext'
    · apply Quat.ext' <;> simp [applyAdditive, transformAdd1, quatMul, defaultTransform]
    · apply V3.ext' <;> simp [applyAdditive, transformAdd1, defaultTransform, V3.add]
    · apply V3.ext' <;> simp [applyAdditive, transformAdd1, defaultTransform, V3.mul, V3.add, one, defaultScaleBit]

/-- The base itself, made additive to it, has the default values: such a clip compresses to default sub-tracks. -/
theorem C68_base_is_default (format : Additive) (hf : format ≠ .none) {base : Qvv} (hb : Invertible base) :
    convertTo format base base = defaultTransform (defaultScaleBit format) := by
  obtain ⟨hq, hx, hy, hz⟩ := hb
  have e : quatMul base.rotation (conjugate base.rotation) = ⟨0, 0, 0, 1⟩ := by
    unfold Unit at hq
    apply Quat.ext' <;> simp only [quatMul, conjugate]
    · ring
    · ring
    · ring
    · linear_combination hq
  cases format with
  | none => exact absurd rfl hf
  | relative =>
    apply Qvv.ext'
    · exact e
    · apply V3.ext' <;> simp [convertTo, convertToRelative, qvvMul, qvvInverse, defaultTransform, V3.add, V3.sub]
    · apply V3.ext' <;> simp [convertTo, convertToRelative, qvvMul, qvvInverse, defaultTransform, V3.mul, V3.div, one, defaultScaleBit, hx, hy, hz]
  | additive0 =>
    apply Qvv.ext'
    · exact e
    · apply V3.ext' <;> simp [convertTo, convertToAdditive0, defaultTransform, V3.sub]
    · apply V3.ext' <;> simp [convertTo, convertToAdditive0, defaultTransform, V3.div, defaultScaleBit, hx, hy, hz]
  | additive1 =>
    apply Qvv.ext'
    · exact e
    · apply V3.ext' <;> simp [convertTo, convertToAdditive1, defaultTransform, V3.sub]
    · apply V3.ext' <;> simp [convertTo, convertToAdditive1, defaultTransform, V3.div, V3.sub, one, defaultScaleBit, hx, hy, hz]

/-! ## Clips without scale -/

/-- For clips without scale nothing is lost by the functions that skip it: where the base has scale one and the additive clip its
default scale, both give the same transform. -/
theorem C68_no_scale (format : Additive) {base additive : Qvv} (hb : base.scale = ⟨1, 1, 1⟩)
    (ha : additive.scale = ⟨defaultScaleBit format, defaultScaleBit format, defaultScaleBit format⟩) :
    applyAdditiveNoScale format base additive = applyAdditive format base additive := by
  cases format with
  | none => rfl
  | relative =>
    apply Qvv.ext'
    · rfl
    · apply V3.ext' <;> simp [applyAdditive, applyAdditiveNoScale, qvvMul, qvvMulNoScale, V3.mul, hb]
    · apply V3.ext' <;> simp [applyAdditive, applyAdditiveNoScale, qvvMul, qvvMulNoScale, V3.mul, hb, ha, defaultScaleBit, one]
  | additive0 =>
    refine Qvv.ext' rfl rfl ?_
    apply V3.ext' <;> simp [applyAdditive, applyAdditiveNoScale, transformAdd0, transformAddNoScale, V3.mul, hb, ha, defaultScaleBit, one]
  | additive1 =>
    refine Qvv.ext' rfl rfl ?_
    apply V3.ext' <;> simp [applyAdditive, applyAdditiveNoScale, transformAdd1, transformAddNoScale, V3.mul, V3.add, hb, ha, defaultScaleBit, one]

/-! ## What applying an additive clip does to an error -/

/-- The error an additive clip has in its translation is the error of the translation it is applied to, for both additive formats. -/
theorem C68_translation_error (format : Additive) (hf : format = .additive0 ∨ format = .additive1) (base raw lossy : Qvv) :
    distance (applyAdditive format base raw).translation (applyAdditive format base lossy).translation
      = distance raw.translation lossy.translation := by
  rcases hf with h | h <;> subst h <;> simp [applyAdditive, transformAdd0, transformAdd1, distance, V3.sub, V3.add, V3.norm, V3.normSq]

/-! ## Examples -/

noncomputable def exBase : Qvv := ⟨⟨2/3, 2/3, 0, 1/3⟩, ⟨1, 2, 3⟩, ⟨2, 2, 2⟩⟩

example : Invertible exBase ∧ Uniform exBase := by
  refine ⟨⟨by norm_num [Unit, exBase], by norm_num [exBase], by norm_num [exBase], by norm_num [exBase]⟩, by norm_num [Uniform, exBase]⟩

example : Invertible ⟨⟨0, 3/5, 0, 4/5⟩, ⟨0, 0, 0⟩, ⟨1, -2, 3⟩⟩ := by
  refine ⟨by norm_num [Unit], by norm_num, by norm_num, by norm_num⟩

example : (convertTo .additive1 exBase ⟨⟨0, 0, 0, 1⟩, ⟨0, 0, 0⟩, ⟨3, 3, 3⟩⟩).scale = ⟨1/2, 1/2, 1/2⟩ := by
  apply V3.ext' <;> norm_num [convertTo, convertToAdditive1, exBase, V3.sub, V3.div, one]

end Acl.C68
