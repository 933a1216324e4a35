import Verif.Settings.Tracks
import Verif.Props.C81
import Mathlib.Algebra.Order.Ring.Rat
import Mathlib.Algebra.Order.Group.Abs
/-!
C85: which track descriptions are accepted, and what has_trivial_default_values tells. Model: Verif/Settings/Tracks.lean.
Specification: `NotNegative`, `TrackOk`, `Claims`, `Neutral` below.
-/
namespace Acl.C85
open Acl.Settings Acl.F32

/-- Specification: a number that is not negative, neither infinite nor a NaN; -0 counts as 0. -/
def NotNegative (b : Bits32) : Prop := Finite32 b ∧ 0 ≤ ofBits b

/-- Specification: a description that is as it has to be. -/
def DescOk (normalized : List Bits32 → Bool) : Desc → Prop
  | .scalar d => NotNegative d.precision
  | .transform d => NotNegative d.precision ∧ NotNegative d.shellDistance ∧
      (∀ x ∈ d.rotation ++ d.translation ++ d.scale, Finite32 x) ∧ normalized d.rotation = true
  | .other => False

/-- Specification: what an error claims of a track. -/
def Claims (normalized : List Bits32 → Bool) (t : RawTrack) : TrackError → Prop
  | .tooManySamples => t.numSamples.toNat = 2 ^ 32 - 1
  | .sampleRate => ¬ (Finite32 t.sampleRate ∧ 0 < ofBits t.sampleRate)
  | .precision => (∃ d, t.desc = .scalar d ∧ ¬ NotNegative d.precision) ∨ ∃ d, t.desc = .transform d ∧ ¬ NotNegative d.precision
  | .shellDistance => ∃ d, t.desc = .transform d ∧ ¬ NotNegative d.shellDistance
  | .defaultNotFinite => ∃ d, t.desc = .transform d ∧ ∃ x ∈ d.rotation ++ d.translation ++ d.scale, ¬ Finite32 x
  | .defaultNotNormalized => ∃ d, t.desc = .transform d ∧ normalized d.rotation = false
  | .category => t.desc = .other

theorem negative_iff (b : Bits32) : (negative b || !isFinite b) = false ↔ NotNegative b := by
  unfold negative NotNegative
  rw [← C81.isFinite_iff]
  cases h : isFinite b <;> simp

theorem rate_iff (b : Bits32) : (notPositive b || !isFinite b) = false ↔ Finite32 b ∧ 0 < ofBits b := by
  unfold notPositive
  rw [← C81.isFinite_iff]
  cases h : isFinite b <;> simp

theorem negative_iff' (b : Bits32) : (negative b || !isFinite b) = true ↔ ¬ NotNegative b := by
  rw [← negative_iff, Bool.not_eq_false]

theorem all_iff (l : List Bits32) : (!l.all isFinite) = false ↔ ∀ x ∈ l, Finite32 x := by
  simp only [Bool.not_eq_false', List.all_eq_true, C81.isFinite_iff]

/-- A track with samples is accepted exactly when it has fewer than 2^32 - 1 of them, its rate is a positive number and its description is as
it has to be; one without samples in memory always is. -/
theorem C85_accepted (normalized : List Bits32 → Bool) (t : RawTrack) :
    t.isValid normalized = none ↔ (t.hasData = true →
      t.numSamples.toNat < 2 ^ 32 - 1 ∧ (Finite32 t.sampleRate ∧ 0 < ofBits t.sampleRate) ∧ DescOk normalized t.desc) := by
  unfold RawTrack.isValid
  cases hd : t.hasData
  · simp
  simp only [Bool.not_true, Bool.false_eq_true, if_false, true_imp_iff]
  by_cases hn : t.numSamples = 0xFFFFFFFF#32
  · simp [hn]
  have hn' : t.numSamples.toNat < 2 ^ 32 - 1 := by bv_omega
  simp only [hn, if_false, hn', true_and]
  rw [← rate_iff]
  cases hr : (notPositive t.sampleRate || !isFinite t.sampleRate)
  · simp only [Bool.false_eq_true, if_false, true_and]
    cases t.desc with
    | scalar d =>
      simp only [ScalarDesc.isValid, DescOk, ← negative_iff]
      cases (negative d.precision || !isFinite d.precision) <;> simp
    | transform d =>
      simp only [TransformDesc.isValid, DescOk, ← negative_iff, ← all_iff]
      cases (negative d.precision || !isFinite d.precision) <;> cases (negative d.shellDistance || !isFinite d.shellDistance) <;>
        cases (!(d.rotation ++ d.translation ++ d.scale).all isFinite) <;> cases normalized d.rotation <;> simp
    | other => simp [DescOk]
  · simp

/-- What the error says is the case. -/
theorem C85_error (normalized : List Bits32 → Bool) (t : RawTrack) (e : TrackError) (h : t.isValid normalized = some e) :
    Claims normalized t e := by
  unfold RawTrack.isValid at h
  split at h
  · cases h
  split at h
  · rename_i hn; cases h; simp [Claims, hn]
  split at h
  · rename_i hr; cases h
    unfold Claims
    rw [← rate_iff, Bool.not_eq_false]; exact hr
  split at h
  · rename_i d hd
    unfold ScalarDesc.isValid at h
    split at h
    · rename_i hp; cases h
      exact Or.inl ⟨d, hd, (negative_iff' _).mp hp⟩
    · cases h
  · rename_i d hd
    unfold TransformDesc.isValid at h
    split at h
    · rename_i hp; cases h
      exact Or.inr ⟨d, hd, (negative_iff' _).mp hp⟩
    split at h
    · rename_i hp; cases h
      exact ⟨d, hd, (negative_iff' _).mp hp⟩
    split at h
    · rename_i hp; cases h
      refine ⟨d, hd, ?_⟩
      by_contra hc
      push Not at hc
      rw [(all_iff _).mpr hc] at hp
      cases hp
    split at h
    · rename_i hp; cases h
      exact ⟨d, hd, by simpa using hp⟩
    · cases h
  · rename_i hd; cases h; exact hd

/-- Specification: the default rotation and translation of a track do nothing. -/
def Still {R : Type} (identity : R → Bool) (t : Transform R) : Prop := identity t.rotation = true ∧ t.translation = (0, 0, 0)

theorem nearEqual3_iff (a b : V3) : nearEqual3 a b = true ↔ a = b := by
  obtain ⟨a1, a2, a3⟩ := a
  obtain ⟨b1, b2, b3⟩ := b
  simp only [nearEqual3, Bool.and_eq_true, decide_eq_true_eq, abs_nonpos_iff, sub_eq_zero, Prod.mk.injEq, and_assoc]

theorem loop_spec {R : Type} (identity : R → Bool) : ∀ (tracks : List (Transform R)) (zero one : Bool),
    ((∃ t ∈ tracks, ¬ Still identity t) ∧ trivialLoop identity tracks zero one = none) ∨
      ((∀ t ∈ tracks, Still identity t) ∧ ∃ z o, trivialLoop identity tracks zero one = some (z, o) ∧
        (z = true ↔ zero = true ∧ ∀ t ∈ tracks, t.scale = (0, 0, 0)) ∧ (o = true ↔ one = true ∧ ∀ t ∈ tracks, t.scale = (1, 1, 1)))
  | [], zero, one => Or.inr ⟨by simp, zero, one, rfl, by simp, by simp⟩
  | t :: rest, zero, one => by
    unfold trivialLoop
    by_cases h1 : identity t.rotation = true
    · by_cases h2 : t.translation = (0, 0, 0)
      · have h2' := (nearEqual3_iff t.translation (0, 0, 0)).mpr h2
        simp only [h1, h2', Bool.not_true, Bool.false_eq_true, if_false]
        rcases loop_spec identity rest (if !nearEqual3 t.scale (0, 0, 0) then false else zero) (if !nearEqual3 t.scale (1, 1, 1) then false else one) with
          ⟨⟨x, hx, hn⟩, e⟩ | ⟨ha, z, o, e, hz, ho⟩
        · exact Or.inl ⟨⟨x, by simp [hx], hn⟩, e⟩
        · refine Or.inr ⟨?_, z, o, e, ?_, ?_⟩
          · intro x hx
            rcases List.mem_cons.mp hx with rfl | hx
            · exact ⟨h1, h2⟩
            · exact ha x hx
          · rw [hz]
            have := nearEqual3_iff t.scale (0, 0, 0)
            cases hq : nearEqual3 t.scale (0, 0, 0)
            · have hne : t.scale ≠ (0, 0, 0) := fun hc => by rw [this.mpr hc] at hq; cases hq
              simp [hne]
            · simp [this.mp hq]
          · rw [ho]
            have := nearEqual3_iff t.scale (1, 1, 1)
            cases hq : nearEqual3 t.scale (1, 1, 1)
            · have hne : t.scale ≠ (1, 1, 1) := fun hc => by rw [this.mpr hc] at hq; cases hq
              simp [hne]
            · simp [this.mp hq]
      · have h2' : nearEqual3 t.translation (0, 0, 0) = false := by
          rw [Bool.eq_false_iff]; exact fun hc => h2 ((nearEqual3_iff _ _).mp hc)
        refine Or.inl ⟨⟨t, by simp, fun hc => h2 hc.2⟩, ?_⟩
        simp [h1, h2']
    · refine Or.inl ⟨⟨t, by simp, fun hc => h1 hc.1⟩, ?_⟩
      simp [h1]

/-- For clips with scale that are not of the additive1 format, default values are called trivial exactly when all are the identity. -/
theorem C85_trivial {R : Type} (identity : R → Bool) (tracks : List (Transform R)) (format : Additive) (hf : format ≠ .additive1) :
    trivialDefaults identity tracks format true = true ↔ ∀ t ∈ tracks, Still identity t ∧ t.scale = (1, 1, 1) := by
  unfold trivialDefaults
  rcases loop_spec identity tracks true true with ⟨⟨x, hx, hn⟩, e⟩ | ⟨ha, z, o, e, hz, ho⟩
  · rw [e]
    simp only [Bool.false_eq_true, false_iff]
    exact fun hc => hn (hc x hx).1
  · rw [e]
    simp only [hf, false_and, if_false, if_true]
    simp only [true_and] at ho
    cases o
    · simp only [if_true, Bool.false_eq_true, false_iff]
      intro hc
      exact Bool.false_ne_true (ho.mpr fun t ht => (hc t ht).2)
    · simp only [Bool.true_eq_false, if_false, true_iff]
      exact fun t ht => ⟨ha t ht, ho.mp rfl t ht⟩

/-- Finding: for clips with scale of the additive1 format, where the neutral scale is zero, default values are never called trivial (unless there
is no track): the scales would have to be zero and one. -/
theorem C85_additive1 {R : Type} (identity : R → Bool) (tracks : List (Transform R)) :
    trivialDefaults identity tracks .additive1 true = true ↔ tracks = [] := by
  unfold trivialDefaults
  rcases loop_spec identity tracks true true with ⟨⟨x, hx, hn⟩, e⟩ | ⟨ha, z, o, e, hz, ho⟩
  · rw [e]
    simp only [Bool.false_eq_true, false_iff]
    rintro rfl; cases hx
  · rw [e]
    simp only [true_and, if_true] at hz ho ⊢
    cases tracks with
    | nil => simp only [hz.mpr (by simp), ho.mpr (by simp)]; simp
    | cons t rest =>
      have : ¬ (z = true ∧ o = true) := by
        rintro ⟨h1, h2⟩
        have a := hz.mp h1 t (by simp)
        have b := ho.mp h2 t (by simp)
        rw [a] at b
        simp at b
      cases z <;> cases o <;> simp_all

/-- For clips without scale the default scales are not looked at. -/
theorem C85_no_scale {R : Type} (identity : R → Bool) (tracks : List (Transform R)) (format : Additive) :
    trivialDefaults identity tracks format false = true ↔ ∀ t ∈ tracks, Still identity t := by
  unfold trivialDefaults
  rcases loop_spec identity tracks true true with ⟨⟨x, hx, hn⟩, e⟩ | ⟨ha, z, o, e, -, -⟩
  · rw [e]
    simp only [Bool.false_eq_true, false_iff]
    exact fun hc => hn (hc x hx)
  · rw [e]
    simp only [Bool.false_eq_true, if_false, true_iff]
    exact ha

theorem foldl_count {α : Type} (p : α → Bool) : ∀ (l : List α) (n : Nat), l.foldl (fun n t => n + if p t then 1 else 0) n = n + l.countP p
  | [], n => by simp
  | a :: l, n => by
    rw [List.foldl_cons, foldl_count p l, List.countP_cons]
    omega

/-- A clip has scale exactly when some transform has scales that are not all taken to be its default value. -/
theorem C85_has_scale {R : Type} (full : Bool) (near : V3 → List V3 → Bool) (tracks : List (Transform R)) :
    hasScale full near tracks = true ↔ ∃ t ∈ tracks, ¬ (scalesConstant full near t = true ∧ scalesDefault full near t = true) := by
  unfold hasScale
  rw [foldl_count (fun t => scalesConstant full near t && scalesDefault full near t), zero_add, bne_iff_ne, ne_eq, List.countP_eq_length]
  push Not
  simp

/-- Finding: when the scales of every track are its default value, whatever it is, and rotations and translations are trivial, the clip says
that its default values are trivial, though they are needed to decompress it. `near` takes samples that are all equal to the reference to be
constant, as C63 shows. -/
theorem C85_scale_lost {R : Type} (identity : R → Bool) (full : Bool) (near : V3 → List V3 → Bool) (hnear : ∀ r l, (∀ x ∈ l, x = r) → near r l = true)
    (tracks : List (Transform R)) (format : Additive) (hs : ∀ t ∈ tracks, Still identity t) (hd : ∀ t ∈ tracks, ∀ x ∈ t.scales, x = t.scale) :
    headerTrivial identity full near tracks format = true := by
  have : hasScale full near tracks = false := by
    rw [Bool.eq_false_iff, ne_eq, C85_has_scale]
    rintro ⟨t, ht, hn⟩
    apply hn
    have h := hd t ht
    cases hl : t.scales with
    | nil => simp [scalesConstant, scalesDefault, hl]
    | cons s rest =>
      rw [hl] at h
      have h0 : s = t.scale := h s (by simp)
      subst h0
      constructor
      · simp only [scalesConstant, hl]
        split
        · simp only [List.all_eq_true, decide_eq_true_eq]
          exact fun x hx => h x (by simp [hx])
        · exact hnear _ _ h
      · simp only [scalesDefault, hl]
        split
        · simp
        · exact hnear _ _ h
  unfold headerTrivial
  rw [this]
  exact (C85_no_scale identity tracks format).mpr hs

/-- A track with scale 2, its default value, is called trivial; one that is scaled to 1 with that default value is not, and one with default
scale 1 is whether it is scaled or not. Of descriptions: -0 is accepted for a precision, a NaN, infinities and negative numbers are not. -/
theorem C85_example :
    let near : V3 → List V3 → Bool := fun r l => l.all (fun x => x = r)
    let track (d : ℚ) (l : List ℚ) : Transform Bool := ⟨true, (0, 0, 0), (d, d, d), l.map fun x => (x, x, x)⟩
    headerTrivial id true near [track 2 [2, 2], track 3 [3]] .none = true ∧ headerTrivial id true near [track 2 [1, 1]] .none = false ∧
      headerTrivial id false near [track 1 [1, 5]] .relative = true ∧ headerTrivial id true near [track 1 [1, 1]] .none = true ∧
      headerTrivial id true near [track 0 [0, 5]] .additive1 = false ∧
      (ScalarDesc.mk 0x80000000#32).isValid = none ∧ (ScalarDesc.mk 0x7FC00000#32).isValid = some .precision ∧
      (ScalarDesc.mk 0x7F800000#32).isValid = some .precision ∧ (ScalarDesc.mk 0xBF800000#32).isValid = some .precision ∧
      (RawTrack.mk true 3 0x41F00000#32 (.transform ⟨0x3C23D70A#32, 0x40400000#32, [0, 0, 0, 0x3F800000#32], [0, 0, 0], [0, 0, 0]⟩)).isValid
        (fun _ => true) = none ∧
      (RawTrack.mk true 3 0 (.scalar ⟨0⟩)).isValid (fun _ => true) = some .sampleRate ∧
      (RawTrack.mk false 3 0 .other).isValid (fun _ => true) = none := by
  decide +kernel

end Acl.C85
