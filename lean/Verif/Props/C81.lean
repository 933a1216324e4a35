import Verif.Settings.Model
import Verif.Props.C06
import Mathlib.Tactic.Linarith
import Mathlib.Tactic.NormNum
/-!
C81: which compression settings are accepted, what a refusal says, and what the hash of settings tells apart.
Model: Verif/Settings/Model.lean. Specification: `InUnit`, `StrippingOn`, `ChunkOk`, `About`, `OneChange` below.
-/
namespace Acl.C81
open Acl.Settings Acl.F32

/-- Specification: a number from 0 to 1, neither infinite nor a NaN. -/
def InUnit (b : Bits32) : Prop := Finite32 b ∧ 0 ≤ ofBits b ∧ ofBits b ≤ 1

/-- Specification: a positive multiple of 4 KB. -/
def ChunkOk (size : Nat) : Prop := ∃ k, 0 < k ∧ size = 4096 * k

/-- Specification: at least one way to strip keyframes is asked for. -/
def StrippingOn (s : Stripping) : Prop := 0 < ofBits s.proportion ∨ 0 < ofBits s.threshold ∨ s.stripTrivial = true

theorem isFinite_iff (b : Bits32) : isFinite b = true ↔ Finite32 b := by simp [isFinite, Finite32]

theorem align_iff (v : BitVec 32) : alignTo4k v = v ∧ 4096 ≤ v.toNat ↔ ChunkOk v.toNat := by
  have key : (alignTo4k v).toNat = (v.toNat + 4095) % 2 ^ 32 / 4096 * 4096 := by
    have hm : (~~~4095#32 : BitVec 32) = (BitVec.allOnes 20).zeroExtend 32 <<< 12 := by decide
    have : ∀ w : BitVec 32, w &&& ~~~4095#32 = (w >>> 12) <<< 12 := by
      intro w
      apply BitVec.eq_of_getLsbD_eq
      intro i hi
      have h4 : (4095#32).getLsbD i = decide (i < 12) := by
        revert i; decide
      simp only [BitVec.getLsbD_and, BitVec.getLsbD_not, h4, hi, decide_true, Bool.true_and, BitVec.getLsbD_shiftLeft,
        BitVec.getLsbD_ushiftRight]
      by_cases h : i < 12
      · simp [h]
      · have : 12 + (i - 12) = i := by omega
        simp [h, this]
    have hlt : ((v + 4095#32) >>> 12).toNat < 2 ^ 20 := by
      rw [BitVec.toNat_ushiftRight, Nat.shiftRight_eq_div_pow]
      have := (v + 4095#32).isLt
      omega
    unfold alignTo4k
    rw [this, BitVec.toNat_shiftLeft, BitVec.toNat_ushiftRight, Nat.shiftRight_eq_div_pow, Nat.shiftLeft_eq, BitVec.toNat_add]
    rw [BitVec.toNat_ushiftRight, Nat.shiftRight_eq_div_pow, BitVec.toNat_add] at hlt
    rw [Nat.mod_eq_of_lt (by omega)]
    rfl
  rw [← BitVec.toNat_inj, key]
  have := v.isLt
  constructor
  · rintro ⟨h, h4⟩
    exact ⟨v.toNat / 4096, by omega, by omega⟩
  · rintro ⟨k, hk, e⟩
    rw [e] at this ⊢
    omega

theorem range_iff (b : Bits32) :
    (!isFinite b || decide (ofBits b < 0) || decide (1 < ofBits b)) = false ↔ InUnit b := by
  simp only [Bool.or_eq_false_iff, Bool.not_eq_false', decide_eq_false_iff_not, isFinite_iff, InUnit, not_lt, and_assoc]

/-- Database settings are accepted exactly when the chunk size is a positive multiple of 4 KB, both proportions are from 0 to 1
and their sum, as a float, is from 1e-5 to 1 + 1e-5. -/
theorem C81_database_accepted (d : Database) :
    d.isValid = none ↔ ChunkOk d.maxChunkSize.toNat ∧ InUnit d.medium ∧ InUnit d.low ∧
      rnd (1 / 100000) ≤ rnd (ofBits d.low + ofBits d.medium) ∧ rnd (ofBits d.low + ofBits d.medium) ≤ rnd (1 + rnd (1 / 100000)) := by
  rw [← align_iff, ← range_iff, ← range_iff]
  unfold Database.isValid epsilon fadd
  split
  · rename_i h
    simp; intro _ h2; omega
  rename_i h
  split
  · rename_i h2
    simp only [bne_iff_ne, ne_eq] at h2
    simp [h2]
  rename_i h2
  simp only [bne_iff_ne, ne_eq, not_not] at h2
  split
  · rename_i h3
    rw [h3]; simp
  rename_i h3
  split
  · rename_i h4
    rw [h4]; simp
  rename_i h4
  simp only [Bool.not_eq_true] at h3 h4
  split
  · rename_i h5
    simp only [reduceCtorEq, false_iff, not_and, not_le]
    intro _ _ _ h6
    rcases h5 with h5 | h5
    · linarith
    · exact h5
  · rename_i h5
    rw [not_or, not_lt, not_lt] at h5
    simp only [true_iff]
    exact ⟨⟨h2, by omega⟩, h3, h4, h5.1, h5.2⟩

/-- In exact arithmetic: proportions whose sum is from 1.00001e-5 to 1 are accepted, and the sum of accepted ones is from 0.99999e-5
to 1.00002. -/
theorem C81_database_sum (d : Database) (hc : ChunkOk d.maxChunkSize.toNat) (hm : InUnit d.medium) (hl : InUnit d.low) :
    (1.00001 / 100000 ≤ ofBits d.low + ofBits d.medium → ofBits d.low + ofBits d.medium ≤ 1 → d.isValid = none) ∧
      (d.isValid = none → 0.99999 / 100000 ≤ ofBits d.low + ofBits d.medium ∧ ofBits d.low + ofBits d.medium ≤ 1.00002) := by
  have e : rnd (1 / 100000) ≤ 1.000001 / 100000 ∧ 0.999999 / 100000 ≤ rnd (1 / 100000) := by
    have h := rnd_err (1 / 100000)
    have : pow2 (-24) * |(1 / 100000 : ℚ)| + pow2 (-150) ≤ 1 / 10 ^ 12 := by decide +kernel
    have h := abs_le.mp (h.trans this)
    constructor <;> norm_num at h ⊢ <;> linarith [h.1, h.2]
  have h1 : rnd 1 = 1 := by simpa using rnd_nat (n := 1) (by decide)
  have h0 : 0 ≤ ofBits d.low + ofBits d.medium := add_nonneg hl.2.1 hm.2.1
  have hs := rnd_err (ofBits d.low + ofBits d.medium)
  rw [abs_of_nonneg h0] at hs
  have p24 : pow2 (-24) = 1 / 16777216 := by decide +kernel
  have p150 : pow2 (-150) ≤ 1 / 10 ^ 20 := by decide +kernel
  rw [p24] at hs
  have hs := abs_le.mp hs
  rw [C81_database_accepted]
  constructor
  · intro ha hb
    refine ⟨hc, hm, hl, ?_, ?_⟩
    · norm_num at ha p150 ⊢
      linarith [e.1, hs.1]
    · calc rnd (ofBits d.low + ofBits d.medium) ≤ rnd 1 := rnd_mono hb
        _ ≤ rnd (1 + rnd (1 / 100000)) := rnd_mono (by
            have := e.2
            norm_num at this ⊢
            linarith)
  · rintro ⟨-, -, -, ha, hb⟩
    have h2 := rnd_err (1 + rnd (1 / 100000))
    have hpos : (0 : ℚ) ≤ 1 + rnd (1 / 100000) := by
      have := e.2
      norm_num at this ⊢
      linarith
    rw [abs_of_nonneg hpos, p24] at h2
    have h2 := abs_le.mp h2
    norm_num at p150 ⊢
    constructor
    · by_contra hlt
      rw [not_le] at hlt
      linarith [e.2, hs.2]
    · by_contra hlt
      rw [not_le] at hlt
      linarith [e.1, hs.1, h2.2]

/-- Finding: the sum of the proportions must be at least 1e-5, whatever the message says ("must be in the range [0.0, 1.0]"): settings that
leave both tiers empty are refused. -/
theorem C81_empty_tiers_refused (size : BitVec 32) (h : ChunkOk size.toNat) : (Database.mk 0 0 size).isValid = some .sumRange := by
  have := (align_iff size).mpr h
  unfold Database.isValid
  simp only []
  have z : (!isFinite 0 || decide (ofBits 0 < 0) || decide (1 < ofBits 0)) = false := by decide +kernel
  have z' : fadd (ofBits 0) (ofBits 0) < epsilon ∨ fadd 1 epsilon < fadd (ofBits 0) (ofBits 0) := by decide +kernel
  rw [if_neg (by omega), if_neg (by simp [this.1]), z, if_neg (by simp), if_neg (by simp), if_pos z']

theorem positive_iff (b : Bits32) (h : Finite32 b) : positive b = true ↔ 0 < ofBits b := by
  unfold positive
  rw [if_pos ((isFinite_iff b).mpr h)]
  simp

/-- Settings are accepted exactly when an error metric is set, the proportion to strip is from 0 to 1, the threshold is a number that
is not negative, and keyframe stripping and database support are not both asked for. -/
theorem C81_accepted (s : Settings) :
    s.isValid = none ↔ s.errorMetric ≠ none ∧ InUnit s.stripping.proportion ∧
      (Finite32 s.stripping.threshold ∧ 0 ≤ ofBits s.stripping.threshold) ∧ ¬ (s.enableDatabase = true ∧ StrippingOn s.stripping) := by
  unfold Settings.isValid Stripping.isValid
  rw [← range_iff]
  split
  · rename_i h
    rw [Option.isNone_iff_eq_none] at h
    simp [h]
  rename_i h
  rw [Option.isNone_iff_eq_none] at h
  by_cases h1 : (!isFinite s.stripping.proportion || decide (ofBits s.stripping.proportion < 0) ||
      decide (1 < ofBits s.stripping.proportion)) = true
  · simp only [h1, if_true]
    simp
  · rw [if_neg h1]
    rw [Bool.not_eq_true] at h1
    have hp := ((range_iff _).mp h1).1
    rw [h1]
    by_cases h2 : (!isFinite s.stripping.threshold || decide (ofBits s.stripping.threshold < 0)) = true
    · rw [if_pos h2]
      simp only [reduceCtorEq, false_iff]
      rintro ⟨-, -, ⟨hf, h0⟩, -⟩
      simp only [Bool.or_eq_true, Bool.not_eq_true', decide_eq_true_eq] at h2
      rcases h2 with h2 | h2
      · rw [(isFinite_iff _).mpr hf] at h2; cases h2
      · linarith
    · rw [if_neg h2]
      simp only [Bool.or_eq_true, Bool.not_eq_true', decide_eq_true_eq, not_or, Bool.not_eq_false, not_lt, isFinite_iff] at h2
      have hen : s.stripping.isEnabled = true ↔ StrippingOn s.stripping := by
        simp only [Stripping.isEnabled, Bool.or_eq_true, positive_iff _ hp, positive_iff _ h2.1, StrippingOn, or_assoc]
      simp only [h, h2, not_false_eq_true, ne_eq, and_self, true_and]
      by_cases h3 : (s.stripping.isEnabled && s.enableDatabase) = true
      · simp only [h3, if_true, reduceCtorEq, false_iff, not_not]
        simp only [Bool.and_eq_true] at h3
        exact ⟨h3.2, hen.mp h3.1⟩
      · simp only [h3, if_false, Bool.false_eq_true, true_iff]
        simp only [Bool.and_eq_true] at h3
        exact fun hh => h3 ⟨hen.mpr hh.2, hh.1⟩

/-- Specification: what a refusal of settings says. -/
def About (s : Settings) : Error → Prop
  | .noErrorMetric => s.errorMetric = none
  | .proportionRange => ¬ InUnit s.stripping.proportion
  | .thresholdRange => ¬ (Finite32 s.stripping.threshold ∧ 0 ≤ ofBits s.stripping.threshold)
  | .strippingWithDatabase => s.enableDatabase = true ∧ StrippingOn s.stripping
  | _ => False

/-- Specification: what a refusal of database settings says. -/
def AboutDatabase (d : Database) : Error → Prop
  | .chunkTooSmall => d.maxChunkSize.toNat < 4096
  | .chunkNotMultiple => ¬ 4096 ∣ d.maxChunkSize.toNat
  | .mediumRange => ¬ InUnit d.medium
  | .lowRange => ¬ InUnit d.low
  | .sumRange => rnd (ofBits d.low + ofBits d.medium) < rnd (1 / 100000) ∨ rnd (1 + rnd (1 / 100000)) < rnd (ofBits d.low + ofBits d.medium)
  | _ => False

/-- A refusal names something that is wrong with the settings. -/
theorem C81_refusal_true (s : Settings) (e : Error) (h : s.isValid = some e) : About s e := by
  unfold Settings.isValid Stripping.isValid at h
  split at h
  · rename_i hn
    cases h
    exact Option.isNone_iff_eq_none.mp hn
  by_cases h1 : (!isFinite s.stripping.proportion || decide (ofBits s.stripping.proportion < 0) ||
      decide (1 < ofBits s.stripping.proportion)) = true
  · simp only [h1, if_true, Option.some.injEq] at h
    subst h
    intro hu
    rw [(range_iff _).mpr hu] at h1; cases h1
  · rw [if_neg h1] at h
    rw [Bool.not_eq_true] at h1
    have hp := ((range_iff _).mp h1).1
    by_cases h2 : (!isFinite s.stripping.threshold || decide (ofBits s.stripping.threshold < 0)) = true
    · simp only [h2, if_true, Option.some.injEq] at h
      subst h
      rintro ⟨hf, h0⟩
      simp only [Bool.or_eq_true, Bool.not_eq_true', decide_eq_true_eq] at h2
      rcases h2 with h2 | h2
      · rw [(isFinite_iff _).mpr hf] at h2; cases h2
      · linarith
    · rw [if_neg h2] at h
      simp only [Bool.or_eq_true, Bool.not_eq_true', decide_eq_true_eq, not_or, Bool.not_eq_false, not_lt, isFinite_iff] at h2
      by_cases h3 : (s.stripping.isEnabled && s.enableDatabase) = true
      · simp only [h3, if_true, Option.some.injEq] at h
        subst h
        simp only [Bool.and_eq_true, Stripping.isEnabled, Bool.or_eq_true, positive_iff _ hp, positive_iff _ h2.1, or_assoc] at h3
        exact ⟨h3.2, h3.1⟩
      · simp [h3] at h

/-- A refusal names something that is wrong with the database settings. -/
theorem C81_database_refusal_true (d : Database) (e : Error) (h : d.isValid = some e) : AboutDatabase d e := by
  unfold Database.isValid at h
  split at h
  · rename_i h1
    cases h
    exact h1
  rename_i h1
  split at h
  · rename_i h2
    cases h
    rintro ⟨k, hk⟩
    simp only [bne_iff_ne, ne_eq] at h2
    exact h2 ((align_iff _).mpr ⟨k, by omega, hk⟩).1
  split at h
  · rename_i h3
    cases h
    intro hu
    rw [(range_iff _).mpr hu] at h3; cases h3
  split at h
  · rename_i h3
    cases h
    intro hu
    rw [(range_iff _).mpr hu] at h3; cases h3
  split at h
  · rename_i h5
    cases h
    exact h5
  · cases h

/-- The settings of get_default_compression_settings and get_raw_compression_settings only miss an error metric, and the default
database settings are accepted. Finding: with database support turned on the default settings are refused, since they strip trivial
keyframes; the raw ones are not. -/
theorem C81_presets (metric : BitVec 32) :
    Settings.default.isValid = some .noErrorMetric ∧ Settings.raw.isValid = some .noErrorMetric ∧
      { Settings.default with errorMetric := some metric }.isValid = none ∧ { Settings.raw with errorMetric := some metric }.isValid = none ∧
      { Settings.default with errorMetric := some metric, enableDatabase := true }.isValid = some .strippingWithDatabase ∧
      { Settings.raw with errorMetric := some metric, enableDatabase := true }.isValid = none ∧
      defaultDatabase.isValid = none := by
  have hz : (Stripping.mk 0 0 true).isValid = none ∧ (Stripping.mk 0 0 false).isValid = none ∧ (Stripping.mk 0 0 true).isEnabled = true ∧
      (Stripping.mk 0 0 false).isEnabled = false := by decide +kernel
  refine ⟨rfl, rfl, ?_, ?_, ?_, ?_, by decide +kernel⟩ <;>
    simp only [Settings.isValid, Settings.default, Settings.raw, hz.1, hz.2.1, hz.2.2.1, hz.2.2.2, Option.isNone_some, Bool.false_eq_true,
      if_false, Bool.and_false, Bool.and_true, if_true]

/-- Specification: `b > 0` for every pattern: a positive number or +infinity, not a NaN. -/
def AboveZero (b : Bits32) : Prop := Finite32 b ∧ 0 < ofBits b ∨ b = 0x7F800000#32

/-- Stripping is enabled exactly when one way to strip keyframes is asked for, for every pattern of the floats. -/
theorem C81_enabled (s : Stripping) : s.isEnabled = true ↔ AboveZero s.proportion ∨ AboveZero s.threshold ∨ s.stripTrivial = true := by
  have key : ∀ b, positive b = true ↔ AboveZero b := by
    intro b
    unfold AboveZero
    by_cases h : Finite32 b
    · rw [positive_iff b h]
      have : b ≠ 0x7F800000#32 := by rintro rfl; rw [← isFinite_iff] at h; exact absurd h (by decide)
      simp [h, this]
    · unfold positive
      rw [if_neg (by rw [isFinite_iff]; exact h)]
      simp [h]
  simp only [Stripping.isEnabled, Bool.or_eq_true, key, or_assoc]

/-- Specification: one 32 bit field with one of its bytes changed. -/
def OneByte (a b : BitVec 32) : Prop :=
  ∃ pre x y post, x ≠ y ∧ bytes32 a = pre ++ x :: post ∧ bytes32 b = pre ++ y :: post

/-- Specification: settings that differ in exactly one field (of the floats, in one byte). -/
inductive OneChange : Settings → Settings → Prop
  | level (s : Settings) (x : Level) : x ≠ s.level → OneChange s { s with level := x }
  | rotation (s : Settings) (x : RotationFormat) : x ≠ s.rotation → OneChange s { s with rotation := x }
  | translation (s : Settings) (x : VectorFormat) : x ≠ s.translation → OneChange s { s with translation := x }
  | scale (s : Settings) (x : VectorFormat) : x ≠ s.scale → OneChange s { s with scale := x }
  | metric (s : Settings) (x y : BitVec 32) : s.errorMetric = some x → x ≠ y → OneChange s { s with errorMetric := some y }
  | database (s : Settings) : OneChange s { s with enableDatabase := !s.enableDatabase }
  | loops (s : Settings) : OneChange s { s with optimizeLoops := !s.optimizeLoops }
  | proportion (s : Settings) (x : Bits32) : OneByte s.stripping.proportion x → OneChange s { s with stripping := { s.stripping with proportion := x } }
  | threshold (s : Settings) (x : Bits32) : OneByte s.stripping.threshold x → OneChange s { s with stripping := { s.stripping with threshold := x } }
  | trivial (s : Settings) : OneChange s { s with stripping := { s.stripping with stripTrivial := !s.stripping.stripTrivial } }
  | listName (s : Settings) : OneChange s { s with metadata := { s.metadata with trackListName := !s.metadata.trackListName } }
  | names (s : Settings) : OneChange s { s with metadata := { s.metadata with trackNames := !s.metadata.trackNames } }
  | parents (s : Settings) : OneChange s { s with metadata := { s.metadata with parentTrackIndices := !s.metadata.parentTrackIndices } }
  | descriptions (s : Settings) : OneChange s { s with metadata := { s.metadata with trackDescriptions := !s.metadata.trackDescriptions } }
  | error (s : Settings) : OneChange s { s with metadata := { s.metadata with contributingError := !s.metadata.contributingError } }

theorem combine_left {a b c : BitVec 32} : hashCombine32 a c = hashCombine32 b c ↔ a = b :=
  ⟨fun h => C06.xor_inj _ _ _ (C06.mul_inj 16777619#32 899433627#32 (by decide) _ _ h), fun h => by rw [h]⟩

theorem combine_right {a b c : BitVec 32} : hashCombine32 a b = hashCombine32 a c ↔ b = c :=
  ⟨C06.C06_hash_combine_injective a b c, fun h => by rw [h]⟩

theorem byte_inj {x y : BitVec 8} : hash32 [x] = hash32 [y] ↔ x = y := by
  constructor
  · intro h
    by_contra hne
    exact C06.C06_single_byte_detected_32 [] [] x y hne h
  · intro h; rw [h]

theorem bool_inj {x y : Bool} : boolByte x = boolByte y ↔ x = y := by cases x <;> cases y <;> decide

theorem level_inj {x y : Level} : x.byte = y.byte ↔ x = y := by cases x <;> cases y <;> decide
theorem rotation_inj {x y : RotationFormat} : x.byte = y.byte ↔ x = y := by cases x <;> cases y <;> decide
theorem vector_inj {x y : VectorFormat} : x.byte = y.byte ↔ x = y := by cases x <;> cases y <;> decide

theorem bool_inj32 {x y : Bool} : (boolByte x).setWidth 32 = (boolByte y).setWidth 32 ↔ x = y := by cases x <;> cases y <;> decide

theorem oneByte_ne {a b : BitVec 32} (h : OneByte a b) : hash32 (bytes32 a) ≠ hash32 (bytes32 b) := by
  obtain ⟨pre, x, y, post, hne, e1, e2⟩ := h
  rw [e1, e2]
  exact C06.C06_single_byte_detected_32 pre post x y hne

/-- Settings that differ in one field have different hashes (of the two floats, in one byte of it). -/
theorem C81_hash_separates (s t : Settings) (h : OneChange s t) : s.hash ≠ t.hash := by
  cases h with
  | level x hx => cases hm : s.errorMetric <;> (simp only [Settings.hash, hm, ne_eq, combine_left, combine_right, byte_inj, level_inj]; exact hx.symm)
  | rotation x hx => cases hm : s.errorMetric <;> (simp only [Settings.hash, hm, ne_eq, combine_left, combine_right, byte_inj, rotation_inj]; exact hx.symm)
  | translation x hx => cases hm : s.errorMetric <;> (simp only [Settings.hash, hm, ne_eq, combine_left, combine_right, byte_inj, vector_inj]; exact hx.symm)
  | scale x hx => cases hm : s.errorMetric <;> (simp only [Settings.hash, hm, ne_eq, combine_left, combine_right, byte_inj, vector_inj]; exact hx.symm)
  | metric x y hx hne => simp only [Settings.hash, hx, ne_eq, combine_left, combine_right]; exact hne
  | database => simp only [Settings.hash, ne_eq, combine_left, combine_right, bool_inj32]; simp
  | loops => simp only [Settings.hash, ne_eq, combine_left, combine_right, bool_inj32]; simp
  | proportion x hx => simp only [Settings.hash, Stripping.hash, ne_eq, combine_left, combine_right]; exact oneByte_ne hx
  | threshold x hx => simp only [Settings.hash, Stripping.hash, ne_eq, combine_left, combine_right]; exact oneByte_ne hx
  | trivial => simp only [Settings.hash, Stripping.hash, ne_eq, combine_left, combine_right, byte_inj, bool_inj]; simp
  | listName => simp only [Settings.hash, Metadata.hash, ne_eq, combine_left, combine_right, byte_inj, bool_inj]; simp
  | names => simp only [Settings.hash, Metadata.hash, ne_eq, combine_left, combine_right, byte_inj, bool_inj]; simp
  | parents => simp only [Settings.hash, Metadata.hash, ne_eq, combine_left, combine_right, byte_inj, bool_inj]; simp
  | descriptions => simp only [Settings.hash, Metadata.hash, ne_eq, combine_left, combine_right, byte_inj, bool_inj]; simp
  | error => simp only [Settings.hash, Metadata.hash, ne_eq, combine_left, combine_right, byte_inj, bool_inj]; simp

/-- Specification: database settings that differ in one byte of one field. -/
inductive OneChangeDatabase : Database → Database → Prop
  | medium (d : Database) (x : Bits32) : OneByte d.medium x → OneChangeDatabase d { d with medium := x }
  | low (d : Database) (x : Bits32) : OneByte d.low x → OneChangeDatabase d { d with low := x }
  | chunk (d : Database) (x : BitVec 32) : OneByte d.maxChunkSize x → OneChangeDatabase d { d with maxChunkSize := x }

theorem C81_database_hash_separates (d e : Database) (h : OneChangeDatabase d e) : d.hash ≠ e.hash := by
  cases h with
  | medium x hx => simp only [Database.hash, ne_eq, combine_left, combine_right]; exact oneByte_ne hx
  | low x hx => simp only [Database.hash, ne_eq, combine_left, combine_right]; exact oneByte_ne hx
  | chunk x hx => simp only [Database.hash, ne_eq, combine_left, combine_right]; exact oneByte_ne hx

/-- Finding: the hash does not "uniquely identify a configuration": stripping about 2.8 % and about 0.78 % of the keyframes
(0x3CE5669F = 0.0280030351F, 0x3BFFFFFB = 0.00781249767F) are both accepted and have the same hash whatever the rest, and so have
database settings with these proportions of low importance. -/
theorem C81_hash_not_unique (s : Settings) (d : Database) :
    { s with stripping := { s.stripping with proportion := 0x3CE5669F#32 } }.hash = { s with stripping := { s.stripping with proportion := 0x3BFFFFFB#32 } }.hash ∧
      { d with low := 0x3CE5669F#32 }.hash = { d with low := 0x3BFFFFFB#32 }.hash ∧
      { Settings.default with errorMetric := some 7, stripping := ⟨0x3CE5669F#32, 0, true⟩ }.isValid = none ∧
      { Settings.default with errorMetric := some 7, stripping := ⟨0x3BFFFFFB#32, 0, true⟩ }.isValid = none ∧
      (Database.mk 0 0x3CE5669F#32 4096).isValid = none ∧ (Database.mk 0 0x3BFFFFFB#32 4096).isValid = none ∧
      1 / 100 < ofBits 0x3CE5669F#32 - ofBits 0x3BFFFFFB#32 := by
  have h : hash32 (bytes32 0x3CE5669F#32) = hash32 (bytes32 0x3BFFFFFB#32) := by decide +kernel
  refine ⟨?_, ?_, by decide +kernel, by decide +kernel, by decide +kernel, by decide +kernel, by decide +kernel⟩
  · simp only [Settings.hash, Stripping.hash, h]
  · simp only [Database.hash, h]

/-- The hypotheses are met: NaN and infinite proportions are refused, -0.0 is accepted, and a chunk size whose alignment wraps is refused. -/
theorem C81_example :
    (Database.mk 0x7FC00000#32 0x3F000000#32 4096).isValid = some .mediumRange ∧ (Database.mk 0x3F000000#32 0x7F800000#32 4096).isValid = some .lowRange ∧
      (Database.mk 0x80000000#32 0x3F800000#32 8192).isValid = none ∧ (Database.mk 0x3F000000#32 0x3F000000#32 0xFFFFF001#32).isValid = some .chunkNotMultiple ∧
      (Database.mk 0x3F000000#32 0x3F000000#32 4095).isValid = some .chunkTooSmall ∧ (Database.mk 0x3F000000#32 0x3F000000#32 4097).isValid = some .chunkNotMultiple ∧
      (Database.mk 0x3F000000#32 0x3F400000#32 4096).isValid = some .sumRange ∧ OneByte 0x3F000000#32 0x3E000000#32 := by
  refine ⟨by decide +kernel, by decide +kernel, by decide +kernel, by decide +kernel, by decide +kernel, by decide +kernel,
    by decide +kernel, [0, 0, 0], 0x3F, 0x3E, [], by decide, by decide, by decide⟩

end Acl.C81
