import Verif.Transform.RotationLemmas
import Verif.Props.C69
import Verif.Props.C72
import Mathlib.Algebra.Order.Archimedean.Basic
/-!
C73: decoded rotations have unit length.
With the default normalization policy every rotation the decompression reconstructs is a unit quaternion, to within 2^-20, whatever the two key frames,
the interpolation factor, the rounding policy, the bit rates and the instruction set; the division by the length is always a division by a number that is
well away from zero.
Specification vocabulary: `lengthSquared` (Transform/RotationLemmas.lean), `SqrtLaw`, `DotLaw` (what is assumed of the hardware), `Unit`.
-/
namespace Acl.C73
open Acl.F32 Acl.Rotation Acl.Convert Acl.Interp Acl.Context Acl.C50 Acl.C49
open Acl.Lerp (dot lerp)
open Acl.Transform hiding Quat

local notation "Quat" => Acl.Lerp.Quat

/-- Specification: a unit quaternion, up to rounding. -/
def Unit (q : Quat) : Prop := |lengthSquared q - 1| ≤ 1 / 2 ^ 20

/-- Specification: a key frame that is not far from a rotation: stored with its W, it has about unit length; otherwise its components are at most 3/2. -/
structure KeyOk (fused : Bool) (sqrt : ℚ → ℚ) (d : Sample) : Prop where
  full : isFull d = true → 3 / 4 ≤ lengthSquared (keyRotation fused sqrt d) ∧ lengthSquared (keyRotation fused sqrt d) ≤ 16
  dropped : isFull d = false → ∀ lane, |evalSample fused lane d| ≤ 3 / 2

/-- Specification: the square of the length of the stored components. -/
def vectorSquared (fused : Bool) (d : Sample) : ℚ :=
  evalSample fused .x d * evalSample fused .x d + evalSample fused .y d * evalSample fused .y d + evalSample fused .z d * evalSample fused .z d

theorem keyRotation_dropped {fused : Bool} {sqrt : ℚ → ℚ} {d : Sample} (h : isFull d = false) : keyRotation fused sqrt d =
    ⟨evalSample fused .x d, evalSample fused .y d, evalSample fused .z d,
      positiveW fused sqrt (evalSample fused .x d) (evalSample fused .y d) (evalSample fused .z d)⟩ := by
  unfold isFull at h
  unfold keyRotation
  cases hr : d.raw with
  | float4 v => rw [hr] at h; simp at h
  | _ => rfl

theorem key_bounds {fused : Bool} {sqrt : ℚ → ℚ} (hs : SqrtLaw sqrt) {d : Sample} (h : KeyOk fused sqrt d) :
    3 / 4 ≤ lengthSquared (keyRotation fused sqrt d) ∧ lengthSquared (keyRotation fused sqrt d) ≤ 16 := by
  cases hf : isFull d with
  | true => exact h.full hf
  | false =>
    rw [keyRotation_dropped hf]
    exact reconstructed_bounds fused hs (h.dropped hf .x) (h.dropped hf .y) (h.dropped hf .z)

theorem unit_of {dot : Quat → Quat → ℚ} (hd : DotLaw dot) {sqrt : ℚ → ℚ} (hs : SqrtLaw sqrt) {q : Quat}
    (h : 3 / 4 ≤ lengthSquared q ∧ lengthSquared q ≤ 16) : Unit (normalize dot sqrt q) :=
  normalize_unit hd hs (by linarith [h.1]) (by linarith [h.2])

theorem unit_bounds {q : Quat} (h : Unit q) : 3 / 4 ≤ lengthSquared q ∧ lengthSquared q ≤ 16 := by
  unfold Unit at h
  rw [abs_le] at h
  constructor <;> linarith [h.1, h.2]

theorem blend_unit {dot dot' : Quat → Quat → ℚ} (hd : DotLaw dot) (hd' : DotLaw dot') {sqrt : ℚ → ℚ} (hs : SqrtLaw sqrt) (fused : Bool) {s e : Quat} {alpha : ℚ}
    (ha : 0 ≤ alpha ∧ alpha ≤ 1) (h1 : 3 / 4 ≤ lengthSquared s ∧ lengthSquared s ≤ 16) (h2 : 3 / 4 ≤ lengthSquared e ∧ lengthSquared e ≤ 16) :
    Unit (normalize dot' sqrt (blend dot fused s e alpha)) := by
  have h := blend_length hd fused ha.1 ha.2 (A := 3 / 4) (B := 16) (by norm_num) (by norm_num) le_rfl h1 h2
  exact normalize_unit hd' hs (by linarith [h.1]) (by linarith [h.2])

theorem groupKey_bounds {c : Config} (hs : SqrtLaw c.sqrt) {d : Sample} (h : KeyOk c.fused c.sqrt d) (alpha : ℚ) :
    3 / 4 ≤ lengthSquared (groupKey c alpha d) ∧ lengthSquared (groupKey c alpha d) ≤ 16 := by
  unfold groupKey normalizeIf
  split
  · exact unit_bounds (unit_of (dotLaw_group _) hs (key_bounds hs h))
  · exact key_bounds hs h

/-! ### The theorems -/

/-- **C73, key frames.** A rotation whose W is reconstructed has unit length when its stored part `s` is inside the unit ball - and its squared length is `2 s - 1`
when quantization pushed it outside, although the code says it is always normalized (quatf.h:146-147). Never less than one, up to rounding. -/
theorem C73_key_frame (fused : Bool) {sqrt : ℚ → ℚ} (hs : SqrtLaw sqrt) {d : Sample} (hf : isFull d = false) (h : ∀ lane, |evalSample fused lane d| ≤ 3 / 2) :
    |lengthSquared (keyRotation fused sqrt d) - max 1 (2 * vectorSquared fused d - 1)| ≤ 1 / 2 ^ 18 ∧ 0 ≤ (keyRotation fused sqrt d).w := by
  rw [keyRotation_dropped hf]
  refine ⟨reconstructed fused hs (h .x) (h .y) (h .z), hs.nonneg _⟩

/-- **C73, the W component.** A key frame whose stored components are within `tol` of the ones of a unit quaternion with a positive W (up to `eta`) has
its W within a square root of the one of the input. -/
theorem C73_w (fused : Bool) {sqrt : ℚ → ℚ} (hs : SqrtLaw sqrt) {d : Sample} (hf : isFull d = false) {q : Quat} {tol eta : ℚ} (hw : 0 ≤ q.w)
    (hu : |lengthSquared q - 1| ≤ eta) (heta : eta ≤ 1 / 4) (ht : tol ≤ 1 / 8)
    (hx : |evalSample fused .x d - q.x| ≤ tol) (hy : |evalSample fused .y d - q.y| ≤ tol) (hz : |evalSample fused .z d - q.z| ≤ tol) :
    ((keyRotation fused sqrt d).w - q.w) ^ 2 ≤ 2 * tol * (|q.x| + |q.y| + |q.z|) + 3 * tol ^ 2 + 2 * eta + 1 / 2 ^ 18 := by
  rw [keyRotation_dropped hf]
  generalize evalSample fused .x d = x at *
  generalize evalSample fused .y d = y at *
  generalize evalSample fused .z d = z at *
  have hsq : ∀ a : ℚ, a * a ≤ 25 / 16 → |a| ≤ 5 / 4 := by
    intro a ha
    rw [abs_le]; constructor <;> nlinarith
  have nx := mul_self_nonneg q.x
  have ny := mul_self_nonneg q.y
  have nz := mul_self_nonneg q.z
  have nw := mul_self_nonneg q.w
  have hu' := abs_le.1 hu
  unfold lengthSquared at hu'
  have bound : ∀ {v a : ℚ}, |v - a| ≤ tol → a * a ≤ 25 / 16 → |v| ≤ 3 / 2 := by
    intro v a h1 h2
    have := hsq a h2
    rw [abs_le] at *
    constructor <;> linarith
  have hW := positiveW_close fused hs (bound hx (by linarith)) (bound hy (by linarith)) (bound hz (by linarith))
  have diff : ∀ {v a : ℚ}, |v - a| ≤ tol → |v * v - a * a| ≤ 2 * tol * |a| + tol ^ 2 := by
    intro v a h
    rw [show v * v - a * a = (v - a) * (2 * a + (v - a)) by ring, abs_mul]
    have h2 : |2 * a + (v - a)| ≤ 2 * |a| + tol := (abs_add_le _ _).trans (by rw [abs_mul, abs_of_pos (by norm_num : (0 : ℚ) < 2)]; linarith)
    have h3 := mul_le_mul h h2 (abs_nonneg _) ((abs_nonneg _).trans h)
    nlinarith
  have dx := abs_le.1 (diff hx)
  have dy := abs_le.1 (diff hy)
  have dz := abs_le.1 (diff hz)
  have hWn := hs.nonneg |Acl.Lerp.negMulSub fused z z (Acl.Lerp.negMulSub fused y y (Acl.Lerp.negMulSub fused x x 1))|
  change 0 ≤ positiveW fused sqrt x y z at hWn
  dsimp only
  generalize positiveW fused sqrt x y z = W at *
  have hW' := abs_le.1 hW
  have heta0 : 0 ≤ eta := (abs_nonneg _).trans hu
  have key : |W * W - q.w * q.w| ≤ 2 * tol * (|q.x| + |q.y| + |q.z|) + 3 * tol ^ 2 + 2 * eta + 1 / 2 ^ 18 := by
    rw [abs_le]
    have ax : 2 * tol * (|q.x| + |q.y| + |q.z|) = 2 * tol * |q.x| + 2 * tol * |q.y| + 2 * tol * |q.z| := by ring
    rw [ax]
    rcases le_total (x * x + y * y + z * z) 1 with h1 | h1
    · rw [abs_of_nonneg (by linarith)] at hW'
      constructor <;> linarith
    · rw [abs_of_nonpos (by linarith)] at hW'
      constructor <;> linarith
  refine le_trans ?_ key
  rw [show W * W - q.w * q.w = (W - q.w) * (W + q.w) by ring, abs_mul, abs_of_nonneg (by linarith : 0 ≤ W + q.w), ← sq_abs, pow_two]
  refine mul_le_mul_of_nonneg_left ?_ (abs_nonneg _)
  rw [abs_le]
  constructor <;> linarith

/-- **C73, before normalization.** Interpolation never gets near the zero quaternion: at least 5/16 for the square of the length. -/
theorem C73_never_zero {dot : Quat → Quat → ℚ} (hd : DotLaw dot) {c : Config} (hs : SqrtLaw c.sqrt) {alpha : ℚ} (ha : 0 ≤ alpha ∧ alpha ≤ 1) {d0 d1 : Sample}
    (h0 : KeyOk c.fused c.sqrt d0) (h1 : KeyOk c.fused c.sqrt d1) :
    5 / 16 ≤ lengthSquared (blend dot c.fused (keyRotation c.fused c.sqrt d0) (keyRotation c.fused c.sqrt d1) alpha) := by
  have h := blend_length hd c.fused ha.1 ha.2 (A := 3 / 4) (B := 16) (by norm_num) (by norm_num) le_rfl (key_bounds hs h0) (key_bounds hs h1)
  linarith [h.1]

/-- **C73, whole poses.** With the policy `always`, every rotation `decompress_tracks` reconstructs is a unit quaternion; rotations stored in full are too
when they are interpolated. -/
theorem C73_pose {c : Config} (hs : SqrtLaw c.sqrt) {alpha : ℚ} (ha : 0 ≤ alpha ∧ alpha ≤ 1) {d0 d1 : Sample}
    (h0 : KeyOk c.fused c.sqrt d0) (h1 : KeyOk c.fused c.sqrt d1) (how : Transform.Interp) (hslot : (∃ p, how = .slot p) → c.perTrack = true)
    (hp : c.policy = .always) (hf : isFull d0 = false ∧ isFull d1 = false) : Unit (groupRotation c alpha d0 d1 how) := by
  have hl : Unit (groupLerp c alpha d0 d1) := by
    unfold groupLerp normalizeIf
    rw [hp, if_pos (by rfl)]
    exact blend_unit (dotLaw_group _) (dotLaw_group _) hs c.fused ha (groupKey_bounds hs h0 alpha) (groupKey_bounds hs h1 alpha)
  have hk : ∀ d, isFull d = false → KeyOk c.fused c.sqrt d → (c.perTrack = true ∨ shouldInterpolate c alpha = false) → Unit (groupKey c alpha d) := by
    intro d hd hok hor
    unfold groupKey normalizeIf
    rw [if_pos (by rw [hd, hp]; rcases hor with h | h <;> simp [h])]
    exact unit_of (dotLaw_group _) hs (key_bounds hs hok)
  have hother : Unit (if shouldInterpolate c alpha then groupLerp c alpha d0 d1 else if alpha ≤ 0 then groupKey c alpha d0 else groupKey c alpha d1) := by
    cases hsi : shouldInterpolate c alpha with
    | true => rw [if_pos rfl]; exact hl
    | false =>
      rw [if_neg (by simp)]
      split
      · exact hk d0 hf.1 h0 (Or.inr hsi)
      · exact hk d1 hf.2 h1 (Or.inr hsi)
  cases how with
  | contextAlpha => exact hother
  | roundedAlpha p => exact hother
  | slot p =>
    have hpt := hslot ⟨p, rfl⟩
    have k0 := hk d0 hf.1 h0 (Or.inl hpt)
    have k1 := hk d1 hf.2 h1 (Or.inl hpt)
    cases p with
    | floor => exact k0
    | ceil => exact k1
    | nearest =>
      change Unit (if alpha < 1 / 2 then groupKey c alpha d0 else groupKey c alpha d1)
      split
      · exact k0
      · exact k1
    | none => exact hl
    | perTrack => exact hl

/-- **C73, single tracks.** The same for `decompress_track`, whatever the order of the additions in its dot products. -/
theorem C73_track {c : Config} (hs : SqrtLaw c.sqrt) (hd : DotLaw c.singleDot) {alpha : ℚ} (ha : 0 ≤ alpha ∧ alpha ≤ 1) {d0 d1 : Sample}
    (h0 : KeyOk c.fused c.sqrt d0) (h1 : KeyOk c.fused c.sqrt d1) (how : Transform.Interp)
    (hp : c.policy = .always) (hf : isFull d0 = false ∧ isFull d1 = false) : Unit (singleRotation c alpha d0 d1 how) := by
  have hat : ∀ t, 0 ≤ t ∧ t ≤ 1 → Unit (singleAt c t d0 d1) := by
    intro t ht
    unfold singleAt normalizeIf
    rw [hp, hf.1]
    split
    · rw [if_pos (by rfl)]
      exact blend_unit hd hd hs c.fused ht (key_bounds hs h0) (key_bounds hs h1)
    · rw [if_pos (by rfl)]
      split
      · exact unit_of hd hs (key_bounds hs h0)
      · exact unit_of hd hs (key_bounds hs h1)
  cases how with
  | roundedAlpha p => exact hat _ (applyRounding_unit ha.1 ha.2 p)
  | contextAlpha => exact hat _ ha
  | slot p => exact hat _ ha

/-- **C73, interpolation.** With the policy `lerp_only` (and `always`) a rotation that is interpolated is a unit quaternion, in every format. When it is not, it is
one of the two key frames. -/
theorem C73_lerp_only {c : Config} (hs : SqrtLaw c.sqrt) (hd : DotLaw c.singleDot) {alpha : ℚ} (ha : 0 ≤ alpha ∧ alpha ≤ 1) {d0 d1 : Sample}
    (h0 : KeyOk c.fused c.sqrt d0) (h1 : KeyOk c.fused c.sqrt d1) (how : Transform.Interp) (hp : c.policy ≠ .never) :
    (Unit (groupRotation c alpha d0 d1 how) ∨ groupRotation c alpha d0 d1 how = keyRotation c.fused c.sqrt d0 ∨
      groupRotation c alpha d0 d1 how = keyRotation c.fused c.sqrt d1) ∧
    (Unit (singleRotation c alpha d0 d1 how) ∨ singleRotation c alpha d0 d1 how = keyRotation c.fused c.sqrt d0 ∨
      singleRotation c alpha d0 d1 how = keyRotation c.fused c.sqrt d1) := by
  have hpol : c.policy.afterLerp = true := by
    cases hq : c.policy with
    | never => exact absurd hq hp
    | lerpOnly => rfl
    | always => rfl
  have hl : Unit (groupLerp c alpha d0 d1) := by
    unfold groupLerp normalizeIf
    rw [if_pos hpol]
    exact blend_unit (dotLaw_group _) (dotLaw_group _) hs c.fused ha (groupKey_bounds hs h0 alpha) (groupKey_bounds hs h1 alpha)
  have hk : ∀ d, KeyOk c.fused c.sqrt d → Unit (groupKey c alpha d) ∨ groupKey c alpha d = keyRotation c.fused c.sqrt d := by
    intro d hok
    unfold groupKey normalizeIf
    split
    · exact Or.inl (unit_of (dotLaw_group _) hs (key_bounds hs hok))
    · exact Or.inr rfl
  have k0 : ∀ g, g = groupKey c alpha d0 → Unit g ∨ g = keyRotation c.fused c.sqrt d0 ∨ g = keyRotation c.fused c.sqrt d1 := by
    rintro g rfl
    rcases hk d0 h0 with h | h
    · exact Or.inl h
    · exact Or.inr (Or.inl h)
  have k1 : ∀ g, g = groupKey c alpha d1 → Unit g ∨ g = keyRotation c.fused c.sqrt d0 ∨ g = keyRotation c.fused c.sqrt d1 := by
    rintro g rfl
    rcases hk d1 h1 with h | h
    · exact Or.inl h
    · exact Or.inr (Or.inr h)
  have hother : ∀ g, g = (if shouldInterpolate c alpha then groupLerp c alpha d0 d1 else if alpha ≤ 0 then groupKey c alpha d0 else groupKey c alpha d1) →
      Unit g ∨ g = keyRotation c.fused c.sqrt d0 ∨ g = keyRotation c.fused c.sqrt d1 := by
    rintro g rfl
    split
    · exact Or.inl hl
    · split
      · exact k0 _ rfl
      · exact k1 _ rfl
  have hat : ∀ t, 0 ≤ t ∧ t ≤ 1 → ∀ g, g = singleAt c t d0 d1 → Unit g ∨ g = keyRotation c.fused c.sqrt d0 ∨ g = keyRotation c.fused c.sqrt d1 := by
    rintro t ht g rfl
    unfold singleAt normalizeIf
    rw [if_pos hpol]
    split
    · exact Or.inl (blend_unit hd hd hs c.fused ht (key_bounds hs h0) (key_bounds hs h1))
    · by_cases h2 : t ≤ 0
      · rw [if_pos h2]
        split
        · exact Or.inl (unit_of hd hs (key_bounds hs h0))
        · exact Or.inr (Or.inl rfl)
      · rw [if_neg h2]
        split
        · exact Or.inl (unit_of hd hs (key_bounds hs h1))
        · exact Or.inr (Or.inr rfl)
  constructor
  · cases how with
    | contextAlpha => exact hother _ rfl
    | roundedAlpha p => exact hother _ rfl
    | slot p =>
      cases p with
      | floor => exact k0 _ rfl
      | ceil => exact k1 _ rfl
      | nearest =>
        have hn : ∀ g, g = (if alpha < 1 / 2 then groupKey c alpha d0 else groupKey c alpha d1) →
            Unit g ∨ g = keyRotation c.fused c.sqrt d0 ∨ g = keyRotation c.fused c.sqrt d1 := by
          rintro g rfl
          split
          · exact k0 _ rfl
          · exact k1 _ rfl
        exact hn _ rfl
      | none => exact Or.inl hl
      | perTrack => exact Or.inl hl
  · cases how with
    | roundedAlpha p => exact hat _ (applyRounding_unit ha.1 ha.2 p) _ rfl
    | contextAlpha => exact hat _ ha _ rfl
    | slot p => exact hat _ ha _ rfl

/-- **C73, constant rotations.** -/
theorem C73_constant {c : Config} (hs : SqrtLaw c.sqrt) {dot : Quat → Quat → ℚ} (hd : DotLaw dot) (hp : c.policy = .always) {x y z : ℚ}
    (hx : |x| ≤ 3 / 2) (hy : |y| ≤ 3 / 2) (hz : |z| ≤ 3 / 2) : Unit (constantRotation c dot x y z) := by
  unfold constantRotation normalizeIf
  rw [if_pos (by rw [hp]; rfl)]
  exact unit_of hd hs (reconstructed_bounds c.fused hs hx hy hz)

/-! ### From the samples that were compressed -/

variable {r : RawClip} {e : Meta.Extra} {s : Meta.Settings} {src : Meta.Source} {f : ClipFlags} {m : List (BitVec 8)}

/-- Specification: the rotations of a track have components between -1 and 1, and quantization moves them by at most a half. -/
def Tame (r : RawClip) (b : RawBone) : Prop :=
  (∀ lane n, n < r.numSamples → |b.value .rotation lane n| ≤ 1) ∧
  ∀ g, g < r.sizes.length → ∀ lane, ∃ Ws Wc M, Spread r b .rotation lane g Ws Wc M ∧ tolerance r b .rotation g Ws Wc M ≤ 1 / 2

theorem isFull_sampleOf (hr : RawOk r) {b : RawBone} (hb : b ∈ r.bones) (hcon : (b.flags .rotation).isConstant = false) {g : Nat} (hg : g < r.sizes.length) (i : Nat)
    (hfmt : r.rotationFormat ≠ .quatfFull) : isFull (sampleOf r.quantize (b.quantize r) .rotation g i) = false := by
  have hv : ∀ i, isFull ⟨b.variableSample r g .rotation i, none, none⟩ = false := by
    intro i
    unfold RawBone.variableSample
    by_cases h1 : isConstantBitRate (b.bitRate g .rotation) = true
    · rw [if_pos h1]; rfl
    · rw [if_neg h1]
      by_cases h2 : isRawBitRate (b.bitRate g .rotation) = true
      · rw [if_pos h2]; rfl
      · rw [if_neg h2]; rfl
  have hv' : ∀ i x y, isFull ⟨b.variableSample r g .rotation i, x, y⟩ = false := fun i x y => hv i
  have hst : (b.quantize r).stream g .rotation = b.streamOf r g .rotation := rfl
  unfold sampleOf
  rw [hst]
  unfold RawBone.streamOf Stream.sample
  by_cases hvar : r.isVariable .rotation = true
  · rw [if_pos hvar]
    dsimp only
    split
    · exact hv' _ _ _
    · split <;> exact hv' _ _ _
  · rw [if_neg hvar]
    dsimp only
    unfold RawBone.fixedSample
    rw [if_neg (fun h => hfmt h.2)]
    rfl

/-- **C73, compressed clips.** Compress a legal clip whose rotations drop their W - any bit rates, any key frames stripped -, bind a context, and seek to any time with
any looping and rounding policy. With the policy `always` every animated rotation that `decompress_tracks` and `decompress_track` write is a unit quaternion. -/
theorem C73_clip (hr : RawOk r) (h : Compressed r.quantize e s src f m) (hrate : 0 < ofBits f.sampleRate ∧ ofBits f.sampleRate < pow2 128)
    (hn : r.numSamples ≤ 2 ^ 23 - 4) (supported : Nat → Bool) (hv : supported 10 = true) (cs : Context.Settings) (hcl : cs.clampTimes = true)
    (w : World) (a : Nat) (ha : tracksOf supported m = some (w.tracks a)) (p : Looping) (time : ℚ) (ht : time < pow2 128) (rounding : Interp.Rounding)
    (writer : Transform.Writer) (c : Config) (hp : c.perTrack = true → ∀ i, i < r.bones.length → writer.rounding rounding i ≠ .perTrack)
    (hs : SqrtLaw c.sqrt) (hd : DotLaw c.singleDot) (hpol : c.policy = .always) (hfmt : r.rotationFormat ≠ .quatfFull) :
    ∃ x x' q pose ev, C20.Fresh transformKind cs w a none p x ∧ Context.seek transformKind cs w x time rounding = some x' ∧ x'.seen = some q ∧
      poseContext m q c.perTrack rounding = some pose ∧ decompressTracks pose writer = some ev ∧
      ∀ (i : Nat) (b : RawBone), r.bones[i]? = some b → (b.flags .rotation).isConstant = false → Tame r b →
        ∃ d0 d1 how how' one,
          (ev.filter fun e => e.kind = .rotation ∧ e.track = i) =
            (if writer.skipAll .rotation || writer.skipTrack .rotation i then [] else [⟨.rotation, i, .animated (d0, d1) how⟩]) ∧
          decompressTrack pose writer i = some one ∧ (one.filter fun e => e.kind = .rotation) = [⟨.rotation, i, .animated (d0, d1) how'⟩] ∧
          Unit (groupRotation c q.alpha d0 d1 how) ∧ Unit (singleRotation c q.alpha d0 d1 how') := by
  have hns := Transform.numSamples_quantize hr
  have hlen : r.quantize.bones.length = r.bones.length := by unfold RawClip.quantize; dsimp only; rw [List.length_map]
  obtain ⟨x, x', q, pose, n0, n1, a1, a2, a3, a4, a5, a6⟩ := C50_sample_at_time h hrate (by rw [hns]; exact hn) supported hv cs hcl w a ha p time ht
    rounding c.perTrack writer (by rw [hlen]; exact hp)
  have ends := kept_ends h.clip
  have kn : Kept r.quantize n0 ∧ Kept r.quantize n1 := by
    rcases lt_or_ge (fmul (clampTime time ((clipOf r.quantize f).finiteDuration (effective cs (clipOf r.quantize f) p))) (ofBits f.sampleRate))
      (r.quantize.numSamples : ℚ) with hx | hx
    · exact ⟨(a6.inside hx).before.2.1, (a6.inside hx).after.2.1⟩
    · obtain ⟨-, e0, e1⟩ := a6.ends hx
      rw [e0, e1]
      exact ⟨ends.1, ends.1⟩
  obtain ⟨g0, i0, f0⟩ := C69.frame_of_kept kn.1
  obtain ⟨g1, i1, f1⟩ := C69.frame_of_kept kn.2
  obtain ⟨ev, hev, -⟩ := a5.pose
  refine ⟨x, x', q, pose, ev, a1, a2, a3, a4, hev, ?_⟩
  intro i b hb hcon htame
  have hmem := List.mem_of_getElem? hb
  obtain ⟨⟨ev', hev', e1⟩, one, e2, e3⟩ := C69.animated_events hr a5 f0 f1 hb hcon
  rw [hev, Option.some.injEq] at hev'
  subst hev'
  refine ⟨_, _, _, _, one, e1, e2, e3, ?_⟩
  have key : ∀ {n g j : Nat}, Frame r.quantize n g j → KeyOk c.fused c.sqrt (sampleOf r.quantize (b.quantize r) .rotation g j) ∧
      isFull (sampleOf r.quantize (b.quantize r) .rotation g j) = false := by
    intro n g j hf
    obtain ⟨q0, q1, q2⟩ := C55.frame_inside hr hf
    have hfull := isFull_sampleOf hr hmem hcon q0 j hfmt
    refine ⟨⟨fun hh => (by rw [hfull] at hh; cases hh), fun _ lane => ?_⟩, hfull⟩
    obtain ⟨Ws, Wc, M, s1, s2⟩ := htame.2 g q0 lane
    have c0 := (C55.close_of_frame c.fused hr hf hmem hcon).within g q0 ⟨j, q1, q2⟩ lane Ws Wc M s1
    have hlt := C69.frame_lt hf
    rw [hns] at hlt
    have c1 := htame.1 lane n hlt
    rw [abs_le] at *
    constructor <;> linarith
  obtain ⟨k0, u0⟩ := key f0
  obtain ⟨k1, u1⟩ := key f1
  refine ⟨C73_pose hs a6.unit k0 k1 _ ?_ hpol ⟨u0, u1⟩, C73_track hs hd a6.unit k0 k1 _ hpol ⟨u0, u1⟩⟩
  rintro ⟨p', hp'⟩
  cases hh : c.perTrack with
  | true => rfl
  | false => rw [hh] at hp'; simp at hp'

/-! ### Findings -/

/-- Two rotations half a turn apart, stored in full. -/
def exFull (x y z w : ℚ) : Sample := ⟨.float4 ⟨toBits x, toBits y, toBits z, toBits w⟩, none, none⟩

/-- **Finding.** With the policy `never`, interpolation halves the squared length: half way between two unit quaternions a quarter of a turn apart on the sphere. -/
theorem C73_never_finding : ∃ c : Config, c.policy = .never ∧ ∃ d0 d1, lengthSquared (keyRotation c.fused c.sqrt d0) = 1 ∧
    lengthSquared (keyRotation c.fused c.sqrt d1) = 1 ∧ lengthSquared (groupRotation c (1 / 2) d0 d1 .contextAlpha) = 1 / 2 :=
  ⟨⟨.never, false, false, false, id, dotSse2⟩, rfl, exFull 1 0 0 0, exFull 0 1 0 0, by decide +kernel, by decide +kernel, by decide +kernel⟩

/-- **Finding.** decompress_tracks and decompress_track add the products of the dot product in different orders (quatf.h:59-73, 177). When two key frames are nearly
half a turn apart the two functions can disagree on its sign, and write rotations that have nothing in common: here, orthogonal quaternions. -/
theorem C73_order_finding : ∃ (c : Config) (d0 d1 : Sample), c.singleDot = dotSse2 ∧
    |lengthSquared (keyRotation c.fused c.sqrt d0) - 1| ≤ 1 / 2 ^ 22 ∧ |lengthSquared (keyRotation c.fused c.sqrt d1) - 1| ≤ 1 / 2 ^ 22 ∧
    0 < (keyRotation c.fused c.sqrt d0).w ∧ 0 < (keyRotation c.fused c.sqrt d1).w ∧
    |exactDot (groupRotation c (1 / 2) d0 d1 .contextAlpha) (singleRotation c (1 / 2) d0 d1 .contextAlpha)| ≤ 1 / 2 ^ 22 ∧
    1 / 3 ≤ lengthSquared (groupRotation c (1 / 2) d0 d1 .contextAlpha) ∧ 1 / 3 ≤ lengthSquared (singleRotation c (1 / 2) d0 d1 .contextAlpha) :=
  ⟨⟨.never, false, false, false, id, dotSse2⟩, exFull (11863283 / 2 ^ 24) (1 / 2 ^ 14) (11863283 / 2 ^ 24) (1 / 2 ^ 15),
    exFull (11863283 / 2 ^ 24) (-1 / 2 ^ 14) (-11863283 / 2 ^ 24) (1 / 2 ^ 15), rfl,
    by decide +kernel, by decide +kernel, by decide +kernel, by decide +kernel, by decide +kernel, by decide +kernel, by decide +kernel⟩

/-- **Finding.** The comment of quat_from_positive_w4 says the quaternion is always normalized. Three components of 5/8 - half a turn around a diagonal, after
quantization on a few bits - give a squared length above 4/3, with every square root. -/
theorem C73_positive_w_finding (fused : Bool) {sqrt : ℚ → ℚ} (hs : SqrtLaw sqrt) :
    ∃ d : Sample, isFull d = false ∧ (∀ lane, evalSample fused lane d = 5 / 8) ∧ 4 / 3 ≤ lengthSquared (keyRotation fused sqrt d) := by
  have he : ∀ lane, evalSample fused lane ⟨.float3 ⟨0x3F200000#32, 0x3F200000#32, 0x3F200000#32⟩, none, none⟩ = 5 / 8 := by
    intro lane
    cases lane <;> cases fused <;> decide +kernel
  refine ⟨⟨.float3 ⟨0x3F200000#32, 0x3F200000#32, 0x3F200000#32⟩, none, none⟩, rfl, he, ?_⟩
  have h := (C73_key_frame fused hs (d := ⟨.float3 ⟨0x3F200000#32, 0x3F200000#32, 0x3F200000#32⟩, none, none⟩) rfl (by intro lane; rw [he]; norm_num [abs_of_pos])).1
  unfold vectorSquared at h
  rw [he, he, he] at h
  have h2 := le_max_right (1 : ℚ) (2 * (5 / 8 * (5 / 8) + 5 / 8 * (5 / 8) + 5 / 8 * (5 / 8)) - 1)
  rw [abs_le] at h
  linarith [h.1]

/-! ### What is assumed of the hardware can be met -/

/-- There is a square root that is accurate enough. -/
theorem sqrt_exists : ∃ sqrt : ℚ → ℚ, SqrtLaw sqrt := by
  have h : ∀ x : ℚ, ∃ v : ℚ, 0 ≤ v ∧ (0 ≤ x → |v * v - x| ≤ x / 2 ^ 22) := by
    intro x
    rcases lt_trichotomy x 0 with h | h | h
    · exact ⟨0, le_rfl, fun h' => absurd h' (by linarith)⟩
    · exact ⟨0, le_rfl, fun _ => by rw [h]; simp⟩
    · obtain ⟨v, v0, v1, v2⟩ := exists_rat_pow_btwn (K := ℚ) (n := 2) two_ne_zero (x := x - x / 2 ^ 22) (y := x) (by linarith [show 0 < x / 2 ^ 22 by positivity]) h
      refine ⟨v, v0.le, fun _ => ?_⟩
      simp only [Rat.cast_id] at v1 v2
      rw [abs_le]
      constructor <;> nlinarith
  choose f h1 h2 using h
  exact ⟨f, h1, h2⟩

/-! ### Examples -/

/-- The clip of C55 is tame: its rotations are on 9 bits. -/
example : Tame C55.exClip C55.exBone := by
  have hsz : C55.exClip.sizes = [9, 9] := by decide +kernel
  have v : ∀ lane ∈ [Axis.x, Axis.y, Axis.z], ∀ i, i < 18 → ∀ j, j < 18 → C55.exBone.value .rotation lane i - C55.exBone.value .rotation lane j ≤ 1 / 4 := by
    decide +kernel
  have v2 : ∀ lane ∈ [Axis.x, Axis.y, Axis.z], ∀ g, g < 2 → ∀ i, i < 9 → ∀ j, j < 9 → C55.exBone.value .rotation lane (C55.exClip.start g + i) -
      C55.exBone.value .rotation lane (C55.exClip.start g + j) ≤ 1 / 4 := by decide +kernel
  have mg : ∀ lane ∈ [Axis.x, Axis.y, Axis.z], ∀ i, i < 18 → |C55.exBone.value .rotation lane i| ≤ 1 := by decide +kernel
  have hl : ∀ lane : Axis, lane ∈ [Axis.x, Axis.y, Axis.z] := by intro lane; cases lane <;> simp
  refine ⟨fun lane => mg lane (hl lane), ?_⟩
  intro g hg lane
  rw [hsz] at hg
  have hg2 : g = 0 ∨ g = 1 := by simp at hg; omega
  have hgd : C55.exClip.sizes.getD g 0 = 9 := by
    rw [hsz]; rcases hg2 with rfl | rfl <;> rfl
  refine ⟨1 / 4, 1 / 4, 1, ⟨?_, ?_, mg lane (hl lane), by norm_num⟩, ?_⟩
  · intro i j hi hj
    rw [hgd] at hi hj
    exact v2 lane (hl lane) g (by omega) i hi j hj
  · intro i j hi hj
    exact v lane (hl lane) i hi j hj
  · rcases hg2 with rfl | rfl <;> decide +kernel

/-- The default settings on a target with SSE2: everything the theorems assume is met. -/
example : ∃ c : Config, SqrtLaw c.sqrt ∧ DotLaw c.singleDot ∧ c.policy = .always ∧ c.perTrack = true ∧
    KeyOk c.fused c.sqrt ⟨.float3 ⟨0x3F000000#32, 0xBF000000#32, 0x3E800000#32⟩, none, none⟩ := by
  obtain ⟨sqrt, h⟩ := sqrt_exists
  refine ⟨⟨.always, true, false, false, sqrt, dotSse2⟩, h, dotLaw_sse2, rfl, rfl, ⟨fun hh => (by cases hh), fun _ => ?_⟩⟩
  have h : ∀ lane : Axis, |evalSample false lane ⟨.float3 ⟨0x3F000000#32, 0xBF000000#32, 0x3E800000#32⟩, none, none⟩| ≤ 3 / 2 := by
    intro lane
    cases lane <;> decide +kernel
  exact h

end Acl.C73
