import Verif.Context.Buffer
import Verif.Props.C06
import Verif.Props.C11
import Verif.Props.C20
import Verif.Props.C49
/-!
C50: sampling a compressed clip at a time. A context is initialized with the buffer, a looping policy is set, `seek` is called
with a time: the pose that is then written blends the two frames around the position of the time in the clip, with the factor
that goes with that position; the frames are the nearest ones that were kept when key frames were stripped.
Specification vocabulary: `position`, `following`, `Nearest`, `Blend` below; `Kept` and `Reads` in Props/C49.lean;
`applyRounding` is the rounding policy (C10), `clampTime` and `finiteDuration` the clamping of the time (C11, C12).
-/
namespace Acl.C50
open Acl.Context Acl.Interp Acl.F32 Acl.Headers
open Acl.Transform (ClipSource Compressed ClipFlags)

/-- Specification: the position of index `x` in frames, after rounding. -/
def position (r : Interp.Rounding) (x : ℚ) : ℚ := ⌊x⌋ + applyRounding (x - ⌊x⌋) r

/-- Specification: the frame after frame `k`: the first one after the last one of a looping clip, and the last one stays. -/
def following (loops : Bool) (count k : Nat) : Nat := if k + 1 < count then k + 1 else if loops then 0 else k

/-- Specification: `n0` is the last frame kept that is not after `k0`, `n1` the first one that is not before `k1`. -/
structure Nearest (kept : Nat → Prop) (k0 k1 n0 n1 : Nat) : Prop where
  before : n0 ≤ k0 ∧ kept n0 ∧ ∀ n, n0 < n → n ≤ k0 → ¬ kept n
  after : k1 ≤ n1 ∧ kept n1 ∧ ∀ n, k1 ≤ n → n < n1 → ¬ kept n

/-- Specification: frames `n0` and `n1` and the factor `alpha` are what index `x` of a clip of `count` frames stands for. -/
structure Blend (kept : Nat → Prop) (count : Nat) (loops : Bool) (r : Interp.Rounding) (x : ℚ) (n0 n1 : Nat) (alpha : ℚ) : Prop where
  unit : 0 ≤ alpha ∧ alpha ≤ 1
  /-- within the clip, the frames around it -/
  inside : x < count → Nearest kept ⌊x⌋.toNat (following loops count ⌊x⌋.toNat) n0 n1
  /-- the factor is where the position is between the frames -/
  factor : n0 < n1 → alpha = rnd ((position r x - n0) / (n1 - n0))
  /-- from the last frame to the first one -/
  around : n1 < n0 → loops = true ∧ n1 = 0 ∧ n0 + 1 = count ∧ n0 = ⌊x⌋ ∧ alpha = position r x - n0
  /-- the end of a looping clip is its first frame -/
  ends : (count : ℚ) ≤ x → loops = true ∧ n0 = 0 ∧ n1 = 0
  /-- when the two frames are the same the factor is zero, or where the position is after the frame of the index -/
  same : n0 = n1 → x < count → alpha = 0 ∨ alpha = position r x - ⌊x⌋

/-! ### Floats -/

/-- Taking an integer away from a larger float is exact. -/
theorem isFloat_sub_nat {x : ℚ} (h : IsFloat x) (n : Nat) (hn : (n : ℚ) ≤ x) (hx : x < 2 ^ 24) : IsFloat (x - n) := by
  obtain ⟨m, e, hx', hm, he, he2⟩ := h
  have hm24 : (m : ℚ) < 2 ^ 24 := by exact_mod_cast (abs_lt.mp hm).2
  rcases le_or_gt 0 e with hpos | hneg
  · obtain ⟨k, rfl⟩ := Int.eq_ofNat_of_zero_le hpos
    have hi : x - n = ((m * 2 ^ k - n : Int) : ℚ) := by rw [hx', pow2_nat]; push_cast; ring
    have h0 : (0 : ℚ) ≤ ((m * 2 ^ k - n : Int) : ℚ) := by rw [← hi]; linarith
    have h1 : ((m * 2 ^ k - n : Int) : ℚ) < 2 ^ 24 := by rw [← hi]; have : (0 : ℚ) ≤ n := Nat.cast_nonneg n; linarith
    refine ⟨m * 2 ^ k - n, 0, ?_, ?_, by omega, by omega⟩
    · rw [hi, show pow2 0 = 1 by decide +kernel, mul_one]
    · rw [abs_of_nonneg (by exact_mod_cast h0)]; exact_mod_cast h1
  · obtain ⟨k, hk⟩ := Int.eq_ofNat_of_zero_le (show 0 ≤ -e by omega)
    have hp : pow2 e * 2 ^ k = 1 := by
      rw [← pow2_nat k, ← pow2_add, show e + (k : Int) = 0 by omega]; decide +kernel
    have hi : x - n = ((m - n * 2 ^ k : Int) : ℚ) * pow2 e := by
      push_cast
      rw [sub_mul, ← hx', mul_assoc, mul_comm ((2 : ℚ) ^ k), hp, mul_one]
    have hpe := pow2_pos e
    have h0 : (0 : ℚ) ≤ ((m - n * 2 ^ k : Int) : ℚ) := by
      by_contra hc
      push Not at hc
      have := mul_neg_of_neg_of_pos hc hpe
      rw [← hi] at this; linarith
    have h2 : (m - n * 2 ^ k : Int) ≤ m := by have : (0 : Int) ≤ n * 2 ^ k := by positivity
                                              omega
    refine ⟨m - n * 2 ^ k, e, hi, ?_, he, he2⟩
    rw [abs_of_nonneg (by exact_mod_cast h0)]
    exact lt_of_le_of_lt h2 (abs_lt.mp hm).2

theorem isFloat_nat {n : Nat} (h : n < 2 ^ 24) : IsFloat (n : ℚ) :=
  ⟨n, 0, by rw [show pow2 0 = 1 by decide +kernel, mul_one]; simp, by rw [abs_of_nonneg (by omega)]; exact_mod_cast h, by omega, by omega⟩

/-- The position is a float. -/
theorem isFloat_position {x : ℚ} (r : Interp.Rounding) (h0 : 0 ≤ x) (hf : IsFloat x) (hx : x < 2 ^ 24 - 1) : IsFloat (position r x) := by
  have h1 : ⌊x⌋.toNat + 1 < 2 ^ 24 := by
    have := floor_toNat_lt (n := 2 ^ 24 - 1) h0 (by rw [Nat.cast_sub (by decide)]; push_cast; exact hx)
    omega
  have hc := floor_toNat_cast h0
  have two : ∀ a : ℚ, (a = 0 ∨ a = 1) → IsFloat (⌊x⌋ + a) := by
    intro a ha
    rcases ha with rfl | rfl
    · rw [← hc, add_zero]; exact isFloat_nat (by omega)
    · rw [← hc]; have := isFloat_nat (n := ⌊x⌋.toNat + 1) h1; push_cast at this; exact this
  unfold position
  cases r with
  | none => rw [applyRounding, add_sub_cancel]; exact hf
  | perTrack => rw [applyRounding, add_sub_cancel]; exact hf
  | floor => exact two _ (Or.inl rfl)
  | ceil => exact two _ (Or.inr rfl)
  | nearest => exact two _ (nearest_unit fract_unit.1 fract_unit.2)

theorem position_bounds {x : ℚ} (r : Interp.Rounding) : (⌊x⌋ : ℚ) ≤ position r x ∧ position r x ≤ ⌊x⌋ + 1 := by
  have := applyRounding_unit (fract_unit (x := x)).1 (fract_unit (x := x)).2 r
  unfold position
  constructor <;> linarith [this.1, this.2]

/-- The factor for the frames that are used. -/
theorem remap_eq {x : ℚ} (r : Interp.Rounding) (h0 : 0 ≤ x) (hf : IsFloat x) (hx : x < 2 ^ 23) (n0 n1 : Nat) (hn0 : n0 ≤ ⌊x⌋.toNat)
    (hn1 : n1 < 2 ^ 24) :
    interpolationAlpha (fadd (applyRounding (x - ⌊x⌋) r) (ofNat ⌊x⌋.toNat)) n0 n1 .none =
      if n0 = n1 then 0 else if n0 < n1 then rnd ((position r x - n0) / (n1 - n0)) else position r x - n0 := by
  have hlt : ⌊x⌋.toNat < 2 ^ 23 := floor_toNat_lt h0 (by push_cast; exact hx)
  have hx24 : x < 2 ^ 24 - 1 := by
    have : (2 : ℚ) ^ 23 ≤ 2 ^ 24 - 1 := by norm_num
    linarith
  have hpf := isFloat_position r h0 hf hx24
  have hb := position_bounds (x := x) r
  have hc := floor_toNat_cast h0
  have hsum : fadd (applyRounding (x - ⌊x⌋) r) (ofNat ⌊x⌋.toNat) = position r x := by
    unfold fadd
    rw [ofNat_eq (by omega), hc, add_comm]
    exact rnd_of_isFloat hpf
  have hn0q : (n0 : ℚ) ≤ ⌊x⌋ := by rw [← hc]; exact_mod_cast hn0
  have hltq : (⌊x⌋ : ℚ) < 2 ^ 23 := by rw [← hc]; exact_mod_cast hlt
  have hsub : fsub (position r x) (ofNat n0) = position r x - n0 := by
    unfold fsub
    rw [ofNat_eq (by omega)]
    refine rnd_of_isFloat (isFloat_sub_nat hpf n0 (by linarith [hb.1]) ?_)
    have : (2 : ℚ) ^ 23 + 1 ≤ 2 ^ 24 := by norm_num
    linarith [hb.2]
  rw [hsum]
  unfold interpolationAlpha
  rw [if_neg (by decide), if_neg (by decide)]
  split
  · rfl
  · dsimp only
    rw [if_pos (Or.inl rfl), hsub]
    split
    · next hl => unfold fdiv; rw [ofNat_eq (by omega), Nat.cast_sub (by omega)]
    · rfl

/-! ### The context -/

variable {c : ClipSource} {e : Meta.Extra} {s : Meta.Settings} {src : Meta.Source} {f : ClipFlags} {m : List (BitVec 8)}

theorem misc_more (c : ClipSource) (f : ClipFlags) (b : Bool) :
    getHasDatabase (setHasMetadata (c.misc f) b) = false ∧ getIsWrapOptimized (setHasMetadata (c.misc f) b) = f.wrapOptimized ∧
      getHasStrippedKeyframes (setHasMetadata (c.misc f) b) = c.stripped := by
  unfold ClipSource.misc
  generalize c.hasScale = x1
  generalize f.defaultScaleOne = x2
  generalize f.trivialDefaults = x3
  generalize c.stripped = x4
  generalize f.wrapOptimized = x5
  cases c.rotationFormat <;> cases c.translationFormat <;> cases c.scaleFormat <;> revert x1 x2 x3 x4 x5 b <;> decide +kernel

/-- What is read of the clip for the time. -/
def clipOf (c : ClipSource) (f : ClipFlags) : Interp.Clip := ⟨c.numSamples, ofBits f.sampleRate, false, f.wrapOptimized⟩

theorem tracks_read (h : Compressed c e s src f m) (supported : Nat → Bool) :
    ∃ t starts, tracksOf supported m = some t ∧ t.isValid = true ∧ t.isVersionSupported = supported 10 ∧ t.numTracks = c.bones.length ∧
      t.clip = clipOf c f ∧ t.hasDatabase = false ∧
      (⟨t.clip.numSamples, t.numSegments, t.startIndices, t.hasStrippedKeyframes, t.sampleIndices, none⟩ : Seek.Clip) =
        ⟨c.numSamples, c.segments.length, starts, c.stripped, if c.stripped then c.segments.map (·.hardKeyframes) else [], none⟩ ∧
      Transform.readSeekClip m =
        some ⟨c.numSamples, c.segments.length, starts, c.stripped, if c.stripped then c.segments.map (·.hardKeyframes) else [], none⟩ := by
  obtain ⟨starts, hsc, -⟩ := h.seekClip
  obtain ⟨b, hb⟩ := h.header
  obtain ⟨d1, d2, d3⟩ := misc_more c f b
  have hN := h.clip.numSamples
  have hB := h.clip.bones
  have hload : ∃ hash, load32 m 4 = some hash ∧ tracksIsValid m true false = some .ok := by
    have h' := hb
    unfold Meta.loadTracksHeader at h'
    simp only [Option.bind_eq_bind, Option.bind_eq_some_iff, Option.pure_def, Option.some.injEq] at h'
    obtain ⟨tag, h1, version, h2, algo, h3, tt, h4, nt, h5, _, -, _, -, _, -, he⟩ := h'
    have hlen : 19 < m.length := by
      unfold load32 at h5
      simp only [Option.bind_eq_bind, Option.bind_eq_some_iff] at h5
      obtain ⟨_, -, _, -, _, -, _, h6, -⟩ := h5
      exact (List.getElem?_eq_some_iff.1 h6).1
    unfold ClipSource.header at he
    injection he with e1 e2 e3
    dsimp only at e1 e2 e3
    refine ⟨m[4+3] ++ m[4+2] ++ m[4+1] ++ m[4], ?_, ?_⟩
    · unfold load32
      simp only [Option.bind_eq_bind]
      rw [List.getElem?_eq_getElem (by omega), Option.bind_some, List.getElem?_eq_getElem (by omega), Option.bind_some,
        List.getElem?_eq_getElem (by omega), Option.bind_some, List.getElem?_eq_getElem (by omega), Option.bind_some]
      rfl
    · unfold tracksIsValid
      rw [h1, h3, h2, e1, e2, e3]
      rfl
  obtain ⟨hash, hh, hv⟩ := hload
  unfold tracksOf
  rw [hb, Option.bind_some, hh, Option.bind_some, hv, Option.bind_some, hsc, Option.bind_some]
  dsimp only
  rw [d1]
  refine ⟨_, starts, rfl, rfl, rfl, ?_, ?_, rfl, ?_, rfl⟩
  · unfold ClipSource.header
    dsimp only
    rw [BitVec.toNat_ofNat, Nat.mod_eq_of_lt hB.2]
  · unfold ClipSource.header clipOf
    dsimp only
    rw [BitVec.toNat_ofNat, Nat.mod_eq_of_lt (by omega), d2]
    rfl
  · unfold ClipSource.header
    dsimp only
    rw [BitVec.toNat_ofNat, Nat.mod_eq_of_lt (by omega), d3]

/-- The policy a context goes by when `p` was asked for. -/
def effective (cs : Context.Settings) (k : Interp.Clip) (p : Looping) : Looping := if cs.wrapping then resolveLooping k p else .clamp

theorem effective_ne (cs : Context.Settings) (k : Interp.Clip) (p : Looping) : effective cs k p ≠ .asCompressed := by
  unfold effective; split
  · exact C11.resolve_ne k p
  · simp

/-- A context that was initialized, with a looping policy. -/
theorem fresh_exists {F : Type} (kd : Kind F) (cs : Context.Settings) (w : World) (a : Nat) (db : Option Nat) (hkd : kd.bindsDatabase = true ∨ db = none)
    (p : Looping) (hv : checks cs w (w.tracks a) db = some true) :
    ∃ x, C20.Fresh kd cs w a db p x ∧ x.tracks = some a ∧ x.db = db ∧ x.sampleTime = -1 ∧
      x.looping = effective cs (w.tracks a).clip p ∧ x.duration = (w.tracks a).clip.finiteDuration x.looping := by
  obtain ⟨x0, hx0⟩ : ∃ x0, initCtx kd cs w {} a db = some (x0, true) := by
    have hn : (!kd.bindsDatabase && db.isSome) = false := by rcases hkd with h | h <;> simp [h]
    unfold initCtx Context.bind
    simp [hv, hn]
  rcases C20.init_cases hx0 with ⟨hb, -⟩ | ⟨-, hb⟩
  · cases hb
  obtain ⟨b1, b2, -, b4, b5, b6⟩ := C20.bind_fields hb
  unfold C20.Fresh
  rw [hx0]
  cases hw : cs.wrapping with
  | false =>
    refine ⟨x0, ⟨x0, rfl, ?_⟩, b1, b2, b4, ?_, b6⟩
    · unfold setLoopingPolicy; rw [hw]; rfl
    · rw [b5, hw]; unfold effective; rw [hw]; rfl
  | true =>
    have he : (if p = .asCompressed then (w.tracks a).loopingPolicy else p) = effective cs (w.tracks a).clip p := by
      unfold effective Tracks.loopingPolicy; rw [hw]; cases p <;> rfl
    by_cases hl : x0.looping = effective cs (w.tracks a).clip p
    · refine ⟨x0, ⟨x0, rfl, ?_⟩, b1, b2, b4, hl, b6⟩
      unfold setLoopingPolicy
      rw [hw, b1]
      dsimp only
      rw [he, hl]
      simp
    · refine ⟨{ x0 with looping := effective cs (w.tracks a).clip p, duration := (w.tracks a).clip.finiteDuration (effective cs (w.tracks a).clip p) },
        ⟨x0, rfl, ?_⟩, b1, b2, b4, rfl, rfl⟩
      unfold setLoopingPolicy
      rw [hw, b1]
      dsimp only
      rw [he]
      simp [hl]

/-- The index of a time and the frames around it. -/
theorem samples_at (k : Interp.Clip) (l : Looping) (hl : l ≠ .asCompressed) (t : ℚ) (r : Interp.Rounding) (h1 : 1 ≤ k.numSamples)
    (hn : k.numSamples ≤ 2 ^ 23 - 4) (hr : 0 < k.sampleRate ∧ k.sampleRate < pow2 128) (ht : t < pow2 128) (x : ℚ)
    (hx : x = fmul (clampTime t (k.finiteDuration l)) k.sampleRate) :
    0 ≤ x ∧ IsFloat x ∧ x < 2 ^ 23 ∧
    (x < k.numSamples → samplesWithRate k.numSamples k.sampleRate (clampTime t (k.finiteDuration l)) r l =
      some (⌊x⌋.toNat, following (l == .wrap) k.numSamples ⌊x⌋.toNat, applyRounding (x - ⌊x⌋) r)) ∧
    ((k.numSamples : ℚ) ≤ x → l = .wrap ∧ samplesWithRate k.numSamples k.sampleRate (clampTime t (k.finiteDuration l)) r l =
      some (0, 0, applyRounding 0 r)) := by
  have hn' : k.numSamples + 4 ≤ 2 ^ 23 := by omega
  have hnq : (k.numSamples : ℚ) + 4 ≤ 2 ^ 23 := by exact_mod_cast hn'
  have hres : resolveLooping k l = l := by cases l <;> first | rfl | exact absurd rfl hl
  obtain ⟨b0, b1⟩ := time_rate_le (m := if l = .clamp then k.numSamples - 1 else k.numSamples) (t := t)
    (by split <;> omega) hr.1 hr.2 ht
  have hlo := C11.looped_eq (c := k) (p := l) h1 hn'
  rw [hres] at hlo
  have hfd : k.finiteDuration l = calculateFiniteDuration ((if l = .clamp then k.numSamples - 1 else k.numSamples) + 1) k.sampleRate := by
    unfold Interp.Clip.finiteDuration; rw [hlo]
  rw [← hfd] at b0 b1
  unfold samplesWithRate
  rw [← hx]
  unfold fmul at hx
  generalize clampTime t (k.finiteDuration l) * k.sampleRate = q at *
  have hx0 : 0 ≤ x := hx ▸ rnd_nonneg b0
  by_cases hlc : l = .clamp
  · subst hlc
    rw [if_pos rfl] at b1
    have hi := idx_lt (by omega) b1
    have hc : ((k.numSamples - 1 : Nat) : ℚ) = k.numSamples - 1 := by rw [Nat.cast_sub h1]; simp
    rw [hc] at hi b1
    have hf := isFloat_idx b0 (by linarith)
    rw [← hx] at hi hf
    have hlt : x < k.numSamples := by linarith
    refine ⟨hx0, hf, by linarith, fun _ => ?_, fun h => by linarith⟩
    rw [samples_clamp r h1 (by omega) hx0 hf hlt]
    have := floor_toNat_lt hx0 hlt
    have e : min (⌊x⌋.toNat + 1) (k.numSamples - 1) = following (Looping.clamp == Looping.wrap) k.numSamples ⌊x⌋.toNat := by
      unfold following
      rw [if_neg (show ¬ (Looping.clamp == Looping.wrap) = true by decide)]
      split <;> omega
    rw [e]
  · rw [if_neg hlc] at b1
    have hi := idx_lt (by omega) b1
    have hf := isFloat_idx b0 (by linarith)
    rw [← hx] at hi hf
    have hw : l = .wrap := by cases l <;> simp_all
    refine ⟨hx0, hf, by linarith, fun hlt => ?_, fun h => ⟨hw, ?_⟩⟩
    · rw [samples_wrap r hlc h1 (by omega) hx0 hf hlt]
      have e : (if k.numSamples ≤ ⌊x⌋.toNat + 1 then 0 else ⌊x⌋.toNat + 1) = following (l == .wrap) k.numSamples ⌊x⌋.toNat := by
        unfold following
        rw [hw, if_pos (show (Looping.wrap == Looping.wrap) = true by decide)]
        split <;> split <;> omega
      rw [e]
    · exact samples_wrap_end r hlc h1 (by omega) h (by norm_num at hnq ⊢; linarith)

/-- The first and the last frame are kept. -/
theorem kept_ends (h : Transform.ClipOk c) : C49.Kept c 0 ∧ C49.Kept c (c.numSamples - 1) := by
  have hp := Transform.segments_pos h
  constructor
  · obtain ⟨t, ht⟩ : ∃ t, c.segments[0]? = some t := ⟨_, List.getElem?_eq_getElem hp⟩
    have ok := h.segments 0 t ht
    exact ⟨0, 0, t, ht, ok.nonempty, rfl, fun hs => (ok.hard hs).2.1⟩
  · obtain ⟨t, ht⟩ : ∃ t, c.segments[c.segments.length - 1]? = some t := ⟨_, List.getElem?_eq_getElem (by omega)⟩
    have ok := h.segments _ t ht
    have hne := ok.nonempty
    refine ⟨_, t.numSamples - 1, t, ht, by omega, ?_, fun hs => (ok.hard hs).2.2.1⟩
    have h2 := C49.sum_take_succ (c.segments.map (·.numSamples)) (c.segments.length - 1) t.numSamples (by rw [List.getElem?_map, ht]; rfl)
    rw [List.map_take]
    rw [show c.segments.length - 1 + 1 = c.segments.length by omega, List.take_of_length_le (by rw [List.length_map])] at h2
    unfold ClipSource.numSamples
    omega

theorem blend_inside {kept : Nat → Prop} {count : Nat} {stripped : Bool} (hk0 : kept 0) (hkl : kept (count - 1))
    (hall : stripped = false → ∀ n, n < count → kept n) {loops : Bool} {r : Interp.Rounding} {X alpha : ℚ} {n0 n1 : Nat} (i0 : 0 ≤ X) (i1 : IsFloat X)
    (i2 : X < 2 ^ 23) (hX : X < count) (hn : count ≤ 2 ^ 23 - 4)
    (s5 : Nearest kept ⌊X⌋.toNat (following loops count ⌊X⌋.toNat) n0 n1)
    (s6 : alpha = if stripped then interpolationAlpha (fadd (applyRounding (X - ⌊X⌋) r) (ofNat ⌊X⌋.toNat)) n0 n1 .none
      else applyRounding (X - ⌊X⌋) r) : Blend kept count loops r X n0 n1 alpha := by
  have hlt := floor_toNat_lt i0 hX
  have hcast := floor_toNat_cast i0
  have hb := position_bounds (x := X) r
  have hu := applyRounding_unit (fract_unit (x := X)).1 (fract_unit (x := X)).2 r
  have facts : (⌊X⌋.toNat + 1 < count ∧ n0 ≤ ⌊X⌋.toNat ∧ ⌊X⌋.toNat + 1 ≤ n1) ∨
      (⌊X⌋.toNat + 1 = count ∧ n0 = ⌊X⌋.toNat ∧ (loops = true ∧ n1 = 0 ∨ n1 = ⌊X⌋.toNat)) := by
    have hb1 := s5.before.1
    have ha1 := s5.after.1
    have last : ⌊X⌋.toNat + 1 = count → n0 = ⌊X⌋.toNat := by
      intro hl
      by_contra hne
      exact s5.before.2.2 _ (by omega) (Nat.le_refl _) (by rw [← hl] at hkl; exact hkl)
    unfold following at ha1
    by_cases h1 : ⌊X⌋.toNat + 1 < count
    · rw [if_pos h1] at ha1
      exact Or.inl ⟨h1, hb1, ha1⟩
    · right
      refine ⟨by omega, last (by omega), ?_⟩
      have h3 := s5.after.2.2
      unfold following at h3
      rw [if_neg h1] at h3
      cases hl : loops with
      | true =>
        left
        refine ⟨rfl, ?_⟩
        rw [hl] at h3
        by_contra hne
        exact h3 0 (by simp) (by omega) hk0
      | false =>
        right
        rw [hl] at h3 ha1
        rw [if_neg h1] at ha1
        by_contra hne
        refine h3 ⌊X⌋.toNat (by simp) ?_ ?_
        · simp only [Bool.false_eq_true, if_false] at ha1; omega
        · have : count - 1 = ⌊X⌋.toNat := by omega
          rw [← this]; exact hkl
  have hn1lt : n1 < 2 ^ 24 := by
    by_contra hc
    refine s5.after.2.2 (count - 1) ?_ (by omega) hkl
    unfold following; split
    · omega
    · split <;> omega
  have hn0le := s5.before.1
  have hn0q : (n0 : ℚ) ≤ ⌊X⌋ := by rw [← hcast]; exact_mod_cast hn0le
  have hval : (n0 < n1 → alpha = rnd ((position r X - n0) / (n1 - n0))) ∧ (n1 < n0 → alpha = position r X - n0) ∧
      (n0 = n1 → (0 ≤ alpha ∧ alpha ≤ 1) ∧ (alpha = 0 ∨ alpha = position r X - ⌊X⌋)) := by
    cases hs : stripped with
    | true =>
      rw [hs, if_pos rfl, remap_eq r i0 i1 i2 n0 n1 hn0le hn1lt] at s6
      rw [s6]
      refine ⟨fun h => ?_, fun h => ?_, fun h => ?_⟩
      · rw [if_neg (by omega), if_pos h]
      · rw [if_neg (by omega), if_neg (by omega)]
      · rw [if_pos h]; exact ⟨by norm_num, Or.inl rfl⟩
    | false =>
      rw [hs, if_neg (by simp)] at s6
      have all := hall hs
      have e0 : n0 = ⌊X⌋.toNat := by
        by_contra hne
        exact s5.before.2.2 _ (by omega) (Nat.le_refl _) (all _ hlt)
      have hpos : alpha = position r X - n0 := by
        rw [s6, e0, hcast]; unfold position; ring
      refine ⟨fun hl => ?_, fun _ => hpos, fun _ => ⟨by rw [s6]; exact hu, Or.inr (by rw [hpos, e0, hcast])⟩⟩
      have e1 : n1 = n0 + 1 := by
        rcases facts with ⟨f1, f2, f3⟩ | ⟨f1, f2, f3⟩
        · by_contra hne
          refine s5.after.2.2 (⌊X⌋.toNat + 1) ?_ (by omega) (all _ f1)
          unfold following; rw [if_pos f1]
        · omega
      rw [hpos, e1]
      push_cast
      rw [add_sub_cancel_left, div_one]
      symm
      refine rnd_of_isFloat (isFloat_sub_nat (isFloat_position r i0 i1 ?_) n0 (by linarith [hb.1]) ?_)
      · have : (2 : ℚ) ^ 23 ≤ 2 ^ 24 - 1 := by norm_num
        linarith
      · have h1 : (⌊X⌋ : ℚ) ≤ X := Int.floor_le X
        have : (2 : ℚ) ^ 23 + 1 ≤ 2 ^ 24 := by norm_num
        linarith [hb.2]
  refine ⟨?_, fun _ => s5, hval.1, ?_, fun hge => by linarith, fun he _ => (hval.2.2 he).2⟩
  · rcases Nat.lt_trichotomy n0 n1 with hl | hl | hl
    · rw [hval.1 hl]
      have hd : (0 : ℚ) < n1 - n0 := by have : (n0 : ℚ) < n1 := by exact_mod_cast hl
                                        linarith
      have hle : position r X ≤ n1 := by
        have : ⌊X⌋.toNat + 1 ≤ n1 := by omega
        have : (⌊X⌋ : ℚ) + 1 ≤ n1 := by rw [← hcast]; exact_mod_cast this
        linarith [hb.2]
      constructor
      · exact rnd_nonneg (div_nonneg (by linarith [hb.1]) hd.le)
      · have h1 : (position r X - n0) / (n1 - n0) ≤ 1 := by rw [div_le_one hd]; linarith
        have := rnd_mono h1
        rwa [show rnd 1 = 1 by decide +kernel] at this
    · exact (hval.2.2 hl).1
    · rw [hval.2.1 hl]
      have : n0 = ⌊X⌋.toNat := by omega
      rw [this, hcast]
      constructor <;> linarith [hb.1, hb.2]
  · intro hl
    rcases facts with ⟨f1, f2, f3⟩ | ⟨f1, f2, f3⟩
    · omega
    · rcases f3 with ⟨f3, f4⟩ | f3
      · refine ⟨f3, f4, by omega, ?_, hval.2.1 hl⟩
        have := Int.floor_nonneg.mpr i0
        omega
      · omega

/-- What seek finds at a time, for a context bound to a database or not: `hfind` is what it finds for two key frames. -/
theorem at_time {kept : Nat → Prop} {count : Nat} {stripped : Bool} {k : Interp.Clip} (hcount : k.numSamples = count) (hk0 : kept 0) (hkl : kept (count - 1))
    (hall : stripped = false → ∀ n, n < count → kept n) (hr : 0 < k.sampleRate ∧ k.sampleRate < pow2 128) (hn1 : 1 ≤ count)
    (hn : count ≤ 2 ^ 23 - 4) (cs : Context.Settings) (hcl : cs.clampTimes = true) (w : World) (a : Nat) (db : Option Nat)
    (hv : checks cs w (w.tracks a) db = some true) (hk : (w.tracks a).clip = k) (htr : (w.tracks a).numTracks ≠ 0)
    (p : Looping) (t : ℚ) (ht : t < pow2 128) (r : Interp.Rounding) {P : TransformSeek → Nat → Nat → Prop}
    (hfind : ∀ k0 k1 al, Seek.Spec.KeyFramePair cs.wrapping count k0 k1 → ∃ c f0 f1 b n0 n1, seekClip cs w (w.tracks a) db = some c ∧
      Seek.seekKeyFrames (fun alpha k c0 c1 => interpolationAlpha (fadd alpha (ofNat k)) c0 c1 .none) cs.wrapping c k0 k1 al = some (f0, f1, b) ∧
      P ⟨f0, f1, b, db.bind fun d => (w.contexts d).bulkMedium, db.bind fun d => (w.contexts d).bulkLow⟩ n0 n1 ∧ Nearest kept k0 k1 n0 n1 ∧
      b = if stripped then interpolationAlpha (fadd al (ofNat k0)) n0 n1 .none else al) :
    ∃ x x' q n0 n1, C20.Fresh transformKind cs w a db p x ∧ Context.seek transformKind cs w x t r = some x' ∧ x'.seen = some q ∧ P q n0 n1 ∧
      Blend kept count (effective cs k p == .wrap) r
        (fmul (clampTime t (k.finiteDuration (effective cs k p))) k.sampleRate) n0 n1 q.alpha := by
  subst hcount
  obtain ⟨x, hx, x1, x2, x3, x4, x5⟩ := fresh_exists transformKind cs w a db (Or.inl rfl) p hv
  rw [hk] at x4 x5
  have hne := effective_ne cs k p
  have hwr : effective cs k p = .wrap → cs.wrapping = true := by
    unfold effective; split
    · next h => exact fun _ => h
    · intro h; cases h
  have heff : C20.eff cs x = effective cs k p := by
    unfold C20.eff; rw [x4]
    cases hw : cs.wrapping with
    | true => rfl
    | false => unfold effective; rw [hw]; rfl
  have htime : C20.usedTime cs x t = clampTime t (k.finiteDuration (effective cs k p)) := by
    unfold C20.usedTime; rw [hcl, x5, x4]; rfl
  obtain ⟨i0, i1, i2, i3, i4⟩ := samples_at k (effective cs k p) hne t r hn1 hn hr ht
    (fmul (clampTime t (k.finiteDuration (effective cs k p))) k.sampleRate) rfl
  have hnon : 0 ≤ clampTime t (k.finiteDuration (effective cs k p)) := C20.clampTime_nonneg _ hr.1 _ _
  have hseek : ∀ k0 k1 al,
      samplesWithRate k.numSamples k.sampleRate (clampTime t (k.finiteDuration (effective cs k p))) r
        (effective cs k p) = some (k0, k1, al) → Seek.Spec.KeyFramePair cs.wrapping k.numSamples k0 k1 →
      ∃ x' q n0 n1, Context.seek transformKind cs w x t r = some x' ∧ x'.seen = some q ∧ P q n0 n1 ∧ Nearest kept k0 k1 n0 n1 ∧
        q.alpha = if stripped then interpolationAlpha (fadd al (ofNat k0)) n0 n1 .none else al := by
    intro k0 k1 al hsam hkp
    obtain ⟨c, f0, f1, b, n0, n1, hclip, hsk, hP, hnear, hal⟩ := hfind k0 k1 al hkp
    refine ⟨{ x with sampleTime := C20.usedTime cs x t, rounding := r, seen := some ⟨f0, f1, b, db.bind fun d => (w.contexts d).bulkMedium, db.bind fun d => (w.contexts d).bulkLow⟩ }, _, n0, n1, ?_, rfl, hP, hnear, hal⟩
    rw [C20.seek_eq x1, if_neg (by show ¬ ((w.tracks a).numTracks == 0) = true; intro hz; exact htr (beq_iff_eq.1 hz)),
      if_neg (by rw [x3, htime]; rintro ⟨h, -⟩; linarith), heff, x2, htime]
    have hcomp : transformKind.compute cs w (w.tracks a) db (effective cs k p)
        (clampTime t (k.finiteDuration (effective cs k p))) r =
          some ⟨f0, f1, b, db.bind fun d => (w.contexts d).bulkMedium, db.bind fun d => (w.contexts d).bulkLow⟩ := by
      unfold transformKind
      dsimp only
      rw [hk]
      show ((samplesWithRate k.numSamples k.sampleRate _ r _).bind _) = _
      rw [hsam, Option.bind_some]
      dsimp only
      rw [hclip]
      simp only [Option.bind_eq_bind, Option.bind_some]
      rw [hsk]
      rfl
    rw [hcomp, Option.bind_some]
  have hL : (effective cs k p == .wrap) = true → cs.wrapping = true := fun h => hwr (beq_iff_eq.1 h)
  have i5 : (k.numSamples : ℚ) ≤ fmul (clampTime t (k.finiteDuration (effective cs k p))) k.sampleRate →
    (effective cs k p == .wrap) = true := fun h => by rw [(i4 h).1]; rfl
  generalize fmul (clampTime t (k.finiteDuration (effective cs k p))) k.sampleRate = X at *
  by_cases hX : X < k.numSamples
  · have hlt := floor_toNat_lt i0 hX
    have hcast := floor_toNat_cast i0
    obtain ⟨x', q, n0, n1, s1, s2, s4, s5, s6⟩ := hseek _ _ _ (i3 hX) (by
      refine ⟨hlt, ?_, ?_⟩
      · unfold following; split
        · assumption
        · split <;> omega
      · unfold following; split
        · exact Or.inr (Or.inl rfl)
        · split
          · next h => exact Or.inr (Or.inr ⟨hL h, rfl⟩)
          · exact Or.inl rfl)
    exact ⟨x, x', q, n0, n1, hx, s1, s2, s4, blend_inside hk0 hkl hall i0 i1 i2 hX hn s5 s6⟩
  · push Not at hX
    obtain ⟨x', q, n0, n1, s1, s2, s4, s5, s6⟩ := hseek _ _ _ (i4 hX).2 ⟨by omega, by omega, Or.inl rfl⟩
    have e0 : n0 = 0 := by have := s5.before.1; omega
    have e1 : n1 = 0 := by
      by_contra hne1
      exact s5.after.2.2 0 (Nat.le_refl _) (by omega) hk0
    subst e0; subst e1
    refine ⟨x, x', q, 0, 0, hx, s1, s2, s4, ⟨?_, fun h => by linarith, fun h => by omega, fun h => by omega,
      fun _ => ⟨i5 hX, rfl, rfl⟩, fun _ h => by linarith⟩⟩
    rw [s6]
    split
    · unfold interpolationAlpha; simp
    · exact applyRounding_unit le_rfl (by norm_num) r

/-- **Sampling at a time.** The buffer of a compressed clip is in memory at `a`. A context can be initialized with it, and for
every looping policy, time and rounding policy: seek succeeds, and the frames and the factor it finds are those of the index of
the time, which is the time (clamped to the clip) times the sample rate. The decompression functions read those frames. -/
theorem C50_sample_at_time (h : Compressed c e s src f m) (hr : 0 < ofBits f.sampleRate ∧ ofBits f.sampleRate < pow2 128)
    (hn : c.numSamples ≤ 2 ^ 23 - 4) (supported : Nat → Bool) (hv : supported 10 = true) (cs : Context.Settings) (hcl : cs.clampTimes = true)
    (w : World) (a : Nat) (ha : tracksOf supported m = some (w.tracks a)) (p : Looping) (t : ℚ) (ht : t < pow2 128) (r : Interp.Rounding)
    (perTrack : Bool) (writer : Transform.Writer)
    (hp : perTrack = true → ∀ i, i < c.bones.length → writer.rounding r i ≠ .perTrack) :
    ∃ x x' q pose n0 n1, C20.Fresh transformKind cs w a none p x ∧ Context.seek transformKind cs w x t r = some x' ∧ x'.seen = some q ∧
      poseContext m q perTrack r = some pose ∧ C49.Reads c pose writer perTrack r n0 n1 ∧
      Blend (C49.Kept c) c.numSamples (effective cs (clipOf c f) p == .wrap) r
        (fmul (clampTime t ((clipOf c f).finiteDuration (effective cs (clipOf c f) p))) (ofBits f.sampleRate)) n0 n1 q.alpha := by
  obtain ⟨tr, starts, h1, h2, h3, h4, h5, h6, h7, h8⟩ := tracks_read h supported
  rw [ha, Option.some.injEq] at h1
  subst h1
  have hb := h.clip.bones
  have hseg := Transform.segments_le h.clip
  have hsp := Transform.segments_pos h.clip
  obtain ⟨hk0, hkl⟩ := kept_ends h.clip
  obtain ⟨x, x', q, n0, n1, a1, a2, a3, ⟨pose, a4, a5⟩, a6⟩ := at_time (k := clipOf c f) (count := c.numSamples) (stripped := c.stripped) rfl hk0 hkl (fun hs => C49.kept_all h hs) hr
    (by omega) hn cs hcl w a none (by unfold checks; simp [h2, h3, hv]) h5 (by omega) p t ht r
    (P := fun q n0 n1 => ∃ pose, poseContext m q perTrack r = some pose ∧ C49.Reads c pose writer perTrack r n0 n1) (by
      intro k0 k1 al hk
      obtain ⟨pose, n0, n1, hctx, hn0, hn1', hre⟩ := C49.C49_round_trip h (fun alpha k c0 c1 => interpolationAlpha (fadd alpha (ofNat k)) c0 c1 .none)
        cs.wrapping k0 k1 hk al perTrack r writer hp
      unfold Transform.seekContext at hctx
      rw [h8, Option.bind_some, Option.bind_eq_some_iff] at hctx
      obtain ⟨⟨f0, f1, b⟩, hsk, hop⟩ := hctx
      rw [Option.map_eq_some_iff] at hop
      obtain ⟨y, hy, he⟩ := hop
      rw [Prod.mk.injEq] at he
      obtain ⟨rfl, he⟩ := he
      dsimp only at hy he
      refine ⟨_, f0, f1, b, n0, n1, ?_, hsk, ⟨y, hy, hre⟩, ⟨hn0, hn1'⟩, he⟩
      rw [← h7]
      unfold seekClip
      rw [h6]
      simp)
  exact ⟨x, x', q, pose, n0, n1, a1, a2, a3, a4, a5, a6⟩

theorem blend_accuracy {kept : Nat → Prop} {count : Nat} (hkl : kept (count - 1)) {loops : Bool} {x rate time alpha : ℚ} {n0 n1 : Nat} (hb : Blend kept count loops .none x n0 n1 alpha) (hx : x = fmul time rate)
    (ht : 0 ≤ time * rate) (h01 : n0 < n1) :
    |(n0 + alpha * (n1 - n0)) - time * rate| ≤ (time * rate + (n1 - n0)) / 2 ^ 24 + (n1 - n0 + 1) * pow2 (-150) := by
  have hpos : position .none x = x := by unfold position; rw [applyRounding]; ring
  have hd : (0 : ℚ) < n1 - n0 := by have : (n0 : ℚ) < n1 := by exact_mod_cast h01
                                    linarith
  have h0 : (0 : ℚ) ≤ x := hx ▸ rnd_nonneg ht
  have hal := hb.factor h01
  rw [hpos] at hal
  have hns : x < count := by
    by_contra h
    have := hb.ends (not_lt.1 h)
    omega
  have near := hb.inside hns
  have hcast := floor_toNat_cast h0
  have hn0 : (n0 : ℚ) ≤ ⌊x⌋ := by rw [← hcast]; exact_mod_cast near.before.1
  have hfl := Int.floor_le x
  have hlt1 := Int.lt_floor_add_one x
  have hfn : ⌊x⌋.toNat < count := floor_toNat_lt h0 hns
  -- the ratio is at most one
  have hle : x ≤ n1 := by
    have h2 := near.after
    unfold following at h2
    by_cases h3 : ⌊x⌋.toNat + 1 < count
    · rw [if_pos h3] at h2
      have : (⌊x⌋ : ℚ) + 1 ≤ n1 := by rw [← hcast]; exact_mod_cast h2.1
      linarith
    · exfalso
      have hn1 : n1 < count := by
        by_contra hc
        refine h2.2.2 (count - 1) ?_ (by omega) hkl
        rw [if_neg h3]; split <;> omega
      have hk : ⌊x⌋.toNat = count - 1 := by omega
      -- the last frame comes before n1 < count, so n0 < n1 ≤ last
      exact near.before.2.2 n1 h01 (by omega) h2.2.1
  have hr0 : 0 ≤ (x - n0) / (n1 - n0) := div_nonneg (by linarith) hd.le
  have hr1 : (x - n0) / (n1 - n0) ≤ 1 := by rw [div_le_one hd]; linarith
  have e1 := rnd_err ((x - n0) / (n1 - n0))
  rw [← hal, abs_of_nonneg hr0] at e1
  have e2 := rnd_err (time * rate)
  have e3 : x = rnd (time * rate) := hx
  rw [← e3, abs_of_nonneg ht] at e2
  have hp24 : pow2 (-24) = 1 / 2 ^ 24 := by decide +kernel
  rw [hp24] at e1 e2
  have hp := pow2_pos (-150)
  have key : |(n0 + alpha * (n1 - n0)) - x| ≤ (n1 - n0) * (1 / 2 ^ 24 + pow2 (-150)) := by
    have : (n0 + alpha * (n1 - n0)) - x = (n1 - n0) * (alpha - (x - n0) / (n1 - n0)) := by field_simp; ring
    rw [this, abs_mul, abs_of_pos hd]
    refine mul_le_mul_of_nonneg_left (e1.trans ?_) hd.le
    have : 1 / 2 ^ 24 * ((x - n0) / (n1 - n0)) ≤ 1 / 2 ^ 24 * 1 := mul_le_mul_of_nonneg_left hr1 (by norm_num)
    linarith
  have tri : |(n0 + alpha * (n1 - n0)) - time * rate| ≤ |(n0 + alpha * (n1 - n0)) - x| + |x - time * rate| := abs_sub_le _ _ _
  have : (n1 - n0 : ℚ) * (1 / 2 ^ 24 + pow2 (-150)) + (1 / 2 ^ 24 * (time * rate) + pow2 (-150)) =
      (time * rate + (n1 - n0)) / 2 ^ 24 + (n1 - n0 + 1) * pow2 (-150) := by ring
  linarith

/-- The blend is at the time: the index the factor stands for is the time in frames, up to float rounding. -/
theorem C50_accuracy (hc : Transform.ClipOk c) {loops : Bool} {x rate time alpha : ℚ} {n0 n1 : Nat} (hb : Blend (C49.Kept c) c.numSamples loops .none x n0 n1 alpha)
    (hx : x = fmul time rate) (ht : 0 ≤ time * rate) (h01 : n0 < n1) :
    |(n0 + alpha * (n1 - n0)) - time * rate| ≤ (time * rate + (n1 - n0)) / 2 ^ 24 + (n1 - n0 + 1) * pow2 (-150) :=
  blend_accuracy (kept_ends hc).2 hb hx ht h01

/-! ### The hypotheses are met -/

/-- The clip of C49: 6 frames at 30 Hz, frame 1 was stripped. -/
example : (0 < ofBits C49.exFlags.sampleRate ∧ ofBits C49.exFlags.sampleRate < pow2 128) ∧ C49.exClip.numSamples ≤ 2 ^ 23 - 4 := by
  refine ⟨⟨by decide +kernel, by decide +kernel⟩, by decide⟩

/-- Sampling it at 0.05 s, which is between frames 1 and 2: frames 0 and 2 are blended with factor 3/4. -/
example : ((C49.exClip.compress ⟨false, false⟩ ⟨true, true, true, true, true⟩ C29.exSource C49.exFlags).bind fun m =>
    (tracksOf (fun v => v == 10) m).bind fun t =>
    (transformKind.compute ⟨false, true, true, true⟩ ⟨fun _ => t, fun _ => ⟨0, false, false, 0, 0⟩, fun _ => ⟨none, 0, none, none, []⟩⟩ t none .clamp
      (rnd (1 / 20)) .none).map fun q => (q.frame0.clipIndex, q.frame1.clipIndex, q.alpha)) = some (0, 2, 3 / 4) := by
  decide +kernel

end Acl.C50
