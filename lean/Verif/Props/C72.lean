import Verif.Context.Convert
import Verif.Props.C50
import Verif.Props.C51
import Verif.Props.C37
import Verif.Props.C55
import Verif.Props.C64
/-!
C72: converting compressed transform tracks back to raw tracks recovers every key frame. convert.h: convert_track_list.
-/
namespace Acl.C72
open Acl.F32 Acl.Interp Acl.ScalarPacking Acl.Headers Acl.Transform Acl.Convert Acl.Context

/-! ### Rounding -/

/-- Rounding what is rounded does nothing, also when it is out of range. -/
theorem rnd_idem (x : ℚ) : rnd (rnd x) = rnd x := by
  wlog h0 : 0 ≤ x with H
  · have h1 := H (-x) (by push Not at h0; linarith)
    rw [rnd_neg, rnd_neg] at h1
    linarith
  have hge := expo_ge x
  have hle : rne (x / ulp x) ≤ 2 ^ 24 := by
    have e : pow2 (expo x + 1) = ((2 ^ 24 : Int) : ℚ) * ulp x := by
      unfold ulp
      rw [show expo x + 1 = 24 + (expo x - 23) from by ring, pow2_add]
      congr 1
    have h1 : x / ulp x ≤ ((2 ^ 24 : Int) : ℚ) := by
      rw [div_le_iff₀ (ulp_pos x), ← e]; exact (lt_pow2_expo h0).le
    have h2 := rne_mono h1
    rwa [rne_int] at h2
  have hz : 0 ≤ rne (x / ulp x) := rne_nonneg (div_nonneg h0 (ulp_pos x).le)
  have hr : rnd x = rne (x / ulp x) * pow2 (expo x - 23) := by rw [rnd_of_nonneg h0]; rfl
  rcases hle.eq_or_lt with heq | hlt
  · have e2 : rnd x = ((2 ^ 23 : Int) : ℚ) * pow2 (expo x - 22) := by
      rw [hr, heq, show expo x - 22 = expo x - 23 + 1 from by ring, pow2_succ]
      push_cast; ring
    rw [e2]
    exact rnd_exact (by decide) (by omega)
  · rw [hr]
    exact rnd_exact (by rw [abs_of_nonneg hz]; exact hlt) (by omega)

theorem rnd_ofBits (b : BitVec 32) : rnd (ofBits b) = ofBits b := by
  have hmag : ∀ k, rnd (ofMag k) = ofMag k := by
    intro k
    have hk : k % 2 ^ 23 < 2 ^ 23 := Nat.mod_lt _ (by norm_num)
    unfold ofMag
    split
    · have := rnd_exact (m := ((k % 2 ^ 23 : Nat) : Int)) (e := -149) (by rw [abs_of_nonneg (by positivity)]; norm_cast; omega) (by omega)
      rw [Int.cast_natCast] at this
      exact this
    · have := rnd_exact (m := ((2 ^ 23 + k % 2 ^ 23 : Nat) : Int)) (e := (k / 2 ^ 23 : Nat) - 150) (by rw [abs_of_nonneg (by positivity)]; norm_cast; omega)
        (by omega)
      rw [Int.cast_natCast] at this
      exact this
  unfold ofBits
  split
  · exact hmag _
  · rw [rnd_neg, hmag]

theorem rnd_mulAdd (fused : Bool) (a b c : ℚ) : rnd (Lerp.mulAdd fused a b c) = Lerp.mulAdd fused a b c := by
  unfold Lerp.mulAdd fadd
  split <;> exact rnd_idem _

theorem rnd_unpack (v n : Nat) : rnd (unpackUnsigned v n) = unpackUnsigned v n := by
  unfold unpackUnsigned fmul
  exact rnd_idem _

theorem rnd_evalSample (fused : Bool) (lane : Axis) (s : Sample) : rnd (evalSample fused lane s) = evalSample fused lane s := by
  unfold evalSample
  cases s.clip with
  | some c => exact rnd_mulAdd _ _ _ _
  | none =>
    unfold evalClip
    dsimp only
    cases s.segment with
    | some g => exact rnd_mulAdd _ _ _ _
    | none =>
      unfold evalSegment evalRaw
      dsimp only
      split
      · exact rnd_unpack _ _
      · exact rnd_unpack _ _
      · exact rnd_ofBits _
      · exact rnd_ofBits _

theorem lerp_start (fused : Bool) {s e : ℚ} (h : rnd s = s) : Lerp.lerp fused s e 0 = s := by
  cases fused <;> simp [Lerp.lerp, Lerp.mulAdd, Lerp.negMulSub, fadd, fsub, fmul, h, rnd_zero]

theorem lerp_end (fused : Bool) {s e : ℚ} (h' : rnd s = s) (h : rnd e = e) : Lerp.lerp fused s e 1 = e := by
  cases fused <;> simp [Lerp.lerp, Lerp.mulAdd, Lerp.negMulSub, fadd, fsub, fmul, h, h', rnd_zero]

/-! ### The times of the samples -/

theorem fdiv_mono {a b r : ℚ} (hr : 0 < r) (h : a ≤ b) : fdiv a r ≤ fdiv b r :=
  rnd_mono (div_le_div_of_nonneg_right h hr.le)

/-- The time of a sample is within the clip. -/
theorem time_eq (k : Interp.Clip) (l : Looping) {i : Nat} (hi : i < k.numSamples) (hn : k.numSamples < 2 ^ 24 - 1) (hr : 0 < k.sampleRate)
    (hd : k.finiteDuration l ≠ .inf) :
    Convert.sampleTime i k.sampleRate (k.finiteDuration l) = fdiv i k.sampleRate ∧ fdiv (i : ℚ) k.sampleRate < pow2 128 ∧
      clampTime (fdiv i k.sampleRate) (k.finiteDuration l) = fdiv i k.sampleRate := by
  have h0 : 0 ≤ fdiv (i : ℚ) k.sampleRate := rnd_nonneg (by positivity)
  suffices ∃ d, k.finiteDuration l = .fin d ∧ fdiv (i : ℚ) k.sampleRate ≤ d ∧ d < pow2 128 by
    obtain ⟨d, e, hle, hlt⟩ := this
    rw [e]
    unfold Convert.sampleTime clampTime
    dsimp only
    rw [ofNat_eq (by omega)]
    exact ⟨min_eq_left hle, lt_of_le_of_lt hle hlt, by rw [max_eq_left h0, min_eq_left hle]⟩
  obtain ⟨m, hm, hm2, hin⟩ : ∃ m, loopedNumSamples k l = m + 1 ∧ m < 2 ^ 24 ∧ i ≤ m := by
    unfold loopedNumSamples
    split
    · exact ⟨k.numSamples, Nat.mod_eq_of_lt (by omega), by omega, by omega⟩
    · exact ⟨k.numSamples - 1, by omega, by omega, by omega⟩
  unfold Clip.finiteDuration calculateFiniteDuration at hd ⊢
  rw [hm] at hd ⊢
  by_cases hz : m = 0
  · subst hz
    refine ⟨0, rfl, ?_, pow2_pos _⟩
    have : i = 0 := by omega
    subst this
    unfold fdiv
    simp [rnd_zero]
  · rw [if_neg (by omega), Nat.add_sub_cancel, ofNat_eq hm2] at hd ⊢
    unfold fdivInf at hd ⊢
    by_cases hf : fdiv (m : ℚ) k.sampleRate < pow2 128
    · rw [if_pos hf]
      exact ⟨_, rfl, fdiv_mono hr (by exact_mod_cast hin), hf⟩
    · rw [if_neg hf] at hd
      exact absurd rfl hd

/-- The index of the time of a sample is that sample, or a little before. -/
theorem index_near {i : Nat} (hi : i < 2 ^ 21) {r : ℚ} (hr : 0 < r) (hr2 : r < pow2 128) : |fmul (fdiv i r) r - i| ≤ 3 / 8 := by
  have h1 := div_mul_err (m := i) hr hr2
  have hi' : (i : ℚ) + 1 ≤ 2 ^ 21 := by exact_mod_cast hi
  have h0 : 0 ≤ fdiv (i : ℚ) r * r := mul_nonneg (rnd_nonneg (by positivity)) hr.le
  have h2 : (i : ℚ) / 2 ^ 24 + 1 / 2 ^ 22 ≤ 1 / 4 := by
    rw [div_add_div _ _ (by norm_num) (by norm_num), div_le_div_iff₀ (by norm_num) (by norm_num)]
    norm_num at hi' ⊢
    linarith
  have h3 := rnd_err_lt (k := 22) (by norm_num) h0 (by
    have := (abs_le.mp h1).2
    have e : pow2 22 = 2 ^ 22 := by decide +kernel
    rw [e]
    norm_num at hi' h2 this ⊢
    linarith)
  have e : pow2 (22 - 25) = 1 / 8 := by decide +kernel
  rw [e] at h3
  unfold fmul
  have := abs_add_le (rnd (fdiv (i : ℚ) r * r) - fdiv (i : ℚ) r * r) (fdiv (i : ℚ) r * r - i)
  rw [sub_add_sub_cancel] at this
  linarith

theorem position_near {x : ℚ} (h0 : 0 ≤ x) {i : Nat} (h : |x - i| ≤ 3 / 8) : C50.position .nearest x = i ∧ (⌊x⌋.toNat = i ∨ ⌊x⌋.toNat + 1 = i) := by
  obtain ⟨h1, h2⟩ := abs_le.mp h
  have hx0 : (0 : Int) ≤ ⌊x⌋ := Int.floor_nonneg.mpr h0
  unfold C50.position
  by_cases hlt : x < i
  · have hf : ⌊x⌋ = (i : Int) - 1 := by
      rw [Int.floor_eq_iff]; push_cast; constructor <;> linarith
    rw [hf, nearest_ge_half (by push_cast; linarith) (by push_cast; linarith)]
    push_cast
    exact ⟨by ring, Or.inr (by omega)⟩
  · push Not at hlt
    have hf : ⌊x⌋ = (i : Int) := by
      rw [Int.floor_eq_iff]; push_cast; constructor <;> linarith
    rw [hf, nearest_below (by push_cast; linarith) (by push_cast; norm_num; linarith)]
    push_cast
    exact ⟨by ring, Or.inl (by omega)⟩

/-- Specification: reading frames `n0` and `n1` with factor `alpha` gives frame `i`: one of the two is frame `i` and the factor picks it, or frame `i` was
stripped, the two are the nearest ones that were kept, and the factor is where it is between them. -/
structure AtFrame (kept : Nat → Prop) (i n0 n1 : Nat) (alpha : ℚ) : Prop where
  kept0 : kept n0
  kept1 : kept n1
  picked : kept i → (n0 = i ∧ alpha = 0) ∨ (n1 = i ∧ alpha = 1)
  between : ¬ kept i → n0 < i ∧ i < n1 ∧ (∀ n, n0 < n → n < n1 → ¬ kept n) ∧ alpha = rnd (((i : ℚ) - n0) / (n1 - n0))

theorem at_frame {kept : Nat → Prop} {count : Nat} {loops : Bool} {x alpha : ℚ} {n0 n1 i : Nat} (hkl : kept (count - 1)) (hi : i < count) (h0 : 0 ≤ x)
    (hx : |x - i| ≤ 3 / 8) (hb : C50.Blend kept count loops .nearest x n0 n1 alpha) : AtFrame kept i n0 n1 alpha := by
  obtain ⟨hp, hk⟩ := position_near h0 hx
  have hic : (i : ℚ) + 1 ≤ count := by exact_mod_cast hi
  have hxc : x < count := by have := (abs_le.mp hx).2; linarith
  have hin := hb.inside hxc
  obtain ⟨a1, a2, a3⟩ := hin.before
  obtain ⟨b1, b2, b3⟩ := hin.after
  have hfac := hb.factor
  have haround := hb.around
  have hsame := hb.same
  rw [hp] at hfac haround hsame
  have hfl : (⌊x⌋ : ℚ) = (⌊x⌋.toNat : ℚ) := by
    have : (0 : Int) ≤ ⌊x⌋ := Int.floor_nonneg.mpr h0
    have e : ((⌊x⌋.toNat : Int)) = ⌊x⌋ := Int.toNat_of_nonneg this
    exact_mod_cast e.symm
  refine ⟨a2, b2, ?_, ?_⟩
  · intro hki
    rcases hk with hk | hk
    · rw [hk] at a1 a3 hfl
      have e0 : n0 = i := by
        by_contra hne
        exact a3 i (by omega) le_rfl hki
      left
      refine ⟨e0, ?_⟩
      subst e0
      rcases Nat.lt_trichotomy n0 n1 with hl | hl | hl
      · rw [hfac hl, sub_self, zero_div, rnd_zero]
      · rcases hsame hl hxc with h | h
        · exact h
        · rw [h, hfl, sub_self]
      · rw [(haround hl).2.2.2.2, sub_self]
    · have hfo : C50.following loops count ⌊x⌋.toNat = i := by
        unfold C50.following
        rw [if_pos (by omega), hk]
      rw [hfo] at b1 b3
      have e1 : n1 = i := by
        by_contra hne
        exact b3 i le_rfl (by omega) hki
      right
      refine ⟨e1, ?_⟩
      subst e1
      have hl : n0 < n1 := by omega
      rw [hfac hl]
      have : (n0 : ℚ) < n1 := by exact_mod_cast hl
      rw [div_self (by linarith)]
      have := rnd_nat (n := 1) (by norm_num)
      simpa using this
  · intro hki
    have hne0 : n0 ≠ i := fun h => hki (h ▸ a2)
    have hne1 : n1 ≠ i := fun h => hki (h ▸ b2)
    have hlast : i + 1 < count := by
      by_contra hc
      exact hki ((show count - 1 = i by omega) ▸ hkl)
    have hfo : C50.following loops count ⌊x⌋.toNat = ⌊x⌋.toNat + 1 := by
      unfold C50.following
      rw [if_pos (by omega)]
    rw [hfo] at b1 b3
    have h01 : n0 < i ∧ i < n1 := by omega
    refine ⟨h01.1, h01.2, ?_, hfac (by omega)⟩
    intro n hn0 hn1 hk'
    by_cases hle : n ≤ ⌊x⌋.toNat
    · exact a3 n hn0 hle hk'
    · exact b3 n (by omega) hn1 hk'

/-! ### Seeking with the same context -/

variable {c : ClipSource} {e : Meta.Extra} {s : Meta.Settings} {src : Meta.Source} {f : ClipFlags} {m : Bytes}

/-- The looping policy of the clip -/
def policyOf (f : ClipFlags) : Looping := if f.wrapOptimized then .wrap else .clamp

theorem policyOf_ne (f : ClipFlags) : policyOf f ≠ .asCompressed := by unfold policyOf; split <;> simp

theorem effective_policy (c : ClipSource) (f : ClipFlags) : C50.effective settings (C50.clipOf c f) (policyOf f) = policyOf f := by
  unfold C50.effective policyOf
  cases f.wrapOptimized <;> rfl

/-- What is known of the context between two samples -/
structure Bound (w : World) (a : Nat) (c : ClipSource) (f : ClipFlags) (x : Ctx TransformSeek) : Prop where
  tracks : x.tracks = some a
  db : x.db = none
  looping : x.looping = policyOf f
  duration : x.duration = (C50.clipOf c f).finiteDuration (policyOf f)
  held : x.sampleTime = -1 ∨ ∃ q, x.seen = some q ∧
    transformKind.compute settings w (w.tracks a) none (policyOf f) x.sampleTime x.rounding = some q

/-- What is asked of the clip: a sample rate, a duration that is finite, at most 2^21 samples. -/
structure Sampled (c : ClipSource) (f : ClipFlags) : Prop where
  rate : 0 < ofBits f.sampleRate ∧ ofBits f.sampleRate < pow2 128
  samples : c.numSamples ≤ 2 ^ 21
  duration : (C50.clipOf c f).finiteDuration (policyOf f) ≠ .inf

theorem compute_at (h : Compressed c e s src f m) (hs : Sampled c f) {supported : Nat → Bool} (hv : supported 10 = true) {w : World} {a : Nat}
    (ha : tracksOf supported m = some (w.tracks a)) {i : Nat} (hi : i < c.numSamples) :
    transformKind.isEmpty (w.tracks a) = false ∧
    ∃ q pose n0 n1, transformKind.compute settings w (w.tracks a) none (policyOf f) (fdiv i (ofBits f.sampleRate)) .nearest = some q ∧
      poseContext m q false .nearest = some pose ∧ C49.Reads c pose debugWriter false .nearest n0 n1 ∧ AtFrame (C49.Kept c) i n0 n1 q.alpha := by
  have hn := hs.samples
  have hpow : 2 ^ 21 ≤ 2 ^ 23 - 4 := by norm_num
  have hpow2 : 2 ^ 21 < 2 ^ 24 - 1 := by norm_num
  obtain ⟨-, t2, t3⟩ := time_eq (C50.clipOf c f) (policyOf f) (i := i) hi (show c.numSamples < _ by omega) hs.rate.1 hs.duration
  obtain ⟨x, x', q, pose, n0, n1, h1, h2, h3, h4, h5, h6⟩ := C50.C50_sample_at_time h hs.rate (by omega) supported hv settings rfl w a ha
    (policyOf f) (fdiv i (ofBits f.sampleRate)) t2 .nearest false debugWriter (by simp)
  obtain ⟨f1, f2, f3, f4, f5⟩ := C20.fresh_fields h1 (policyOf_ne f) (by simp [settings])
  obtain ⟨tr, -, g1, -, -, -, g5, -⟩ := C50.tracks_read h supported
  rw [ha, Option.some.injEq] at g1
  subst g1
  rw [g5] at f5
  rw [effective_policy] at h6
  have e : C20.usedTime settings x (fdiv i (ofBits f.sampleRate)) = fdiv i (ofBits f.sampleRate) := by
    unfold C20.usedTime
    rw [f5]
    exact t3
  have e0 : 0 ≤ fdiv (i : ℚ) (ofBits f.sampleRate) := rnd_nonneg (div_nonneg (by positivity) hs.rate.1.le)
  rcases C20.seek_cases f1 h2 with ⟨hx, hc⟩ | ⟨he, hc, q', hq, hx⟩
  · exfalso
    rcases hc with hc | ⟨-, hc, -⟩
    · obtain ⟨f0, i0, i1⟩ := h1
      rw [hx] at h3
      have hseen : x.seen = none := by
        rcases C20.init_cases i0 with ⟨hb, -⟩ | ⟨-, hb⟩
        · cases hb
        unfold Context.bind at hb
        simp only [] at hb
        split at hb
        · simp at hb
        simp only [Prod.mk.injEq, and_true] at hb
        subst hb
        unfold setLoopingPolicy at i1
        split at i1
        · rw [Option.some.injEq] at i1; subst i1; rfl
        · dsimp only at i1
          split at i1 <;> split at i1 <;> split at i1 <;> (rw [Option.some.injEq] at i1; subst i1; rfl)
      rw [hseen] at h3
      cases h3
    · rw [f3, e] at hc
      linarith
  · subst hx
    simp only [Option.some.injEq] at h3
    subst h3
    rw [f2, e] at hq
    have hL : C20.eff settings x = policyOf f := by unfold C20.eff; rw [f4]; rfl
    rw [hL] at hq
    refine ⟨he, q', pose, n0, n1, hq, h4, h5, ?_⟩
    have h6' := h6
    rw [show (C50.clipOf c f).finiteDuration (policyOf f) = (C50.clipOf c f).finiteDuration (policyOf f) from rfl] at h6'
    have e' : clampTime (fdiv i (ofBits f.sampleRate)) ((C50.clipOf c f).finiteDuration (policyOf f)) = fdiv i (ofBits f.sampleRate) := t3
    rw [e'] at h6'
    exact at_frame (C50.kept_ends h.clip).2 hi (rnd_nonneg (mul_nonneg e0 hs.rate.1.le)) (index_near (by omega) hs.rate.1 hs.rate.2) h6'

theorem seek_at {w : World} {a : Nat} {x : Ctx TransformSeek} (hb : Bound w a c f x) (hs : Sampled c f) {i : Nat} (hi : i < c.numSamples) {q : TransformSeek}
    (he : transformKind.isEmpty (w.tracks a) = false)
    (hq : transformKind.compute settings w (w.tracks a) none (policyOf f) (fdiv i (ofBits f.sampleRate)) .nearest = some q) :
    ∃ x', Context.seek transformKind settings w x (Convert.sampleTime i (ofBits f.sampleRate) ((C50.clipOf c f).finiteDuration (policyOf f))) .nearest = some x' ∧
      x'.seen = some q ∧ Bound w a c f x' := by
  have hpow2 : 2 ^ 21 < 2 ^ 24 - 1 := by norm_num
  have hn := hs.samples
  obtain ⟨t1, t2, t3⟩ := time_eq (C50.clipOf c f) (policyOf f) (i := i) hi (show c.numSamples < _ by omega) hs.rate.1 hs.duration
  have e0 : 0 ≤ fdiv (i : ℚ) (ofBits f.sampleRate) := rnd_nonneg (div_nonneg (by positivity) hs.rate.1.le)
  have t1' : Convert.sampleTime i (ofBits f.sampleRate) ((C50.clipOf c f).finiteDuration (policyOf f)) = fdiv i (ofBits f.sampleRate) := t1
  rw [t1', C20.seek_eq hb.tracks, he, if_neg (by simp)]
  have e : C20.usedTime settings x (fdiv i (ofBits f.sampleRate)) = fdiv i (ofBits f.sampleRate) := by
    unfold C20.usedTime
    rw [hb.duration]
    exact t3
  have hL : C20.eff settings x = policyOf f := by unfold C20.eff; rw [hb.looping]; rfl
  rw [e, hL, hb.db]
  by_cases hc : x.sampleTime = fdiv i (ofBits f.sampleRate) ∧ x.rounding = .nearest
  · rw [if_pos hc]
    refine ⟨x, rfl, ?_, hb⟩
    rcases hb.held with hh | ⟨q', h1, h2⟩
    · rw [hh] at hc; linarith [hc.1]
    · rw [hc.1, hc.2, hq] at h2
      rw [h1, ← h2]
  · rw [if_neg hc, hq, Option.bind_some]
    exact ⟨_, rfl, rfl, ⟨hb.tracks, rfl, hb.looping, hb.duration, Or.inr ⟨q, rfl, hq⟩⟩⟩

/-! ### The buffer of the writer -/

theorem foldl_write (alpha : ℚ) (ev : List Event) (b : Buffer) (kind : Transform.Kind) (t : Nat) :
    (ev.foldl (Buffer.write alpha) b) kind t = match (ev.filter fun e => e.kind = kind ∧ e.track = t).getLast? with
      | some e => .written alpha e.value
      | none => b kind t := by
  induction ev generalizing b with
  | nil => rfl
  | cons x r ih =>
    rw [List.foldl_cons, ih]
    by_cases hx : x.kind = kind ∧ x.track = t
    · rw [List.filter_cons_of_pos (by simpa using hx)]
      cases hr : (r.filter fun e => e.kind = kind ∧ e.track = t) with
      | nil => simp [Buffer.write, hx]
      | cons y ys =>
        rw [List.getLast?_cons_cons]
        obtain ⟨z, hz⟩ := List.getLast?_isSome.mpr (show (y :: ys) ≠ [] by simp) |> Option.isSome_iff_exists.mp
        rw [hz]
    · rw [List.filter_cons_of_neg (by simpa using hx)]
      split
      · rfl
      · unfold Buffer.write
        rw [if_neg hx]

theorem initial_get (descs : List Meta.TransformDesc) (h : ∀ (i : Nat) (d : Meta.TransformDesc), descs[i]? = some d → d.outputIndex = i) {t : Nat} {d : Meta.TransformDesc}
    (hd : descs[t]? = some d) (kind : Transform.Kind) : initialBuffer descs kind t = .default (defaultBits d kind) := by
  have key : ∀ (l : List Meta.TransformDesc) (base : Nat) (b : Buffer), (∀ (i : Nat) (d : Meta.TransformDesc), l[i]? = some d → d.outputIndex = base + i) → ∀ t,
      (l.foldl (fun (b : Buffer) (d : Meta.TransformDesc) kind t => if t = d.outputIndex then .default (defaultBits d kind) else b kind t) b) kind t =
        if base ≤ t then (match l[t - base]? with | some d => .default (defaultBits d kind) | none => b kind t) else b kind t := by
    intro l
    induction l with
    | nil => intro base b _ t; simp
    | cons x r ih =>
      intro base b hl t
      rw [List.foldl_cons, ih (base + 1) _ (fun i d hi => by have := hl (i + 1) d (by simpa using hi); omega)]
      have hx := hl 0 x rfl
      rw [Nat.add_zero] at hx
      by_cases h1 : base + 1 ≤ t
      · rw [if_pos h1, if_pos (show base ≤ t by omega)]
        rw [show t - base = (t - (base + 1)) + 1 by omega, List.getElem?_cons_succ]
        split
        · rfl
        · rw [if_neg (show ¬ t = x.outputIndex by omega)]
      · rw [if_neg h1]
        by_cases h2 : base ≤ t
        · have : t = base := by omega
          subst this
          rw [if_pos le_rfl, Nat.sub_self, if_pos hx.symm]
          rfl
        · rw [if_neg h2, if_neg (show ¬ t = x.outputIndex by omega)]
  unfold initialBuffer
  rw [key descs 0 _ (fun i d hi => by rw [h i d hi]; omega) t, if_pos (Nat.zero_le _), Nat.sub_zero, hd]

/-! ### All samples -/

/-- Specification: a sub-track that is the default -/
def IsDefault (c : ClipSource) (b : Bone) (kind : Transform.Kind) : Prop :=
  ((b.flags kind).isDefault || (kind = .scale && !c.hasScale)) = true

instance (c : ClipSource) (b : Bone) (kind : Transform.Kind) : Decidable (IsDefault c b kind) := by unfold IsDefault; infer_instance

/-- Specification: the value of a constant sub-track -/
def constantOf (c : ClipSource) (b : Bone) : Transform.Kind → Value
  | .rotation => .rotation (C16.asLoaded c.rotationFormat b.rotation)
  | kind => .vector (b.vector kind)

/-- Specification: sample `i` of a sub-track of the raw list: the default of the description, the constant, or what the compressor kept at frame `i`. -/
def SampledAs (c : ClipSource) (b : Bone) (kind : Transform.Kind) (bits : List (BitVec 32)) (i : Nat) (v : Stored) : Prop :=
  if IsDefault c b kind then v = .default bits
  else if (b.flags kind).isConstant = true then ∃ alpha, v = .written alpha (constantOf c b kind)
  else ∃ n0 n1 alpha g0 i0 g1 i1, AtFrame (C49.Kept c) i n0 n1 alpha ∧ C49.Frame c n0 g0 i0 ∧ C49.Frame c n1 g1 i1 ∧
    v = .written alpha (.animated (C49.sampleOf c b kind g0 i0, C49.sampleOf c b kind g1 i1) .contextAlpha)

theorem frame_of_kept {n : Nat} (h : C49.Kept c n) : ∃ g i, C49.Frame c n g i := by
  obtain ⟨g, i, s, h1, h2, h3, -⟩ := h
  exact ⟨g, i, s, h1, h2, h3⟩

theorem pose_at {pose : Transform.Context} {n0 n1 i : Nat} {alpha : ℚ} (hr : C49.Reads c pose debugWriter false .nearest n0 n1)
    (hf : AtFrame (C49.Kept c) i n0 n1 alpha) (descs : Nat → Meta.TransformDesc) (buf : Buffer)
    (hbuf : ∀ (t : Nat) (b : Bone) kind, c.bones[t]? = some b → IsDefault c b kind → buf kind t = .default (defaultBits (descs t) kind)) :
    ∃ ev, decompressTracks pose debugWriter = some ev ∧
      ∀ (t : Nat) (b : Bone) kind, c.bones[t]? = some b →
        SampledAs c b kind (defaultBits (descs t) kind) i (ev.foldl (Buffer.write alpha) buf kind t) := by
  obtain ⟨ev, h1, -, h2⟩ := hr.pose
  obtain ⟨g0, i0, f0⟩ := frame_of_kept hf.kept0
  obtain ⟨g1, i1, f1⟩ := frame_of_kept hf.kept1
  refine ⟨ev, h1, ?_⟩
  intro t b kind hb
  have hfil := h2 g0 i0 g1 i1 f0 f1 t b kind hb
  simp only [debugWriter, Bool.or_self, Bool.false_eq_true, if_false] at hfil
  rw [foldl_write, hfil]
  unfold SampledAs C49.expected
  by_cases hd : IsDefault c b kind
  · have hd' := hd
    unfold IsDefault at hd'
    rw [if_pos hd, if_pos hd']
    exact hbuf t b kind hb hd
  · have hd' := hd
    unfold IsDefault at hd'
    rw [if_neg hd, if_neg hd']
    by_cases hc : (b.flags kind).isConstant = true
    · rw [if_pos hc, if_pos hc]
      refine ⟨alpha, ?_⟩
      cases kind <;> rfl
    · rw [if_neg hc, if_neg hc]
      exact ⟨n0, n1, alpha, g0, i0, g1, i1, hf, f0, f1, rfl⟩

theorem samples_at (h : Compressed c e s src f m) (hs : Sampled c f) {supported : Nat → Bool} (hv : supported 10 = true) {w : World} {a : Nat}
    (ha : tracksOf supported m = some (w.tracks a)) (descs : Nat → Meta.TransformDesc) (l : List Nat) :
    ∀ (x : Ctx TransformSeek) (buf : Buffer), (∀ i ∈ l, i < c.numSamples) → Bound w a c f x →
      (∀ (t : Nat) (b : Bone) kind, c.bones[t]? = some b → IsDefault c b kind → buf kind t = .default (defaultBits (descs t) kind)) →
      ∃ poses, samplePoses w m (ofBits f.sampleRate) ((C50.clipOf c f).finiteDuration (policyOf f)) l x buf = some poses ∧ poses.length = l.length ∧
        ∀ (j i : Nat) (p : Buffer), l[j]? = some i → poses[j]? = some p → ∀ (t : Nat) (b : Bone) kind, c.bones[t]? = some b →
          SampledAs c b kind (defaultBits (descs t) kind) i (p kind t) := by
  induction l with
  | nil => exact fun x buf _ _ _ => ⟨[], rfl, rfl, fun j i p hj => by simp at hj⟩
  | cons i r ih =>
    intro x buf hl hb hbuf
    have hi := hl i (by simp)
    obtain ⟨he, q, pose, n0, n1, c1, c2, c3, c4⟩ := compute_at h hs hv ha hi
    obtain ⟨x', s1, s2, s3⟩ := seek_at hb hs hi he c1
    obtain ⟨ev, p1, p2⟩ := pose_at c3 c4 descs buf hbuf
    obtain ⟨poses, r1, r2, r3⟩ := ih x' (ev.foldl (Buffer.write q.alpha) buf) (fun k hk => hl k (by simp [hk])) s3 (by
      intro t b kind hbt hd
      have := p2 t b kind hbt
      unfold SampledAs at this
      rwa [if_pos hd] at this)
    refine ⟨ev.foldl (Buffer.write q.alpha) buf :: poses, ?_, by simp [r2], ?_⟩
    · unfold samplePoses
      rw [s1, Option.bind_some, s2, Option.bind_some, c2, Option.bind_some, p1, Option.bind_some, r1, Option.map_some]
    · intro j k p hj hp
      cases j with
      | zero =>
        simp only [List.getElem?_cons_zero, Option.some.injEq] at hj hp
        subst hj; subst hp
        exact p2
      | succ j =>
        simp only [List.getElem?_cons_succ] at hj hp
        exact r3 j k p hj hp

/-! ### The metadata -/

theorem duration_read (h : Compressed c e s src f m) (hs : Sampled c f) :
    Meta.getFiniteDuration m .asCompressed = some ((C50.clipOf c f).finiteDuration (policyOf f)) := by
  obtain ⟨b, hb⟩ := h.header
  obtain ⟨-, d2, -⟩ := C50.misc_more c f b
  have hn := hs.samples
  have hpow : 2 ^ 21 < 2 ^ 32 - 1 := by norm_num
  have hseg := Transform.segments_le h.clip
  have hsp := Transform.segments_pos h.clip
  unfold Meta.getFiniteDuration
  rw [hb, Option.map_some]
  have hnz : BitVec.ofNat 32 c.numSamples ≠ 0#32 := by
    intro hz
    have := congrArg BitVec.toNat hz
    rw [BitVec.toNat_ofNat, Nat.mod_eq_of_lt (by omega)] at this
    simp at this; omega
  have hds : Meta.durationSamples { c.header f with misc := setHasMetadata (c.misc f) b } .asCompressed = loopedNumSamples (C50.clipOf c f) (policyOf f) := by
    have hpol : Meta.durationPolicy { c.header f with misc := setHasMetadata (c.misc f) b } .asCompressed = policyOf f := by
      unfold Meta.durationPolicy
      dsimp only
      rw [d2]
      simp [ClipSource.header, policyOf]
    unfold Meta.durationSamples loopedNumSamples
    rw [hpol]
    show (if _ ∧ BitVec.ofNat 32 c.numSamples ≠ 0#32 then (BitVec.ofNat 32 c.numSamples + 1#32).toNat else (BitVec.ofNat 32 c.numSamples).toNat) = _
    unfold policyOf C50.clipOf
    cases f.wrapOptimized
    · simp [resolveLooping, Nat.mod_eq_of_lt (show c.numSamples < 4294967296 by omega)]
    · have hnz' : c.numSamples ≠ 0 := by omega
      simp [resolveLooping, hnz, hnz', BitVec.toNat_add]
  rw [hds]
  rfl

theorem info_read (h : Compressed c e s src f m) (ht : src.isTransform = true) {t : Nat} (hlt : t < c.bones.length) :
    ∃ tr parent, C29.outputTrack src t = some tr ∧
      (s.descriptions = true → C29.IsParentOutput src tr.parentIndex parent) ∧
      trackInfo m t = some (if s.descriptions then some ⟨t, parent, tr.precision, tr.shellDistance, tr.rotation, tr.translation, tr.scale⟩ else none,
        if s.trackNames then tr.name else []) := by
  obtain ⟨data, hd⟩ := C51.compress_meta h
  have hfits : C29.Fits e s src (c.header f) data := fun buf hbuf => by
    rw [hd, Option.some.injEq] at hbuf; rw [← hbuf]; exact h.small
  obtain ⟨buf, h1, h2, -⟩ := C29.C29_transform_description e s src (c.header f) data h.metadata hfits ht
  obtain ⟨buf', h1', h2', -⟩ := C29.C29_track_name e s src (c.header f) data h.metadata hfits
  rw [hd, Option.some.injEq] at h1 h1'
  subst h1; subst h1'
  have hmap : t < src.mapping.length := by rw [h.tracks]; exact hlt
  obtain ⟨tr, htr⟩ : ∃ tr, C29.outputTrack src t = some tr := by
    unfold C29.outputTrack
    rw [List.getElem?_eq_getElem hmap, Option.bind_some]
    exact ⟨_, List.getElem?_eq_getElem (h.metadata.mapped _ (List.getElem_mem hmap))⟩
  obtain ⟨k1, k2⟩ := h2 t tr htr
  have k3 := h2' t tr htr
  unfold trackInfo
  cases hds : s.descriptions with
  | false =>
    refine ⟨tr, 0, htr, by simp, ?_⟩
    rw [k1 hds, Option.bind_some, k3]
    rfl
  | true =>
    obtain ⟨parent, hp, hg⟩ := k2 hds
    refine ⟨tr, parent, htr, fun _ => hp, ?_⟩
    rw [hg, Option.bind_some, k3]
    rfl

theorem name_read (h : Compressed c e s src f m) :
    ∃ n, Meta.getName m = some n ∧ text n = if s.listName && s.trackNames then src.listName else [] := by
  obtain ⟨data, hd⟩ := C51.compress_meta h
  have hfits : C29.Fits e s src (c.header f) data := fun buf hbuf => by
    rw [hd, Option.some.injEq] at hbuf; rw [← hbuf]; exact h.small
  obtain ⟨buf, h1, h2, h3⟩ := C29.C29_name_partial e s src (c.header f) data h.metadata hfits
  rw [hd, Option.some.injEq] at h1
  subst h1
  cases hl : s.listName with
  | false =>
    rcases h3 hl with h | h
    · exact ⟨_, h, rfl⟩
    · exact ⟨_, h, rfl⟩
  | true =>
    cases hn : s.trackNames with
    | true => exact ⟨_, h2 hl hn, rfl⟩
    | false =>
      obtain ⟨buf, h1, h2, -⟩ := C29.C29_name_finding e s src (c.header f) data h.metadata hfits hl hn
      rw [hd, Option.some.injEq] at h1
      subst h1
      exact ⟨_, h2, rfl⟩

theorem mapM_get {α β : Type} (f : α → Option β) (l : List α) (h : ∀ a ∈ l, ∃ b, f a = some b) :
    ∃ l', l.mapM f = some l' ∧ l'.length = l.length ∧ ∀ (i : Nat) (a : α), l[i]? = some a → ∃ b, f a = some b ∧ l'[i]? = some b := by
  obtain ⟨r, h1, h2, h3⟩ := C29.mapM_some f l (fun a ha => by obtain ⟨b, hb⟩ := h a ha; rw [hb]; rfl)
  refine ⟨r, h1, h2, fun i a hi => ?_⟩
  obtain ⟨b, hb⟩ := h a (List.mem_of_getElem? hi)
  exact ⟨b, hb, by rw [h3, hi, Option.bind_some, hb]⟩

/-- A description for the tracks that are not there -/
def noDesc : Meta.TransformDesc := ⟨0, 0, 0, 0, ⟨0, 0, 0, 0⟩, ⟨0, 0, 0⟩, ⟨0, 0, 0⟩⟩

theorem isRaw_iff (c : ClipSource) (f : ClipFlags) (b : Bool) :
    isRaw (setHasMetadata (c.misc f) b) = true ↔ c.rotationFormat = .quatfFull ∧ c.translationFormat = .full ∧ c.scaleFormat = .full := by
  unfold ClipSource.misc
  generalize c.hasScale = x1
  generalize f.defaultScaleOne = x2
  generalize f.trivialDefaults = x3
  generalize c.stripped = x4
  generalize f.wrapOptimized = x5
  cases c.rotationFormat <;> cases c.translationFormat <;> cases c.scaleFormat <;> revert x1 x2 x3 x4 x5 b <;> decide +kernel

theorem init_bound (h : Compressed c e s src f m) {supported : Nat → Bool} (hv : supported 10 = true) {w : World} {a : Nat}
    (ha : tracksOf supported m = some (w.tracks a)) : ∃ x, initCtx transformKind settings w {} a none = some (x, true) ∧ Bound w a c f x := by
  obtain ⟨tr, -, g1, g2, g3, -, g5, -⟩ := C50.tracks_read h supported
  rw [ha, Option.some.injEq] at g1
  subst g1
  obtain ⟨-, ⟨x, h0, -⟩, -⟩ := C50.fresh_exists transformKind settings w a none (Or.inr rfl) .asCompressed (by unfold checks; simp [g2, g3, hv])
  rcases C20.init_cases h0 with ⟨hb, -⟩ | ⟨-, hb⟩
  · cases hb
  obtain ⟨b1, b2, -, b4, b5, b6⟩ := C20.bind_fields hb
  have hl : x.looping = policyOf f := by
    rw [b5, if_pos (show settings.wrapping = true from rfl)]
    unfold Tracks.loopingPolicy policyOf
    rw [g5]
    rfl
  exact ⟨x, h0, b1, b2, hl, by rw [b6, hl, g5], Or.inl b4⟩

/-- Specification: a raw track is what was compressed as output track `t`: its name, its description (the parent is an output index), and a sample for every
frame of the clip. -/
structure TrackBack (c : ClipSource) (s : Meta.Settings) (src : Meta.Source) (t : Nat) (b : Bone) (r : RawTrack) : Prop where
  from_ : ∃ tr parent, C29.outputTrack src t = some tr ∧ C29.IsParentOutput src tr.parentIndex parent ∧
    r.name = (if s.trackNames then tr.name else []) ∧
    r.desc = ⟨t, parent, tr.precision, tr.shellDistance, tr.rotation, tr.translation, tr.scale⟩
  count : r.samples.length = c.numSamples
  sampled : ∀ (i : Nat) (v : Transform.Kind → Stored), r.samples[i]? = some v → ∀ kind, SampledAs c b kind (defaultBits r.desc kind) i (v kind)

/-- **Back to raw tracks.** A compressed clip with its descriptions is converted: the raw list has a track for every output track, with its name and
description, and sample `i` of a track is what the clip has at frame `i`. -/
theorem C72_transform (h : Compressed c e s src f m) (hs : Sampled c f) (ht : src.isTransform = true) (hd : s.descriptions = true)
    {supported : Nat → Bool} (hv : supported 10 = true) {w : World} {a : Nat} (ha : tracksOf supported m = some (w.tracks a)) :
    ∃ r, convert w a m = some (.ok r) ∧ r.name = (if s.listName && s.trackNames then src.listName else []) ∧ r.sampleRate = f.sampleRate ∧ r.looping = .clamp ∧
      (r.rawSettings = true ↔ c.rotationFormat = .quatfFull ∧ c.translationFormat = .full ∧ c.scaleFormat = .full) ∧
      r.tracks.length = c.bones.length ∧
      ∀ (t : Nat) (b : Bone), c.bones[t]? = some b → ∃ tr, r.tracks[t]? = some tr ∧ TrackBack c s src t b tr := by
  obtain ⟨b, hb⟩ := h.header
  have hN := h.clip.numSamples
  have hB := h.clip.bones
  have hvalid : tracksIsValid m true false = some .ok := by
    obtain ⟨tr, -, g1, g2, -⟩ := C50.tracks_read h supported
    unfold tracksOf at g1
    simp only [Option.bind_eq_some_iff] at g1
    obtain ⟨_, _, _, _, v, hv1, _, _, _, _, hv2⟩ := g1
    rw [Option.some.injEq] at hv2
    subst hv2
    rw [hv1, of_decide_eq_true g2]
  obtain ⟨nm, n1, n2⟩ := name_read h
  obtain ⟨infos, i1, i2, i3⟩ := mapM_get (trackInfo m) (List.range c.bones.length) (fun t hlt => by
    obtain ⟨tr, parent, -, -, q⟩ := info_read h ht (List.mem_range.mp hlt)
    exact ⟨_, q⟩)
  rw [List.length_range] at i2
  have hinfo : ∀ t, t < c.bones.length → ∃ tr parent, C29.outputTrack src t = some tr ∧ C29.IsParentOutput src tr.parentIndex parent ∧
      infos[t]? = some (some ⟨t, parent, tr.precision, tr.shellDistance, tr.rotation, tr.translation, tr.scale⟩, if s.trackNames then tr.name else []) := by
    intro t hlt
    obtain ⟨tr, parent, q1, q2, q3⟩ := info_read h ht hlt
    obtain ⟨y, y1, y2⟩ := i3 t t (by rw [List.getElem?_range hlt])
    rw [q3, Option.some.injEq] at y1
    rw [hd, if_pos rfl] at y1
    exact ⟨tr, parent, q1, q2 hd, by rw [y2, ← y1]⟩
  obtain ⟨descs, d1, d2, d3⟩ := mapM_get (fun x : Option Meta.TransformDesc × Bytes => x.1) infos (fun x hx => by
    obtain ⟨t, hlt, rfl⟩ := List.getElem_of_mem hx
    obtain ⟨tr, parent, -, -, q⟩ := hinfo t (by omega)
    rw [List.getElem?_eq_getElem hlt, Option.some.injEq] at q
    exact ⟨_, by rw [q]⟩)
  have hdesc : ∀ t, t < c.bones.length → ∃ d x, descs[t]? = some d ∧ infos[t]? = some (some d, x) ∧ d.outputIndex = t := by
    intro t hlt
    obtain ⟨tr, parent, -, -, q⟩ := hinfo t hlt
    obtain ⟨d, e1, e2⟩ := d3 t _ q
    simp only [Option.some.injEq] at e1
    exact ⟨d, _, e2, by rw [q, ← e1], by rw [← e1]⟩
  obtain ⟨x, x1, x2⟩ := init_bound h hv ha
  obtain ⟨poses, p1, p2, p3⟩ := samples_at h hs hv ha (fun t => descs.getD t noDesc) (List.range c.numSamples) x
    (initialBuffer descs) (fun i hi => List.mem_range.mp hi) x2 (by
      intro t b' kind hbt hdef
      have hlt : t < c.bones.length := (List.getElem?_eq_some_iff.mp hbt).1
      obtain ⟨d, -, e1, -, e3⟩ := hdesc t hlt
      rw [initial_get descs (fun i d hi => by
        obtain ⟨d', -, f1, -, f3⟩ := hdesc i (by have := (List.getElem?_eq_some_iff.mp hi).1; omega)
        rw [hi, Option.some.injEq] at f1
        rw [f1]; exact f3) e1 kind, List.getD_eq_getElem?_getD, e1]
      rfl)
  rw [List.length_range] at p2
  have hconv : convert w a m = some (.ok ⟨text nm, f.sampleRate,
      (List.range c.bones.length).filterMap fun t => (infos[t]?).bind fun x => x.1.map fun d => ⟨x.2, d, poses.map fun b kind => b kind t⟩,
      .clamp, isRaw (setHasMetadata (c.misc f) b)⟩) := by
    unfold convert
    rw [hvalid, Option.bind_some, if_neg (by simp), hb, Option.bind_some, duration_read h hs, Option.bind_some, n1, Option.bind_some]
    dsimp only [ClipSource.header]
    rw [BitVec.toNat_ofNat, Nat.mod_eq_of_lt hB.2, BitVec.toNat_ofNat, Nat.mod_eq_of_lt (by omega), i1, Option.bind_some, d1]
    dsimp only
    rw [x1, Option.bind_some, p1, Option.map_some]
  have hfm : ((List.range c.bones.length).filterMap fun t => (infos[t]?).bind fun x => x.1.map fun d => (⟨x.2, d, poses.map fun b kind => b kind t⟩ : RawTrack)) =
      (List.range c.bones.length).map fun t => ⟨((infos[t]?).map (·.2)).getD [], descs.getD t noDesc,
        poses.map fun b kind => b kind t⟩ := by
    rw [← List.filterMap_eq_map]
    apply List.filterMap_congr
    intro t hlt
    obtain ⟨d, y, e1, e2, -⟩ := hdesc t (List.mem_range.mp hlt)
    rw [Function.comp_apply, e2, List.getD_eq_getElem?_getD, e1]
    rfl
  refine ⟨_, hconv, n2, rfl, rfl, isRaw_iff c f b, ?_, ?_⟩
  · dsimp only
    rw [hfm]
    simp
  · intro t b' hbt
    have hlt : t < c.bones.length := (List.getElem?_eq_some_iff.mp hbt).1
    obtain ⟨d, y, e1, e2, e3⟩ := hdesc t hlt
    obtain ⟨tr, parent, q1, q2, q3⟩ := hinfo t hlt
    rw [e2, Option.some.injEq, Prod.mk.injEq, Option.some.injEq] at q3
    refine ⟨⟨y, d, poses.map fun b kind => b kind t⟩, ?_, ⟨⟨tr, parent, q1, q2, q3.2, q3.1⟩, by simp [p2], ?_⟩⟩
    · dsimp only
      rw [hfm, List.getElem?_map, List.getElem?_range hlt, Option.map_some, e2, List.getD_eq_getElem?_getD, e1]
      rfl
    · intro i v hi kind
      rw [List.getElem?_map, Option.map_eq_some_iff] at hi
      obtain ⟨p, hp, rfl⟩ := hi
      have hip : i < c.numSamples := by have := (List.getElem?_eq_some_iff.mp hp).1; omega
      have := p3 i i p (List.getElem?_range hip) hp t b' kind hbt
      rw [List.getD_eq_getElem?_getD, e1] at this
      exact this

/-- Without the descriptions there is an error. -/
theorem C72_missing (h : Compressed c e s src f m) (hs : Sampled c f) (ht : src.isTransform = true) (hd : s.descriptions = false) (w : World) (a : Nat) :
    convert w a m = some (.error .missingMetadata) := by
  obtain ⟨b, hb⟩ := h.header
  have hB := h.clip.bones
  have hvalid : tracksIsValid m true false = some .ok := by
    obtain ⟨tr, -, g1, g2, -⟩ := C50.tracks_read h (fun _ => true)
    unfold tracksOf at g1
    simp only [Option.bind_eq_some_iff] at g1
    obtain ⟨_, _, _, _, v, hv1, _, _, _, _, hv2⟩ := g1
    rw [Option.some.injEq] at hv2
    subst hv2
    rw [hv1, of_decide_eq_true g2]
  obtain ⟨nm, n1, n2⟩ := name_read h
  obtain ⟨infos, i1, i2, i3⟩ := mapM_get (trackInfo m) (List.range c.bones.length) (fun t hlt => by
    obtain ⟨tr, parent, -, -, q⟩ := info_read h ht (List.mem_range.mp hlt)
    exact ⟨_, q⟩)
  rw [List.length_range] at i2
  have hnone : infos.mapM (fun x : Option Meta.TransformDesc × Bytes => x.1) = none := by
    obtain ⟨tr, parent, -, -, q3⟩ := info_read h ht (t := 0) (by omega)
    obtain ⟨y, y1, y2⟩ := i3 0 0 (by rw [List.getElem?_range (by omega)])
    rw [q3, Option.some.injEq, hd, if_neg (by simp)] at y1
    cases infos with
    | nil => simp at y2
    | cons z zs =>
      simp only [List.getElem?_cons_zero, Option.some.injEq] at y2
      rw [List.mapM_cons, y2, ← y1]
      rfl
  unfold convert
  rw [hvalid, Option.bind_some, if_neg (by simp), hb, Option.bind_some, duration_read h hs, Option.bind_some, n1, Option.bind_some]
  dsimp only [ClipSource.header]
  rw [BitVec.toNat_ofNat, Nat.mod_eq_of_lt hB.2, i1, Option.bind_some, hnone]

/-- Tracks that are not valid are refused. -/
theorem C72_invalid {v : Validity} (hv : tracksIsValid m true false = some v) (hne : v ≠ .ok) (w : World) (a : Nat) :
    convert w a m = some (.error .invalid) := by
  unfold convert
  rw [hv, Option.bind_some, if_pos hne]

/-! ### The numbers -/

theorem rnd_keyRotation (fused : Bool) (sqrt : ℚ → ℚ) (hsq : ∀ x, rnd (sqrt x) = sqrt x) (d : Sample) :
    let q := keyRotation fused sqrt d
    rnd q.x = q.x ∧ rnd q.y = q.y ∧ rnd q.z = q.z ∧ rnd q.w = q.w := by
  unfold keyRotation
  dsimp only
  split
  · exact ⟨rnd_evalSample _ _ _, rnd_evalSample _ _ _, rnd_evalSample _ _ _, rnd_ofBits _⟩
  · exact ⟨rnd_evalSample _ _ _, rnd_evalSample _ _ _, rnd_evalSample _ _ _, hsq _⟩

theorem quat_ends (fused : Bool) {s e : Lerp.Quat} (hs : rnd s.x = s.x ∧ rnd s.y = s.y ∧ rnd s.z = s.z ∧ rnd s.w = s.w)
    (he : rnd e.x = e.x ∧ rnd e.y = e.y ∧ rnd e.z = e.z ∧ rnd e.w = e.w) :
    Lerp.quatLerp fused s e 0 = s ∧ (Lerp.quatLerp fused s e 1 = e ∨ Lerp.quatLerp fused s e 1 = C37.opposite e) := by
  obtain ⟨sx, sy, sz, sw⟩ := hs
  obtain ⟨ex, ey, ez, ew⟩ := he
  constructor
  · simp only [Lerp.quatLerp, lerp_start fused sx, lerp_start fused sy, lerp_start fused sz, lerp_start fused sw]
  · have hneg : ∀ x, rnd x = x → rnd (-x) = -x := fun x hx => by rw [rnd_neg, hx]
    by_cases h : Lerp.dot fused s e < 0
    · right
      simp only [Lerp.quatLerp, Lerp.bias, if_pos h, neg_one_mul, C37.opposite]
      rw [lerp_end fused sx (hneg _ ex), lerp_end fused sy (hneg _ ey), lerp_end fused sz (hneg _ ez), lerp_end fused sw (hneg _ ew)]
    · left
      simp only [Lerp.quatLerp, Lerp.bias, if_neg h, one_mul]
      rw [lerp_end fused sx ex, lerp_end fused sy ey, lerp_end fused sz ez, lerp_end fused sw ew]

/-- **The numbers of a key frame.** At a frame that was not stripped, a sample of an animated sub-track is exactly the key frame: the components of a
translation or a scale are those of the key frame; a rotation is the one of the key frame when only raw formats are used, and otherwise what normalizing it, or its
opposite, gives. This is so for every normalization and every square root. -/
theorem C72_key_frame {b : Bone} {kind : Transform.Kind} {bits : List (BitVec 32)} {i : Nat} {v : Stored} (h : SampledAs c b kind bits i v)
    (hd : ¬ IsDefault c b kind) (hc : (b.flags kind).isConstant = false) (hk : C49.Kept c i) {g j : Nat} (hf : C49.Frame c i g j) (fused : Bool) :
    (∀ lane, storedVector fused lane v = evalSample fused lane (C49.sampleOf c b kind g j)) ∧
    ∀ (sqrt : ℚ → ℚ) (normalize : Lerp.Quat → Lerp.Quat), (∀ x, rnd (sqrt x) = sqrt x) →
      storedRotation true fused sqrt normalize v = some (keyRotation fused sqrt (C49.sampleOf c b kind g j)) ∧
      (storedRotation false fused sqrt normalize v = some (normalize (keyRotation fused sqrt (C49.sampleOf c b kind g j))) ∨
       storedRotation false fused sqrt normalize v = some (normalize (C37.opposite (keyRotation fused sqrt (C49.sampleOf c b kind g j))))) := by
  unfold SampledAs at h
  rw [if_neg hd, if_neg (by simp [hc])] at h
  obtain ⟨n0, n1, alpha, g0, i0, g1, i1, hat, f0, f1, rfl⟩ := h
  rcases hat.picked hk with ⟨rfl, rfl⟩ | ⟨rfl, rfl⟩
  · obtain ⟨rfl, rfl⟩ := C49.frame_unique f0 hf
    refine ⟨fun lane => ?_, fun sqrt normalize hsq => ⟨?_, Or.inl ?_⟩⟩
    · exact lerp_start fused (rnd_evalSample _ _ _)
    · unfold storedRotation animatedRotation
      dsimp only
      rw [if_pos rfl, if_neg (by simp), if_pos le_rfl]
    · unfold storedRotation animatedRotation
      dsimp only
      rw [if_neg (by simp), (quat_ends fused (rnd_keyRotation fused sqrt hsq _) (rnd_keyRotation fused sqrt hsq _)).1]
  · obtain ⟨rfl, rfl⟩ := C49.frame_unique f1 hf
    refine ⟨fun lane => ?_, fun sqrt normalize hsq => ⟨?_, ?_⟩⟩
    · exact lerp_end fused (rnd_evalSample _ _ _) (rnd_evalSample _ _ _)
    · unfold storedRotation animatedRotation
      dsimp only
      rw [if_pos rfl, if_neg (by simp), if_neg (by norm_num)]
    · unfold storedRotation animatedRotation
      dsimp only
      rw [if_neg (by simp)]
      rcases (quat_ends fused (rnd_keyRotation fused sqrt hsq (C49.sampleOf c b kind g0 i0)) (rnd_keyRotation fused sqrt hsq (C49.sampleOf c b kind g1 i1))).2 with h | h
      · rw [h]; exact Or.inl rfl
      · rw [h]; exact Or.inr rfl

/-- **The numbers that do not move.** Every sample of a default sub-track has the components of the default of the track that was compressed (rotation,
translation and scale each its own), every sample of a constant sub-track the components of the constant, also at frames that were stripped. -/
theorem C72_fixed (h : Compressed c e s src f m) (hs : Sampled c f) (ht : src.isTransform = true) (hd : s.descriptions = true)
    {supported : Nat → Bool} (hv : supported 10 = true) {w : World} {a : Nat} (ha : tracksOf supported m = some (w.tracks a)) (fused : Bool) :
    ∃ out, convert w a m = some (.ok out) ∧ ∀ (t : Nat) (b : Bone), c.bones[t]? = some b → ∃ tr raw, out.tracks[t]? = some tr ∧
      C29.outputTrack src t = some raw ∧ tr.samples.length = c.numSamples ∧ ∀ (i : Nat) (v : Transform.Kind → Stored), tr.samples[i]? = some v →
        (IsDefault c b .rotation → v .rotation = .default [raw.rotation.x, raw.rotation.y, raw.rotation.z, raw.rotation.w]) ∧
        (IsDefault c b .translation → storedVector fused .x (v .translation) = ofBits raw.translation.x ∧
          storedVector fused .y (v .translation) = ofBits raw.translation.y ∧ storedVector fused .z (v .translation) = ofBits raw.translation.z) ∧
        (IsDefault c b .scale → storedVector fused .x (v .scale) = ofBits raw.scale.x ∧
          storedVector fused .y (v .scale) = ofBits raw.scale.y ∧ storedVector fused .z (v .scale) = ofBits raw.scale.z) ∧
        (¬ IsDefault c b .rotation → (b.flags .rotation).isConstant = true →
          ∃ alpha, v .rotation = .written alpha (.rotation (C16.asLoaded c.rotationFormat b.rotation))) ∧
        (∀ kind, kind ≠ .rotation → ¬ IsDefault c b kind → (b.flags kind).isConstant = true →
          storedVector fused .x (v kind) = ofBits (b.vector kind).x ∧ storedVector fused .y (v kind) = ofBits (b.vector kind).y ∧
          storedVector fused .z (v kind) = ofBits (b.vector kind).z) := by
  obtain ⟨out, h1, -, -, -, -, -, h2⟩ := C72_transform h hs ht hd hv ha
  refine ⟨out, h1, fun t b hb => ?_⟩
  obtain ⟨tr, t1, t2⟩ := h2 t b hb
  obtain ⟨raw, parent, f1, f2, f3, f4⟩ := t2.from_
  refine ⟨tr, raw, t1, f1, t2.count, fun i v hi => ?_⟩
  have hsam := t2.sampled i v hi
  rw [f4] at hsam
  refine ⟨fun hdef => ?_, fun hdef => ?_, fun hdef => ?_, fun hdef hc => ?_, fun kind hk hdef hc => ?_⟩
  · have := hsam .rotation; unfold SampledAs at this; rw [if_pos hdef] at this; exact this
  · have := hsam .translation; unfold SampledAs at this; rw [if_pos hdef] at this; rw [this]; exact ⟨rfl, rfl, rfl⟩
  · have := hsam .scale; unfold SampledAs at this; rw [if_pos hdef] at this; rw [this]; exact ⟨rfl, rfl, rfl⟩
  · have := hsam .rotation; unfold SampledAs at this; rw [if_neg hdef, if_pos hc] at this; exact this
  · have := hsam kind; unfold SampledAs at this; rw [if_neg hdef, if_pos hc] at this
    obtain ⟨alpha, hva⟩ := this
    rw [hva]
    cases kind with
    | rotation => exact absurd rfl hk
    | translation => exact ⟨rfl, rfl, rfl⟩
    | scale => exact ⟨rfl, rfl, rfl⟩

/-! ### From the samples that were compressed -/

variable {r : RawClip}

/-- Specification: the samples of the raw track are close to those of the track that was compressed: at the frames that were not stripped, every component of an
animated translation or scale is that of a sample that is within the tolerance of the input, and so is the rotation before it is normalized. -/
def CloseTo (fused raw : Bool) (r : RawClip) (b : RawBone) (tr : RawTrack) : Prop :=
  tr.samples.length = r.numSamples ∧
  ∀ (i : Nat) (v : Transform.Kind → Stored), tr.samples[i]? = some v → C49.Kept r.quantize i → ∀ kind, ¬ IsDefault r.quantize (b.quantize r) kind →
    (b.flags kind).isConstant = false → ∃ d, C55.Close fused r b kind i d ∧ (∀ lane, storedVector fused lane (v kind) = evalSample fused lane d) ∧
      ∀ (sqrt : ℚ → ℚ) (normalize : Lerp.Quat → Lerp.Quat), (∀ x, rnd (sqrt x) = sqrt x) →
        if raw then storedRotation raw fused sqrt normalize (v kind) = some (keyRotation fused sqrt d)
        else storedRotation raw fused sqrt normalize (v kind) = some (normalize (keyRotation fused sqrt d)) ∨
          storedRotation raw fused sqrt normalize (v kind) = some (normalize (C37.opposite (keyRotation fused sqrt d)))

/-- **Within the tolerance.** The raw tracks have the samples that were compressed, within the tolerance of the bit rates. -/
theorem C72_within (hr : RawOk r) (h : Compressed r.quantize e s src f m) (hs : Sampled r.quantize f) (ht : src.isTransform = true) (hd : s.descriptions = true)
    {supported : Nat → Bool} (hv : supported 10 = true) {w : World} {a : Nat} (ha : tracksOf supported m = some (w.tracks a)) (fused : Bool) :
    ∃ out, convert w a m = some (.ok out) ∧ ∀ (t : Nat) (b : RawBone), r.bones[t]? = some b →
      ∃ tr, out.tracks[t]? = some tr ∧ CloseTo fused out.rawSettings r b tr := by
  obtain ⟨out, h1, -, -, -, -, -, h2⟩ := C72_transform h hs ht hd hv ha
  refine ⟨out, h1, ?_⟩
  intro t b hb
  obtain ⟨tr, t1, t2⟩ := h2 t (b.quantize r) (by unfold RawClip.quantize; dsimp only; rw [List.getElem?_map, hb]; rfl)
  refine ⟨tr, t1, by rw [t2.count, Transform.numSamples_quantize hr], ?_⟩
  intro i v hi hk kind hdef hcon
  obtain ⟨g, j, hf⟩ := frame_of_kept hk
  obtain ⟨k1, k2⟩ := C72_key_frame (t2.sampled i v hi kind) hdef hcon hk hf fused
  refine ⟨_, C55.close_of_frame fused hr hf (List.mem_of_getElem? hb) hcon, k1, fun sqrt normalize hsq => ?_⟩
  obtain ⟨q1, q2⟩ := k2 sqrt normalize hsq
  cases out.rawSettings with
  | true => rw [if_pos rfl]; exact q1
  | false => rw [if_neg (by simp)]; exact q2

/-- The components of a rotation -/
def quatOf (v : Vec4) : Lerp.Quat := ⟨ofBits v.x, ofBits v.y, ofBits v.z, ofBits v.w⟩

/-- **Lossless.** A clip that was compressed with the raw formats, nothing stripped, comes back as it was: every component of every animated sub-track of every
sample is the number that was compressed. -/
theorem C72_lossless (hr : RawOk r) (h : Compressed r.quantize e s src f m) (hs : Sampled r.quantize f) (ht : src.isTransform = true) (hd : s.descriptions = true)
    {supported : Nat → Bool} (hv : supported 10 = true) {w : World} {a : Nat} (ha : tracksOf supported m = some (w.tracks a))
    (hrot : r.rotationFormat = .quatfFull) (htra : r.translationFormat = .full) (hsca : r.scaleFormat = .full) (hstr : r.stripped = false)
    (fused : Bool) (sqrt : ℚ → ℚ) (hsq : ∀ x, rnd (sqrt x) = sqrt x) (normalize : Lerp.Quat → Lerp.Quat) :
    ∃ out, convert w a m = some (.ok out) ∧ out.tracks.length = r.bones.length ∧ ∀ (t : Nat) (b : RawBone), r.bones[t]? = some b →
      ∃ tr, out.tracks[t]? = some tr ∧ tr.samples.length = r.numSamples ∧ ∀ i, i < r.numSamples → ∃ v, tr.samples[i]? = some v ∧
        (¬ IsDefault r.quantize (b.quantize r) .rotation → (b.flags .rotation).isConstant = false →
          storedRotation out.rawSettings fused sqrt normalize (v .rotation) = some (quatOf (b.sample .rotation i))) ∧
        ∀ kind, kind ≠ .rotation → ¬ IsDefault r.quantize (b.quantize r) kind → (b.flags kind).isConstant = false → ∀ lane,
          storedVector fused lane (v kind) = b.value kind lane i := by
  obtain ⟨out, h1, -, -, -, h3, h4, -⟩ := C72_transform h hs ht hd hv ha
  obtain ⟨out', h1', h2⟩ := C72_within hr h hs ht hd hv ha fused
  rw [h1, Option.some.injEq, Except.ok.injEq] at h1'
  subst h1'
  have hraw : out.rawSettings = true := h3.mpr ⟨hrot, htra, hsca⟩
  refine ⟨out, h1, by rw [h4]; unfold RawClip.quantize; simp, ?_⟩
  intro t b hb
  obtain ⟨tr, t1, t2, t3⟩ := h2 t b hb
  refine ⟨tr, t1, t2, ?_⟩
  intro i hi
  have hvi : tr.samples[i]? = some tr.samples[i] := List.getElem?_eq_getElem (by omega)
  have hk : C49.Kept r.quantize i := C49.kept_all h hstr i (by rw [Transform.numSamples_quantize hr]; exact hi)
  obtain ⟨g, j, hf⟩ := frame_of_kept hk
  obtain ⟨g1, g2, g3⟩ := C55.frame_inside hr hf
  have hvar : ∀ kind, r.isVariable kind = false := by
    intro kind
    unfold RawClip.isVariable
    rw [hrot, htra, hsca]
    cases kind <;> rfl
  refine ⟨_, hvi, ?_, ?_⟩
  · intro hdef hcon
    obtain ⟨d, d1, -, d3⟩ := t3 i _ hvi hk .rotation hdef hcon
    have := d3 sqrt normalize hsq
    rw [hraw, if_pos rfl] at this
    rw [hraw, this, d1.lossless g g1 ⟨j, g2, g3⟩ (Or.inl (hvar _)), if_pos ⟨rfl, hrot⟩]
    rfl
  · intro kind hkind hdef hcon lane
    obtain ⟨d, d1, d2, -⟩ := t3 i _ hvi hk kind hdef hcon
    rw [d2, d1.lossless g g1 ⟨j, g2, g3⟩ (Or.inl (hvar _)), if_neg (fun h => hkind h.1)]
    rfl

/-- **Finding: looping is lost.** A clip that was compressed as a loop has one more interval than samples, from its last sample to its first. The raw list that
comes back is not a loop: its duration is one interval shorter. -/
theorem C72_looping_finding (h : Compressed c e s src f m) (hs : Sampled c f) (ht : src.isTransform = true) (hd : s.descriptions = true)
    {supported : Nat → Bool} (hv : supported 10 = true) {w : World} {a : Nat} (ha : tracksOf supported m = some (w.tracks a)) (hw : f.wrapOptimized = true)
    (h2 : 2 ≤ c.numSamples) :
    ∃ out, convert w a m = some (.ok out) ∧ Meta.getLoopingPolicy m = some .wrap ∧ out.looping = .clamp ∧
      Meta.getFiniteDuration m .asCompressed = some (fdivInf c.numSamples (ofBits f.sampleRate)) ∧
      calculateFiniteDuration c.numSamples (ofBits out.sampleRate) = fdivInf (c.numSamples - 1) (ofBits f.sampleRate) := by
  obtain ⟨out, h1, -, h3, h4, -⟩ := C72_transform h hs ht hd hv ha
  have hl := (C51.C51_transform h).2.2.2.2.2.2.2.2.2.2.2
  rw [hw, if_pos rfl] at hl
  have hn := hs.samples
  have hpow : 2 ^ 21 < 2 ^ 24 := by norm_num
  refine ⟨out, h1, hl, h4, ?_, ?_⟩
  · rw [duration_read h hs]
    have hln : loopedNumSamples (C50.clipOf c f) (policyOf f) = c.numSamples + 1 := by
      have hp : policyOf f = .wrap := by unfold policyOf; rw [hw]; rfl
      unfold loopedNumSamples
      rw [hp, if_pos ⟨rfl, show c.numSamples ≠ 0 by omega⟩]
      exact Nat.mod_eq_of_lt (show c.numSamples + 1 < 2 ^ 32 by omega)
    unfold Clip.finiteDuration
    rw [hln]
    unfold calculateFiniteDuration
    rw [if_neg (by omega), Nat.add_sub_cancel, ofNat_eq (by omega)]
    rfl
  · unfold calculateFiniteDuration
    rw [if_neg (by omega), h3, ofNat_eq (by omega), Nat.cast_sub (by omega)]
    simp

/-! ### Examples -/

theorem exClip_sampled : Sampled C55.exClip.quantize C49.exFlags := ⟨by decide +kernel, by decide +kernel, by decide +kernel⟩

/-- The hypotheses are met: the clip of C55, with its descriptions. -/
example : ∃ (m : Bytes) (w : World), Compressed C55.exClip.quantize ⟨false, false⟩ ⟨true, true, true, true, true⟩ C64.exSource C49.exFlags m ∧
    Sampled C55.exClip.quantize C49.exFlags ∧ C64.exSource.isTransform = true ∧ tracksOf (fun _ => true) m = some (w.tracks 0) ∧
    ∃ out, convert w 0 m = some (.ok out) ∧ out.tracks.length = 1 := by
  obtain ⟨m, hm⟩ := C64.exCompressed
  obtain ⟨t, -, ht, -⟩ := C50.tracks_read hm (fun _ => true)
  obtain ⟨out, h1, -, -, -, -, h2, -⟩ := C72_transform hm exClip_sampled (by decide) rfl (supported := fun _ => true) rfl
    (w := ⟨fun _ => t, fun _ => C20.exWorld 0 |>.databases 0, (C20.exWorld 0).contexts⟩) (a := 0) ht
  exact ⟨m, _, hm, exClip_sampled, by decide, ht, out, h1, h2⟩

/-- The same clip with the raw formats. -/
def exRaw : RawClip := { C55.exClip with rotationFormat := .quatfFull, translationFormat := .full, scaleFormat := .full }

theorem exRaw_ok : RawOk exRaw where
  bones := by decide
  scale := fun h => by cases h
  default := C55.exClip_ok.default
  samples := by decide
  settings := by decide
  finite := C55.exClip_ok.finite
  rate := by
    intro b hb kind _ hk
    cases kind <;> exact absurd hk (by decide)
  memory := C55.exClip_ok.memory
  garbage := fun g => rfl
  hard := fun h => by cases h
  small := by decide +kernel

/-- The hypotheses of the lossless theorem and of the finding are met. -/
example : ∃ (m : Bytes) (w : World), Compressed exRaw.quantize ⟨false, false⟩ ⟨true, true, true, true, true⟩ C64.exSource ⟨true, true, true, 0x41F00000#32⟩ m ∧
    Sampled exRaw.quantize ⟨true, true, true, 0x41F00000#32⟩ ∧ exRaw.stripped = false ∧ 2 ≤ exRaw.quantize.numSamples ∧
    tracksOf (fun _ => true) m = some (w.tracks 0) := by
  obtain ⟨m, hm⟩ := C55.C55_compresses (e := ⟨false, false⟩) (s := ⟨true, true, true, true, true⟩) (f := ⟨true, true, true, 0x41F00000#32⟩) exRaw_ok C64.exSource_valid
  have hc : Compressed exRaw.quantize ⟨false, false⟩ ⟨true, true, true, true, true⟩ C64.exSource ⟨true, true, true, 0x41F00000#32⟩ m := by
    refine ⟨quantize_ok exRaw_ok, C64.exSource_valid, rfl, hm, ?_⟩
    have : ((exRaw.quantize.compress ⟨false, false⟩ ⟨true, true, true, true, true⟩ C64.exSource ⟨true, true, true, 0x41F00000#32⟩).map
        fun b => decide (b.length < 2 ^ 32)) = some true := by
      decide +kernel
    rw [hm, Option.map_some, Option.some.injEq] at this
    exact of_decide_eq_true this
  obtain ⟨t, -, ht, -⟩ := C50.tracks_read hc (fun _ => true)
  exact ⟨m, ⟨fun _ => t, fun _ => (C20.exWorld 0).databases 0, (C20.exWorld 0).contexts⟩, hc, ⟨by decide +kernel, by decide +kernel, by decide +kernel⟩, rfl,
    by decide +kernel, ht⟩

end Acl.C72
