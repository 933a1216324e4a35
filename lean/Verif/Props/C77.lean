import Verif.Context.ConvertScalar
import Verif.Props.C58
import Verif.Props.C72
/-!
C77: converting compressed scalar tracks back to raw tracks recovers every sample within the precision. convert.h: convert_track_list.
Specification vocabulary: `Input`, `InputOk`, `Input.kept`, `Input.wraps` in Props/C58.lean.
-/
namespace Acl.C77
open Acl.F32 Acl.Interp Acl.Context Acl.Scalar Acl.Convert Acl.C58
open Acl.Headers

/-- The looping policy of the compressed list -/
def policyOf (x : Input) : Looping := if x.wraps then .wrap else .clamp

theorem policyOf_ne (x : Input) : policyOf x ≠ .asCompressed := by unfold policyOf; split <;> simp

theorem effective_policy (x : Input) : C50.effective settings x.clip (policyOf x) = policyOf x := by
  unfold C50.effective policyOf
  cases x.wraps <;> rfl

/-- Specification: what is asked of the list besides `InputOk`: it is a scalar list, the duration of what is compressed is finite, there are at most 2^21
samples. -/
structure Sampled (x : Input) : Prop where
  scalar : x.source.isTransform = false
  samples : x.list.numSamples ≤ 2 ^ 21
  duration : x.clip.finiteDuration (policyOf x) ≠ .inf

/-! ### The buffer -/

theorem buffer_meta {x : Input} {m : Bytes} (hm : x.compress = some m) :
    ∃ data, Meta.compress ⟨false, false⟩ x.settings x.source (tracksHeader (quantizeList x.fused x.upper x.rest) x.sampleRate x.wraps) data = some m := by
  rw [compress_eq] at hm
  unfold writeBuffer at hm
  rw [Option.bind_eq_some_iff] at hm
  obtain ⟨d, -, h⟩ := hm
  exact ⟨d, h⟩

theorem header_read {x : Input} (h : InputOk x) {m : Bytes} (hm : x.compress = some m) :
    tracksIsValid m true false = some .ok ∧ ∃ b, Meta.loadTracksHeader m = some (Meta.headerOf x.source
      (tracksHeader (quantizeList x.fused x.upper x.rest) x.sampleRate x.wraps) b) := by
  obtain ⟨d, hd⟩ := buffer_meta hm
  obtain ⟨b, T, he, -⟩ := Clip.build_shape ⟨false, false⟩ x.settings x.source
    (tracksHeader (quantizeList x.fused x.upper x.rest) x.sampleRate x.wraps) d h.source
  rw [he, Option.some.injEq] at hd
  have hload := Meta.rawBuffer_header (Meta.headerOf x.source (tracksHeader (quantizeList x.fused x.upper x.rest) x.sampleRate x.wraps) b) (d :: T)
  rw [hd] at hload
  refine ⟨?_, b, hload⟩
  unfold Meta.loadTracksHeader at hload
  simp only [Option.bind_eq_bind, Option.bind_eq_some_iff, Option.some.injEq] at hload
  obtain ⟨tag, e1, version, e2, algo, e3, _, -, _, -, _, -, _, -, _, -, hq⟩ := hload
  unfold Meta.headerOf at hq
  injection hq with q1 q2 q3
  unfold tracksIsValid
  rw [e1, e2, e3, q1, q2, q3]
  rfl

theorem fits {x : Input} (h : InputOk x) {m data : Bytes} (hm : x.compress = some m)
    (hd : Meta.compress ⟨false, false⟩ x.settings x.source (tracksHeader (quantizeList x.fused x.upper x.rest) x.sampleRate x.wraps) data = some m) :
    C29.Fits ⟨false, false⟩ x.settings x.source (tracksHeader (quantizeList x.fused x.upper x.rest) x.sampleRate x.wraps) data := fun buf hbuf => by
  rw [hd, Option.some.injEq] at hbuf; rw [← hbuf]; exact h.bytes m hm

/-- The duration of a header -/
theorem header_duration (hd : Meta.Header) (rate : ℚ) (n : Nat) (wr : Bool) (h1 : hd.version = 10#16) (h2 : getIsWrapOptimized hd.misc = wr)
    (h3 : hd.numSamples = BitVec.ofNat 32 n) (h4 : 1 ≤ n) (h5 : n < 2 ^ 32 - 1) :
    Meta.durationSamples hd .asCompressed = loopedNumSamples ⟨n, rate, false, wr⟩ (if wr then .wrap else .clamp) := by
  have hpol : Meta.durationPolicy hd .asCompressed = if wr then .wrap else .clamp := by
    unfold Meta.durationPolicy
    rw [h1, h2]
    rfl
  have hnz : BitVec.ofNat 32 n ≠ 0#32 := by
    intro hz
    have := congrArg BitVec.toNat hz
    rw [BitVec.toNat_ofNat, Nat.mod_eq_of_lt (by omega)] at this
    simp at this; omega
  unfold Meta.durationSamples loopedNumSamples
  rw [hpol, h3]
  cases wr
  · simp [resolveLooping, Nat.mod_eq_of_lt (show n < 4294967296 by omega)]
  · have hnz' : n ≠ 0 := by omega
    simp [resolveLooping, hnz, hnz', BitVec.toNat_add]

theorem duration_read {x : Input} (h : InputOk x) (hs : Sampled x) {m : Bytes} (hm : x.compress = some m) :
    Meta.getFiniteDuration m .asCompressed = some (x.clip.finiteDuration (policyOf x)) := by
  obtain ⟨-, b, hb⟩ := header_read h hm
  have hk1 : 1 ≤ x.kept := (rest_valid h).nonempty
  have hkle := kept_le x
  have hn := hs.samples
  have hpow : 2 ^ 21 < 2 ^ 32 - 1 := by norm_num
  have hmap : x.source.mapping.length ≠ 0 := by rw [h.mapping]; exact fun hz => h.outputs (List.length_eq_zero_iff.1 hz)
  have e1 : (Meta.headerOf x.source (tracksHeader (quantizeList x.fused x.upper x.rest) x.sampleRate x.wraps) b).version = 10#16 := rfl
  have e2 : getIsWrapOptimized (Meta.headerOf x.source (tracksHeader (quantizeList x.fused x.upper x.rest) x.sampleRate x.wraps) b).misc = x.wraps :=
    wraps_kept _ _
  have e3 : (Meta.headerOf x.source (tracksHeader (quantizeList x.fused x.upper x.rest) x.sampleRate x.wraps) b).numSamples = BitVec.ofNat 32 x.kept := by
    unfold Meta.headerOf; dsimp only; rw [if_pos hmap]; rfl
  have e4 : (Meta.headerOf x.source (tracksHeader (quantizeList x.fused x.upper x.rest) x.sampleRate x.wraps) b).sampleRate = x.sampleRate := by
    unfold Meta.headerOf; dsimp only; rw [if_pos hmap]; rfl
  unfold Meta.getFiniteDuration
  rw [hb, Option.map_some]
  generalize Meta.headerOf _ _ _ = hd at *
  rw [header_duration hd (ofBits x.sampleRate) x.kept x.wraps e1 e2 e3 hk1 (by omega), e4]
  rfl

theorem info_read {x : Input} (h : InputOk x) (hs : Sampled x) {m : Bytes} (hm : x.compress = some m) {t : Nat} (hlt : t < x.list.outputIndices.length) :
    ∃ tr, C29.outputTrack x.source t = some tr ∧
      scalarInfo m t = some (if x.settings.descriptions then some ⟨t, tr.precision⟩ else none, if x.settings.trackNames then tr.name else []) := by
  obtain ⟨data, hd⟩ := buffer_meta hm
  have hfits := fits h hm hd
  obtain ⟨buf, h1, h2, -⟩ := C29.C29_scalar_description _ _ _ _ data h.source hfits hs.scalar
  obtain ⟨buf', h1', h2', -⟩ := C29.C29_track_name _ _ _ _ data h.source hfits
  rw [hd, Option.some.injEq] at h1 h1'
  subst h1; subst h1'
  have hmap : t < x.source.mapping.length := by rw [h.mapping]; exact hlt
  obtain ⟨tr, htr⟩ : ∃ tr, C29.outputTrack x.source t = some tr := by
    unfold C29.outputTrack
    rw [List.getElem?_eq_getElem hmap, Option.bind_some]
    exact ⟨_, List.getElem?_eq_getElem (h.source.mapped _ (List.getElem_mem hmap))⟩
  refine ⟨tr, htr, ?_⟩
  unfold scalarInfo
  rw [h2 t tr htr, Option.bind_some, h2' t tr htr]
  rfl

theorem name_read {x : Input} (h : InputOk x) {m : Bytes} (hm : x.compress = some m) :
    ∃ n, Meta.getName m = some n ∧ text n = if x.settings.listName && x.settings.trackNames then x.source.listName else [] := by
  obtain ⟨data, hd⟩ := buffer_meta hm
  have hfits := fits h hm hd
  obtain ⟨buf, h1, h2, h3⟩ := C29.C29_name_partial _ _ _ _ data h.source hfits
  rw [hd, Option.some.injEq] at h1
  subst h1
  cases hl : x.settings.listName with
  | false =>
    rcases h3 hl with h | h
    · exact ⟨_, h, rfl⟩
    · exact ⟨_, h, rfl⟩
  | true =>
    cases hn : x.settings.trackNames with
    | true => exact ⟨_, h2 hl hn, rfl⟩
    | false =>
      obtain ⟨buf, h1, h2, -⟩ := C29.C29_name_finding _ _ _ _ data h.source hfits hl hn
      rw [hd, Option.some.injEq] at h1
      subst h1
      exact ⟨_, h2, rfl⟩

/-! ### Seeking with the same context -/

/-- What is known of the context between two samples -/
structure Bound (w : World) (a : Nat) (x : Input) (c : Context.Ctx (BitVec 32 × BitVec 32 × ℚ)) : Prop where
  tracks : c.tracks = some a
  db : c.db = none
  looping : c.looping = policyOf x
  duration : c.duration = x.clip.finiteDuration (policyOf x)
  held : c.sampleTime = -1 ∨ ∃ q, c.seen = some q ∧
    scalarKind.compute settings w (w.tracks a) none (policyOf x) c.sampleTime c.rounding = some q

theorem clip_read {x : Input} (h : InputOk x) {m : Bytes} (hm : x.compress = some m) {supported : Nat → Bool} {w : World} {a : Nat}
    (ha : Scalar.tracksOf supported m = some (w.tracks a)) :
    (w.tracks a).isValid = true ∧ (w.tracks a).isVersionSupported = supported 10 ∧ (w.tracks a).clip = x.clip := by
  have hcount := h.count
  have hkle := kept_le x
  have hlen := h.bytes m hm
  rw [compress_eq] at hm
  obtain ⟨clip, o⟩ := opened x.settings x.source h.source (quantizeList x.fused x.upper x.rest) x.sampleRate x.wraps m h.mapping
    (by show x.kept < 2 ^ 32; omega) hm hlen
  obtain ⟨tr, t1, t2, t3, t4, t5, t6⟩ := o.tracks supported
  rw [ha, Option.some.injEq] at t1
  subst t1
  exact ⟨t2, t3, t6 h.outputs⟩

theorem init_bound {x : Input} (h : InputOk x) {m : Bytes} (hm : x.compress = some m) {supported : Nat → Bool} (hv : supported 10 = true) {w : World} {a : Nat}
    (ha : Scalar.tracksOf supported m = some (w.tracks a)) : ∃ c, initCtx scalarKind settings w {} a none = some (c, true) ∧ Bound w a x c := by
  obtain ⟨g2, g3, g5⟩ := clip_read h hm ha
  obtain ⟨-, ⟨c, h0, -⟩, -⟩ := C50.fresh_exists scalarKind settings w a none (Or.inr rfl) .asCompressed (by unfold checks; simp [g2, g3, hv])
  rcases C20.init_cases h0 with ⟨hb, -⟩ | ⟨-, hb⟩
  · cases hb
  obtain ⟨b1, b2, -, b4, b5, b6⟩ := C20.bind_fields hb
  have hl : c.looping = policyOf x := by
    rw [b5, if_pos (show settings.wrapping = true from rfl)]
    unfold Tracks.loopingPolicy policyOf
    rw [g5]
    rfl
  exact ⟨c, h0, b1, b2, hl, by rw [b6, hl, g5], Or.inl b4⟩

/-- What is read at the time of sample `i`: the two frames, one of them is `i` and the factor picks it. -/
theorem picked {x : Input} (h : InputOk x) (hs : Sampled x) {i : Nat} (hi : i < x.kept) {n0 n1 : Nat} {al : ℚ}
    (hq : Interp.seek x.clip (policyOf x) true (fdiv i (ofBits x.sampleRate)) .nearest = some (n0, n1, al)) :
    (n0 = i ∧ al = 0) ∨ (n1 = i ∧ al = 1) := by
  have hkle := kept_le x
  have hn := hs.samples
  have hpow : 2 ^ 21 ≤ 2 ^ 23 - 4 := by norm_num
  have hpow2 : 2 ^ 21 < 2 ^ 24 - 1 := by norm_num
  obtain ⟨-, t2, t3⟩ := C72.time_eq x.clip (policyOf x) (i := i) hi (show x.kept < _ by omega) h.rate.1 hs.duration
  obtain ⟨i0, -, -, i3, -⟩ := C50.samples_at x.clip (policyOf x) (policyOf_ne x) (fdiv i (ofBits x.sampleRate)) .nearest (show 1 ≤ x.kept by omega)
    (show x.kept ≤ _ by omega) h.rate t2 _ rfl
  have t3' : clampTime (fdiv i (ofBits x.sampleRate)) (x.clip.finiteDuration (policyOf x)) = fdiv i (ofBits x.sampleRate) := t3
  rw [t3'] at i0 i3
  unfold Interp.seek at hq
  have hres : resolveLooping x.clip (policyOf x) = policyOf x := by
    have := policyOf_ne x
    generalize policyOf x = l at *
    cases l <;> first | rfl | exact absurd rfl this
  rw [if_pos rfl, hres, t3'] at hq
  have hne : |fmul (fdiv i (ofBits x.sampleRate)) (ofBits x.sampleRate) - i| ≤ 3 / 8 := C72.index_near (by omega) h.rate.1 h.rate.2
  have e : x.clip.sampleRate = ofBits x.sampleRate := rfl
  rw [e] at i0 i3 hq
  generalize fmul (fdiv i (ofBits x.sampleRate)) (ofBits x.sampleRate) = X at *
  have hic : (i : ℚ) + 1 ≤ x.kept := by exact_mod_cast hi
  have hX : X < x.kept := by have := (abs_le.mp hne).2; linarith
  obtain ⟨hp, hk⟩ := C72.position_near i0 hne
  rw [i3 hX, Option.some.injEq, Prod.mk.injEq, Prod.mk.injEq] at hq
  obtain ⟨rfl, rfl, rfl⟩ := hq
  have hfl : (⌊X⌋ : ℚ) = (⌊X⌋.toNat : ℚ) := by
    have : (0 : Int) ≤ ⌊X⌋ := Int.floor_nonneg.mpr i0
    have e : ((⌊X⌋.toNat : Int)) = ⌊X⌋ := Int.toNat_of_nonneg this
    exact_mod_cast e.symm
  unfold C50.position at hp
  rcases hk with hk | hk
  · left
    refine ⟨hk, ?_⟩
    rw [hk] at hfl
    linarith
  · right
    constructor
    · unfold C50.following
      rw [if_pos (show ⌊X⌋.toNat + 1 < x.clip.numSamples from (show ⌊X⌋.toNat + 1 < x.kept by omega)), hk]
    · have : ((⌊X⌋.toNat : ℚ)) + 1 = i := by exact_mod_cast hk
      linarith

theorem round_picked {al : ℚ} (h : al = 0 ∨ al = 1) : evalAlpha al .roundedNearest = al := by
  rcases h with rfl | rfl
  · exact nearest_below le_rfl (by norm_num)
  · exact nearest_ge_half (by norm_num) le_rfl

/-- Specification: the value of output track `j` of sample `i`: as many components as the type of the list has, each within the precision of the input. -/
def SampleOk (x : Input) (i j : Nat) (v : List ℚ) : Prop :=
  v.length = numSampleElements x.list.trackType ∧ ∀ (hj : j < x.list.outputIndices.length), ∀ k < numSampleElements x.list.trackType, ∃ c, v[k]? = some c ∧ IsFloat c ∧
    |fsub (x.list.value x.list.outputIndices[j] i k) c| ≤ x.list.precision x.list.outputIndices[j]

theorem fold_write (fused : Bool) (al : ℚ) (type : TrackType) (value : Nat → Value) (n : Nat) (buf : ScalarBuffer) {j : Nat} (hj : j < n) :
    (((List.range n).flatMap fun j => [(⟨type, j, value j⟩ : Event)]).foldl (ScalarBuffer.write fused al) buf) j =
      (List.range (numSampleElements type)).map fun k => evalValue fused al k (value j) := by
  induction n with
  | zero => omega
  | succ n ih =>
    rw [List.range_succ, List.flatMap_append, List.foldl_append, List.flatMap_singleton, List.foldl_cons, List.foldl_nil]
    unfold ScalarBuffer.write
    dsimp only
    by_cases hjn : n = j
    · rw [if_pos hjn, hjn]
    · rw [if_neg hjn]
      exact ih (by omega)

/-- One iteration of the loop over the samples -/
theorem sample_at {x : Input} (h : InputOk x) (hs : Sampled x) {m : Bytes} (hm : x.compress = some m) {supported : Nat → Bool} (hv : supported 10 = true)
    {w : World} {a : Nat} (ha : Scalar.tracksOf supported m = some (w.tracks a)) {i : Nat} (hi : i < x.kept)
    {c : Context.Ctx (BitVec 32 × BitVec 32 × ℚ)} (hb : Bound w a x c) (buf : ScalarBuffer) :
    ∃ c' q pose ev, Context.seek scalarKind settings w c (Convert.sampleTime i (ofBits x.sampleRate) (x.clip.finiteDuration (policyOf x))) .nearest = some c' ∧
      c'.seen = some q ∧ Bound w a x c' ∧ contextOf m q .nearest = some pose ∧ decompressTracks pose scalarWriter = some ev ∧
      ∀ j, j < x.list.outputIndices.length → SampleOk x i j ((ev.foldl (ScalarBuffer.write x.fused q.2.2) buf) j) := by
  have hkle := kept_le x
  have hn := hs.samples
  have hpow2 : 2 ^ 21 < 2 ^ 24 - 1 := by norm_num
  obtain ⟨t1, t2, t3⟩ := C72.time_eq x.clip (policyOf x) (i := i) hi (show x.kept < _ by omega) h.rate.1 hs.duration
  have t1' : Convert.sampleTime i (ofBits x.sampleRate) (x.clip.finiteDuration (policyOf x)) = fdiv i (ofBits x.sampleRate) := t1
  have t3' : clampTime (fdiv i (ofBits x.sampleRate)) (x.clip.finiteDuration (policyOf x)) = fdiv i (ofBits x.sampleRate) := t3
  have e0 : 0 ≤ fdiv (i : ℚ) (ofBits x.sampleRate) := rnd_nonneg (div_nonneg (by positivity) h.rate.1.le)
  obtain ⟨m', hm', H⟩ := C58_sample_at_time x h
  rw [hm, Option.some.injEq] at hm'
  subst hm'
  obtain ⟨q, ctx, n0, n1, value, d1, d2, d3, d4, d5, d6, -, d8, d9⟩ := H supported hv settings rfl w a ha (policyOf x) (fdiv i (ofBits x.sampleRate)) t2 .nearest
    .nearest rfl scalarWriter rfl (by intro j _; simp [scalarWriter])
  rw [effective_policy] at d2
  have hpick := picked h hs hi d2
  obtain ⟨y, y', f0, f1, f2⟩ := d1.seeks
  obtain ⟨k1, k2, k3, k4, k5⟩ := C20.fresh_fields f0 (policyOf_ne x) (by simp [settings])
  obtain ⟨-, -, g5⟩ := clip_read h hm ha
  rw [g5] at k5
  have e : C20.usedTime settings y (fdiv i (ofBits x.sampleRate)) = fdiv i (ofBits x.sampleRate) := by
    unfold C20.usedTime
    rw [k5]
    exact t3
  have hne : ¬ scalarKind.isEmpty (w.tracks a) = true := by
    show ¬ ((w.tracks a).clip.numSamples == 0) = true
    rw [g5]
    show ¬ (x.kept == 0) = true
    rw [beq_iff_eq]; omega
  have hq : scalarKind.compute settings w (w.tracks a) none (policyOf x) (fdiv i (ofBits x.sampleRate)) .nearest = some q := by
    rcases C20.seek_cases k1 f1 with ⟨hx, hc⟩ | ⟨he, hc, q', hq, hx⟩
    · exfalso
      rcases hc with hc | ⟨-, hc, -⟩
      · exact hne hc
      · rw [k3, e] at hc
        linarith
    · subst hx
      rw [k2, e] at hq
      have hL : C20.eff settings y = policyOf x := by unfold C20.eff; rw [k4]; rfl
      rw [hL] at hq
      unfold observe at f2
      dsimp only at f2
      rw [k1] at f2
      dsimp only at f2
      split at f2
      · cases f2
      · simp only [Option.some.injEq, Prod.mk.injEq] at f2
        rw [hq, f2.2.1]
  have hseek : ∃ c', Context.seek scalarKind settings w c (Convert.sampleTime i (ofBits x.sampleRate) (x.clip.finiteDuration (policyOf x))) .nearest = some c' ∧
      c'.seen = some q ∧ Bound w a x c' := by
    rw [t1', C20.seek_eq hb.tracks, if_neg hne]
    have e : C20.usedTime settings c (fdiv i (ofBits x.sampleRate)) = fdiv i (ofBits x.sampleRate) := by
      unfold C20.usedTime
      rw [hb.duration]
      exact t3
    have hL : C20.eff settings c = policyOf x := by unfold C20.eff; rw [hb.looping]; rfl
    rw [e, hL, hb.db]
    by_cases hc : c.sampleTime = fdiv i (ofBits x.sampleRate) ∧ c.rounding = .nearest
    · rw [if_pos hc]
      refine ⟨c, rfl, ?_, hb⟩
      rcases hb.held with hh | ⟨q', h1, h2⟩
      · rw [hh] at hc; linarith [hc.1]
      · rw [hc.1, hc.2, hq] at h2
        rw [h1, ← h2]
    · rw [if_neg hc, hq, Option.bind_some]
      exact ⟨_, rfl, rfl, ⟨hb.tracks, rfl, hb.looping, hb.duration, Or.inr ⟨q, rfl, hq⟩⟩⟩
  obtain ⟨c', s1, s2, s3⟩ := hseek
  refine ⟨c', q, ctx, _, s1, s2, s3, d1.context, d8, fun j hj => ?_⟩
  have hw : (fun j => if scalarWriter.skip j then [] else [(⟨x.list.trackType, j, value j⟩ : Event)]) = fun j => [⟨x.list.trackType, j, value j⟩] := rfl
  rw [hw, fold_write _ _ _ _ _ _ hj]
  refine ⟨by simp, fun _ k hk => ⟨evalValue x.fused q.2.2 k (value j), by simp [hk], ?_⟩⟩
  have hwi := d9 j hj k hk
  have hal : C35.alphaOf scalarWriter .nearest j = .roundedNearest := rfl
  rw [hal, round_picked (by rcases hpick with h | h; exact Or.inl h.2; exact Or.inr h.2)] at hwi
  rcases hpick with ⟨p1, p2⟩ | ⟨p1, p2⟩
  · rw [p1, p2] at hwi
    rw [p2]
    refine ⟨?_, C48.C48_key_frame.1 hwi⟩
    obtain ⟨d0, d1, f0, f1, -, -, h | h⟩ := hwi
    · rw [h, Lerp.lerp_zero x.fused f0]; exact f0
    · rw [h.1]; exact f0
  · rw [p1, p2] at hwi
    rw [p2]
    refine ⟨?_, C48.C48_key_frame.2 hwi⟩
    obtain ⟨d0, d1, f0, f1, -, -, h | h⟩ := hwi
    · rw [h, Lerp.lerp_one x.fused f0 f1]; exact f1
    · rw [h.1]; exact f0

theorem samples_at {x : Input} (h : InputOk x) (hs : Sampled x) {m : Bytes} (hm : x.compress = some m) {supported : Nat → Bool} (hv : supported 10 = true)
    {w : World} {a : Nat} (ha : Scalar.tracksOf supported m = some (w.tracks a)) (l : List Nat) :
    ∀ (c : Context.Ctx (BitVec 32 × BitVec 32 × ℚ)) (buf : ScalarBuffer), (∀ i ∈ l, i < x.kept) → Bound w a x c →
      ∃ poses, sampleScalars x.fused w m (ofBits x.sampleRate) (x.clip.finiteDuration (policyOf x)) l c buf = some poses ∧ poses.length = l.length ∧
        ∀ (n i : Nat) (p : ScalarBuffer), l[n]? = some i → poses[n]? = some p → ∀ j, j < x.list.outputIndices.length → SampleOk x i j (p j) := by
  induction l with
  | nil => exact fun c buf _ _ => ⟨[], rfl, rfl, fun j i p hj => by simp at hj⟩
  | cons i r ih =>
    intro c buf hl hb
    obtain ⟨c', q, pose, ev, s1, s2, s3, s4, s5, s6⟩ := sample_at h hs hm hv ha (hl i (by simp)) hb buf
    obtain ⟨poses, r1, r2, r3⟩ := ih c' (ev.foldl (ScalarBuffer.write x.fused q.2.2) buf) (fun k hk => hl k (by simp [hk])) s3
    refine ⟨ev.foldl (ScalarBuffer.write x.fused q.2.2) buf :: poses, ?_, by simp [r2], ?_⟩
    · unfold sampleScalars
      rw [s1, Option.bind_some, s2, Option.bind_some, s4, Option.bind_some, s5, Option.bind_some, r1, Option.map_some]
    · intro n k p hj hp
      cases n with
      | zero =>
        simp only [List.getElem?_cons_zero, Option.some.injEq] at hj hp
        subst hj; subst hp
        exact s6
      | succ n =>
        simp only [List.getElem?_cons_succ] at hj hp
        exact r3 n k p hj hp

/-! ### The conversion -/

/-- Specification: a raw track is what was compressed as output track `j`: its name, its description, and a sample for every frame, within the precision. -/
structure TrackBack (x : Input) (j : Nat) (r : ScalarTrack) : Prop where
  from_ : ∃ tr, C29.outputTrack x.source j = some tr ∧ r.name = (if x.settings.trackNames then tr.name else []) ∧ r.desc = ⟨j, tr.precision⟩
  count : r.samples.length = x.kept
  sampled : ∀ (i : Nat) (v : List ℚ), r.samples[i]? = some v → SampleOk x i j v

/-- **Back to raw tracks.** A scalar list that was compressed with its descriptions is converted: the raw list has the type and the sample rate, a track for
every output track with its name and its description, and sample `i` of a track is within its precision of sample `i` of the input, in every component. There
are as many samples as the input has, but for the last one when it was dropped as the loop optimization does. -/
theorem C77_scalar (x : Input) (h : InputOk x) (hs : Sampled x) (hd : x.settings.descriptions = true) :
    ∃ m, x.compress = some m ∧ ∀ (supported : Nat → Bool) (_ : supported 10 = true) (w : World) (a : Nat)
      (_ : Scalar.tracksOf supported m = some (w.tracks a)),
      ∃ r, convertScalar x.fused w a m = some (.ok r) ∧ r.name = (if x.settings.listName && x.settings.trackNames then x.source.listName else []) ∧
        r.type = x.list.trackType ∧ r.sampleRate = x.sampleRate ∧ r.looping = .clamp ∧ r.tracks.length = x.list.outputIndices.length ∧
        (∀ j, j < x.list.outputIndices.length → ∃ tr, r.tracks[j]? = some tr ∧ TrackBack x j tr) ∧
        (x.kept = x.list.numSamples ∨ (x.kept + 1 = x.list.numSamples ∧ x.wraps = true ∧ x.optimizeLoops = true)) := by
  obtain ⟨m, hm, -⟩ := C58_sample_at_time x h
  refine ⟨m, hm, fun supported hv w a ha => ?_⟩
  obtain ⟨hvalid, b, hb⟩ := header_read h hm
  have hkle := kept_le x
  have hn := hs.samples
  have hpow : 2 ^ 21 < 2 ^ 32 := by norm_num
  obtain ⟨nm, n1, n2⟩ := name_read h hm
  obtain ⟨infos, i1, i2, i3⟩ := C72.mapM_get (scalarInfo m) (List.range x.list.outputIndices.length) (fun t hlt => by
    obtain ⟨tr, -, q⟩ := info_read h hs hm (List.mem_range.mp hlt)
    exact ⟨_, q⟩)
  rw [List.length_range] at i2
  have hinfo : ∀ t, t < x.list.outputIndices.length → ∃ tr, C29.outputTrack x.source t = some tr ∧
      infos[t]? = some (some ⟨t, tr.precision⟩, if x.settings.trackNames then tr.name else []) := by
    intro t hlt
    obtain ⟨tr, q1, q3⟩ := info_read h hs hm hlt
    obtain ⟨y, y1, y2⟩ := i3 t t (by rw [List.getElem?_range hlt])
    rw [q3, Option.some.injEq] at y1
    rw [hd, if_pos rfl] at y1
    exact ⟨tr, q1, by rw [y2, ← y1]⟩
  obtain ⟨descs, d1, d2, d3⟩ := C72.mapM_get (fun x : Option Meta.ScalarDesc × Bytes => x.1) infos (fun x hx => by
    obtain ⟨t, hlt, rfl⟩ := List.getElem_of_mem hx
    obtain ⟨tr, -, q⟩ := hinfo t (by omega)
    rw [List.getElem?_eq_getElem hlt, Option.some.injEq] at q
    exact ⟨_, by rw [q]⟩)
  obtain ⟨c, c1, c2⟩ := init_bound h hm hv ha
  obtain ⟨poses, p1, p2, p3⟩ := samples_at h hs hm hv ha (List.range x.kept) c (fun _ => []) (fun i hi => List.mem_range.mp hi) c2
  rw [List.length_range] at p2
  have hmap : x.source.mapping.length ≠ 0 := by rw [h.mapping]; exact fun hz => h.outputs (List.length_eq_zero_iff.1 hz)
  have hnum : (Meta.headerOf x.source (tracksHeader (quantizeList x.fused x.upper x.rest) x.sampleRate x.wraps) b).numTracks.toNat =
      x.list.outputIndices.length := by
    dsimp only [Meta.headerOf]
    rw [BitVec.toNat_ofNat, Nat.mod_eq_of_lt h.source.count, h.mapping]
  have hsam : (Meta.headerOf x.source (tracksHeader (quantizeList x.fused x.upper x.rest) x.sampleRate x.wraps) b).numSamples.toNat = x.kept := by
    dsimp only [Meta.headerOf, tracksHeader]
    rw [if_pos hmap, BitVec.toNat_ofNat]
    exact Nat.mod_eq_of_lt (show x.kept < 2 ^ 32 by omega)
  have hrate : (Meta.headerOf x.source (tracksHeader (quantizeList x.fused x.upper x.rest) x.sampleRate x.wraps) b).sampleRate = x.sampleRate := by
    dsimp only [Meta.headerOf, tracksHeader]
    rw [if_pos hmap]
  have htype : Scalar.typeOf (Meta.headerOf x.source (tracksHeader (quantizeList x.fused x.upper x.rest) x.sampleRate x.wraps) b).trackType = some x.list.trackType := by
    dsimp only [Meta.headerOf, tracksHeader]
    exact typeOf_number _
  have hconv : convertScalar x.fused w a m = some (.ok ⟨text nm, x.list.trackType, x.sampleRate,
      (List.range x.list.outputIndices.length).filterMap fun t => (infos[t]?).bind fun x => x.1.map fun d => ⟨x.2, d, poses.map fun b => b t⟩, .clamp⟩) := by
    unfold convertScalar
    rw [hvalid, Option.bind_some, if_neg (by simp), hb, Option.bind_some, htype, Option.bind_some, duration_read h hs hm, Option.bind_some, n1, Option.bind_some,
      hnum, hsam, hrate, i1, Option.bind_some, d1]
    dsimp only
    rw [c1, Option.bind_some, p1, Option.map_some]
  have hfm : ∀ t, t < x.list.outputIndices.length → ∃ tr, C29.outputTrack x.source t = some tr ∧
      ((List.range x.list.outputIndices.length).filterMap fun t => (infos[t]?).bind fun x => x.1.map fun d =>
        (⟨x.2, d, poses.map fun b => b t⟩ : ScalarTrack))[t]? = some ⟨if x.settings.trackNames then tr.name else [], ⟨t, tr.precision⟩, poses.map fun b => b t⟩ ∧
      ((List.range x.list.outputIndices.length).filterMap fun t => (infos[t]?).bind fun x => x.1.map fun d =>
        (⟨x.2, d, poses.map fun b => b t⟩ : ScalarTrack)).length = x.list.outputIndices.length := by
    have e : ((List.range x.list.outputIndices.length).filterMap fun t => (infos[t]?).bind fun x => x.1.map fun d =>
        (⟨x.2, d, poses.map fun b => b t⟩ : ScalarTrack)) = (List.range x.list.outputIndices.length).map fun t =>
          ⟨((infos[t]?).map (·.2)).getD [], (((infos[t]?).map (·.1)).join).getD ⟨0, 0⟩, poses.map fun b => b t⟩ := by
      rw [← List.filterMap_eq_map]
      apply List.filterMap_congr
      intro t hlt
      obtain ⟨tr, -, q⟩ := hinfo t (List.mem_range.mp hlt)
      rw [Function.comp_apply, q]
      rfl
    intro t hlt
    obtain ⟨tr, q1, q⟩ := hinfo t hlt
    refine ⟨tr, q1, ?_, by rw [e]; simp⟩
    rw [e, List.getElem?_map, List.getElem?_range hlt, Option.map_some, q]
    rfl
  have hout : 0 < x.list.outputIndices.length := List.length_pos_iff.mpr h.outputs
  obtain ⟨-, -, -, hlen⟩ := hfm 0 hout
  refine ⟨_, hconv, n2, rfl, rfl, rfl, hlen, ?_, ?_⟩
  · intro j hj
    obtain ⟨tr, q1, q2, -⟩ := hfm j hj
    refine ⟨_, q2, ⟨tr, q1, rfl, rfl⟩, by simp [p2], ?_⟩
    intro i v hi
    dsimp only at hi
    rw [List.getElem?_map, Option.map_eq_some_iff] at hi
    obtain ⟨p, hp, rfl⟩ := hi
    have hip : i < x.kept := by have := (List.getElem?_eq_some_iff.mp hp).1; omega
    exact p3 i i p (List.getElem?_range hip) hp j hj
  · rcases kept_cases x with h' | h'
    · exact Or.inl h'.1
    · refine Or.inr ⟨h'.1, h'.2.1, ?_⟩
      by_contra hc
      have : x.kept = x.list.numSamples := by
        unfold Input.kept optimized LoopOptimize.optimizeLooping
        rw [if_pos]
        · rfl
        · have : x.optimizeLoops = false := by cases hb' : x.optimizeLoops; rfl; exact absurd hb' hc
          rw [this]; rfl
      omega

/-- Two floats whose difference rounds to zero are equal. -/
theorem eq_of_fsub {a b : ℚ} (ha : IsFloat a) (hb : IsFloat b) (h : |fsub a b| ≤ 0) : a = b := by
  have grid : ∀ {y : ℚ}, IsFloat y → ∃ n : Int, y = n * pow2 (-149) := by
    rintro y ⟨m, e, rfl, -, he, -⟩
    refine ⟨m * 2 ^ (e + 149).toNat, ?_⟩
    have hp : pow2 e = 2 ^ (e + 149).toNat * pow2 (-149) := by
      have h1 : ((e + 149).toNat : Int) = e + 149 := Int.toNat_of_nonneg (by omega)
      rw [show e = (e + 149) + (-149) by ring, pow2_add]
      congr 1
      rw [← h1]
      simp [pow2]
      omega
    rw [hp]; push_cast; ring
  obtain ⟨m, rfl⟩ := grid ha
  obtain ⟨n, rfl⟩ := grid hb
  have hp := pow2_pos (-149)
  have h0 : rnd ((m : ℚ) * pow2 (-149) - n * pow2 (-149)) = 0 := by
    unfold fsub at h
    exact abs_nonpos_iff.mp h
  have hr : rnd (pow2 (-149)) = pow2 (-149) := by
    have := rnd_exact (m := 1) (e := -149) (by norm_num) (by norm_num)
    simpa using this
  rw [← sub_mul, ← Int.cast_sub] at h0
  rcases lt_trichotomy (m - n) 0 with hlt | heq | hgt
  · exfalso
    have h1 : ((m - n : Int) : ℚ) * pow2 (-149) ≤ -pow2 (-149) := by
      have : ((m - n : Int) : ℚ) ≤ -1 := by exact_mod_cast (show m - n ≤ -1 by omega)
      nlinarith
    have h2 := rnd_mono h1
    rw [rnd_neg, hr, h0] at h2
    linarith
  · have : m = n := by omega
    rw [this]
  · exfalso
    have h1 : pow2 (-149) ≤ ((m - n : Int) : ℚ) * pow2 (-149) := by
      have : (1 : ℚ) ≤ ((m - n : Int) : ℚ) := by exact_mod_cast (show 1 ≤ m - n by omega)
      nlinarith
    have h2 := rnd_mono h1
    rw [hr, h0] at h2
    linarith

/-- **The error.** Every component of every sample that comes back differs from the input by at most the precision of the track, up to a relative rounding of
`2^-23`; with a precision of zero the sample is exactly the input. -/
theorem C77_error (x : Input) (h : InputOk x) (hs : Sampled x) (hd : x.settings.descriptions = true) :
    ∃ m, x.compress = some m ∧ ∀ (supported : Nat → Bool) (_ : supported 10 = true) (w : World) (a : Nat)
      (_ : Scalar.tracksOf supported m = some (w.tracks a)),
      ∃ r, convertScalar x.fused w a m = some (.ok r) ∧ ∀ j (hj : j < x.list.outputIndices.length), ∃ tr, r.tracks[j]? = some tr ∧
        x.list.numSamples ≤ tr.samples.length + 1 ∧ (x.optimizeLoops = false → tr.samples.length = x.list.numSamples) ∧
        ∀ (i : Nat) (v : List ℚ), tr.samples[i]? = some v → v.length = numSampleElements x.list.trackType ∧
          ∀ k < numSampleElements x.list.trackType, ∃ c, v[k]? = some c ∧
            |x.list.value x.list.outputIndices[j] i k - c| ≤ x.list.precision x.list.outputIndices[j] * (1 + 1 / 2 ^ 23) + pow2 (-149) ∧
            (x.list.precision x.list.outputIndices[j] = 0 → c = x.list.value x.list.outputIndices[j] i k) := by
  obtain ⟨m, hm, H⟩ := C77_scalar x h hs hd
  refine ⟨m, hm, fun supported hv w a ha => ?_⟩
  obtain ⟨r, h1, -, -, -, -, -, h2, h3⟩ := H supported hv w a ha
  refine ⟨r, h1, fun j hj => ?_⟩
  obtain ⟨tr, t1, t2⟩ := h2 j hj
  refine ⟨tr, t1, ?_, ?_, fun i v hi => ?_⟩
  · rw [t2.count]; omega
  · intro ho
    rw [t2.count]
    rcases h3 with h3 | h3
    · exact h3
    · rw [ho] at h3; simp at h3
  · obtain ⟨s1, s2⟩ := t2.sampled i v hi
    refine ⟨s1, fun k hk => ?_⟩
    obtain ⟨c, c1, c2, c3⟩ := s2 hj k hk
    refine ⟨c, c1, C48.exact_of_fsub c3, fun h0 => ?_⟩
    rw [h0] at c3
    exact (eq_of_fsub (Scalar.value_ok h.samples (List.getElem_mem hj) i k).1 c2 c3).symm

/-- Without the descriptions there is an error. -/
theorem C77_missing (x : Input) (h : InputOk x) (hs : Sampled x) (hd : x.settings.descriptions = false) :
    ∃ m, x.compress = some m ∧ ∀ (w : World) (a : Nat), convertScalar x.fused w a m = some (.error .missingMetadata) := by
  obtain ⟨m, hm, -⟩ := C58_sample_at_time x h
  refine ⟨m, hm, fun w a => ?_⟩
  obtain ⟨hvalid, b, hb⟩ := header_read h hm
  obtain ⟨nm, n1, n2⟩ := name_read h hm
  have hout : 0 < x.list.outputIndices.length := List.length_pos_iff.mpr h.outputs
  obtain ⟨infos, i1, i2, i3⟩ := C72.mapM_get (scalarInfo m) (List.range x.list.outputIndices.length) (fun t hlt => by
    obtain ⟨tr, -, q⟩ := info_read h hs hm (List.mem_range.mp hlt)
    exact ⟨_, q⟩)
  have hnone : infos.mapM (fun x : Option Meta.ScalarDesc × Bytes => x.1) = none := by
    obtain ⟨tr, -, q3⟩ := info_read h hs hm (t := 0) hout
    obtain ⟨y, y1, y2⟩ := i3 0 0 (by rw [List.getElem?_range hout])
    rw [q3, Option.some.injEq, hd, if_neg (by simp)] at y1
    cases infos with
    | nil => simp at y2
    | cons z zs =>
      simp only [List.getElem?_cons_zero, Option.some.injEq] at y2
      rw [List.mapM_cons, y2, ← y1]
      rfl
  have hnum : (Meta.headerOf x.source (tracksHeader (quantizeList x.fused x.upper x.rest) x.sampleRate x.wraps) b).numTracks.toNat =
      x.list.outputIndices.length := by
    dsimp only [Meta.headerOf]
    rw [BitVec.toNat_ofNat, Nat.mod_eq_of_lt h.source.count, h.mapping]
  have htype : Scalar.typeOf (Meta.headerOf x.source (tracksHeader (quantizeList x.fused x.upper x.rest) x.sampleRate x.wraps) b).trackType = some x.list.trackType := by
    dsimp only [Meta.headerOf, tracksHeader]
    exact typeOf_number _
  unfold convertScalar
  rw [hvalid, Option.bind_some, if_neg (by simp), hb, Option.bind_some, htype, Option.bind_some, duration_read h hs hm, Option.bind_some, n1, Option.bind_some,
    hnum, i1, Option.bind_some, hnone]

/-- Tracks that are not valid are refused. -/
theorem C77_invalid {m : Bytes} {v : Validity} (hv : tracksIsValid m true false = some v) (hne : v ≠ .ok) (fused : Bool) (w : World) (a : Nat) :
    convertScalar fused w a m = some (.error .invalid) := by
  unfold convertScalar
  rw [hv, Option.bind_some, if_pos hne]

/-- **Finding: the end of a loop is lost.** When the compressor found that the list loops it dropped the last sample; the raw list that comes back has one
sample less than the list that was compressed and does not loop: its duration is one interval shorter. -/
theorem C77_looping_finding (x : Input) (h : InputOk x) (hs : Sampled x) (hd : x.settings.descriptions = true) (hl : x.kept ≠ x.list.numSamples) :
    ∃ m, x.compress = some m ∧ ∀ (supported : Nat → Bool) (_ : supported 10 = true) (w : World) (a : Nat)
      (_ : Scalar.tracksOf supported m = some (w.tracks a)),
      ∃ r, convertScalar x.fused w a m = some (.ok r) ∧ r.looping = .clamp ∧
        ∀ j, j < x.list.outputIndices.length → ∃ tr, r.tracks[j]? = some tr ∧ tr.samples.length + 1 = x.list.numSamples := by
  obtain ⟨m, hm, H⟩ := C77_scalar x h hs hd
  refine ⟨m, hm, fun supported hv w a ha => ?_⟩
  obtain ⟨r, h1, -, -, -, h1', -, h2, h3⟩ := H supported hv w a ha
  refine ⟨r, h1, h1', fun j hj => ?_⟩
  obtain ⟨tr, t1, t2⟩ := h2 j hj
  exact ⟨tr, t1, by rw [t2.count]; omega⟩

/-! ### Example -/

theorem example_sampled : Sampled example_input := ⟨rfl, by decide, by decide +kernel⟩

/-- The hypotheses are met, those of the finding too: two float2 tracks of four samples that loop come back with three samples. -/
example : InputOk example_input ∧ Sampled example_input ∧ example_input.settings.descriptions = true ∧ example_input.kept ≠ example_input.list.numSamples ∧
    ∃ (m : Bytes) (w : World) (r : ScalarList), example_input.compress = some m ∧ Scalar.tracksOf (fun _ => true) m = some (w.tracks 0) ∧
      convertScalar example_input.fused w 0 m = some (.ok r) ∧ r.tracks.length = 2 := by
  refine ⟨example_ok, example_sampled, rfl, by rw [example_facts.1]; decide, ?_⟩
  obtain ⟨m, hm, H⟩ := C77_scalar example_input example_ok example_sampled rfl
  have hlen := example_ok.bytes m hm
  have hm' := hm
  rw [compress_eq] at hm'
  obtain ⟨clip, o⟩ := opened example_input.settings example_input.source example_ok.source (quantizeList example_input.fused example_input.upper example_input.rest)
    example_input.sampleRate example_input.wraps m rfl (by show example_input.kept < 2 ^ 32; rw [example_facts.1]; norm_num) hm' hlen
  obtain ⟨tr, t1, -⟩ := o.tracks (fun _ => true)
  obtain ⟨r, h1, -, -, -, -, h2, -⟩ := H (fun _ => true) rfl ⟨fun _ => tr, fun _ => (C20.exWorld 0).databases 0, (C20.exWorld 0).contexts⟩ 0 t1
  exact ⟨m, _, r, hm, t1, h1, h2⟩

end Acl.C77
