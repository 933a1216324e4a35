import Verif.Transform.Compressor
import Verif.Props.C62
import Verif.Props.C64
/-!
C65: from samples to decoded poses, with the search for the bit rates: the error that the compressor computes for a bone at a key
frame is the error of the pose that is decoded there, and every bone is within its precision at every key frame or
it is stored without loss, and so are all its ancestors (full quaternions, a metric that does not get worse with more bits).
Specification vocabulary: `Input`, `Measure`, `Pose` (Transform/Compressor.lean), `RawOk` (Transform/QuantizeClip.lean), `Monotone` (C62),
`RootPath` (HierarchySpec.lean).
-/
namespace Acl.C65
open Acl Acl.F32 Acl.Transform Acl.Search Acl.Hierarchy Acl.Compressor Acl.C49 Acl.Seek.Spec

/-- Specification: the clip is legal, once it has bit rates (`RawOk`, with the highest ones everywhere), and the times of its samples
are floats. -/
structure InputOk (x : Input) : Prop where
  clip : RawOk (ratedClip x fun _ _ => ⟨24, 24, 24⟩)
  parents : ParentsValid x.parents
  ordered : Ordered x.parents
  outputs : ∀ j ∈ x.order, j < x.parents.length
  rate : 0 < x.sampleRate ∧ x.sampleRate < pow2 128
  length : x.clip.numSamples ≤ 2 ^ 21
  duration : Acl.Interp.calculateFiniteDuration x.clip.numSamples x.sampleRate = .fin x.duration ∨
    Acl.Interp.calculateFiniteDuration (x.clip.numSamples + 1) x.sampleRate = .fin x.duration
  /-- without scale, scales are constant -/
  scale : x.clip.hasScale = false → ∀ j, j < x.parents.length → ((x.bones j).flags .scale).isConstant = true

/-- Specification: the X, Y and Z of a constant value that was written -/
def written : Value → Option (Axis → ℚ)
  | .rotation (.full v) => some fun lane => ofBits (v.xyz.lane lane)
  | .rotation (.dropW v) => some fun lane => ofBits (v.lane lane)
  | .vector v => some fun lane => ofBits (v.lane lane)
  | _ => none

/-- Specification: the poses of the bones of the input that were decoded at sample `n` of the clip, from the calls `ev` to the writer:
the first of the two key frames that are combined. A constant sub-track has the value that was written; a default one, which the
writer provides, has the default value of the input. -/
structure Decoded (fused : Bool) (x : Input) (ev : List Event) (P : List Pose) : Prop where
  length : P.length = x.parents.length
  animated : ∀ t j p kind, x.order[t]? = some j → P[j]? = some p → ((x.bones j).flags kind).isConstant = false →
    ∃ d0 d1 how, (ev.filter fun e => e.kind = kind ∧ e.track = t) = [⟨kind, t, .animated (d0, d1) how⟩] ∧
      ∀ lane, p kind lane = evalSample fused lane d0
  constant : ∀ (t j : Nat) (p : Pose) (kind : Kind), x.order[t]? = some j → P[j]? = some p → ((x.bones j).flags kind).isConstant = true →
    ((x.bones j).flags kind).isDefault = false → (kind = .scale → x.clip.hasScale = true) →
    ∃ v, (ev.filter fun e => e.kind = kind ∧ e.track = t) = [⟨kind, t, v⟩] ∧ written v = some (p kind)
  default : ∀ (j : Nat) (p : Pose) (kind : Kind), P[j]? = some p → ((x.bones j).flags kind).isConstant = true →
    (((x.bones j).flags kind).isDefault = true ∨ (kind = .scale ∧ x.clip.hasScale = false)) →
    ∀ lane, p kind lane = constantValue (x.bones j) kind lane

variable {x : Input}

theorem rated_mem {j : Nat} (hj : j ∈ x.order) : rated (x.bones j) (fun _ => ⟨24, 24, 24⟩) ∈ (ratedClip x fun _ _ => ⟨24, 24, 24⟩).bones :=
  List.mem_map.2 ⟨j, hj, rfl⟩

theorem rated_ok (h : InputOk x) (rates : Nat → BitRates)
    (hl : ∀ j, j < x.parents.length → ∀ g, g < x.clip.sizes.length → Allowed (kindsOf x.clip (x.bones j)) (rates g j)) :
    RawOk (ratedClip x rates) where
  bones := by have := h.clip.bones; simpa [ratedClip] using this
  scale := by
    intro hs b hb
    obtain ⟨j, hj, rfl⟩ := List.mem_map.1 hb
    have := h.clip.scale hs _ (rated_mem hj)
    exact this
  default := by
    intro b hb
    obtain ⟨j, hj, rfl⟩ := List.mem_map.1 hb
    have := h.clip.default _ (rated_mem hj)
    exact this
  samples := h.clip.samples
  settings := h.clip.settings
  finite := by
    intro b hb
    obtain ⟨j, hj, rfl⟩ := List.mem_map.1 hb
    have := h.clip.finite _ (rated_mem hj)
    exact this
  rate := by
    intro b hb kind ha hv g hg
    obtain ⟨j, hj, rfl⟩ := List.mem_map.1 hb
    have hlt := h.outputs j hj
    obtain ⟨a1, a2, a3⟩ := hl j hlt g hg
    have ha' : ((x.bones j).flags kind).isConstant = false := ha
    have hv' : x.clip.isVariable kind = true := hv
    have key : AllowedRate (kindOf x.clip (x.bones j) kind) (rateOf (rates g j) kind) := by cases kind <;> assumption
    have hk : (kindOf x.clip (x.bones j) kind) = (true, decide (x.clip.sizes.length > 1)) := by
      unfold kindOf
      rw [hv', ha']
      have : (decide (kind ≠ .scale) || x.clip.hasScale) = true := by
        by_cases hk : kind = .scale
        · subst hk
          cases hs : x.clip.hasScale with
          | true => simp
          | false => rw [h.scale hs j hlt] at ha'; simp at ha'
        · simp [hk]
      rw [this]
      rfl
    rw [hk] at key
    rcases key with ⟨h1, -⟩ | ⟨-, h2, h3⟩
    · simp at h1
    · refine ⟨h2, fun h1 h0 => ?_⟩
      have h1' : x.clip.sizes.length = 1 := h1
      have := h3 h0
      simp [h1'] at this
  memory := by
    intro b hb
    obtain ⟨j, hj, rfl⟩ := List.mem_map.1 hb
    have := h.clip.memory _ (rated_mem hj)
    exact this
  garbage := h.clip.garbage
  hard := h.clip.hard
  small := by
    intro size hs
    have := h.clip.small size hs
    simpa [ratedClip] using this

/-- The search of every segment -/
theorem search_spec {E : Type} [LinearOrder E] (M : Measure E) (fused : Bool) (h : InputOk x) (hh : ∀ b, M.precision b ≤ M.huge) (fuel : Nat)
    (hf : 72 * x.parents.length + 72 < fuel) (garbage : Nat → BitRates) :
    ∃ l, searchAll M fused x fuel garbage = some l ∧
      (∀ g, g < x.clip.sizes.length → searchSegment M fused x fuel garbage g = some (ratesAt l g)) ∧
      ∀ j, j < x.parents.length → ∀ g, g < x.clip.sizes.length → Allowed (kindsOf x.clip (x.bones j)) (ratesAt l g j) := by
  have hs : ∀ g, ∃ st, searchSegment M fused x fuel garbage g = some st ∧ ∀ j, j < x.parents.length → Allowed (kindsOf x.clip (x.bones j)) (st j) := by
    intro g
    obtain ⟨st, e, hst⟩ := C62.C62_legal (setupOf M fused x g) x.parents h.parents h.ordered (fun j => kindsOf x.clip (x.bones j)) hh fuel hf (garbage g)
    exact ⟨st, e, fun j hj => (hst j hj).1⟩
  obtain ⟨l, el, -, hl⟩ := C62.mapM_some (searchSegment M fused x fuel garbage) (List.range x.clip.sizes.length)
    (fun g _ => by obtain ⟨st, e, -⟩ := hs g; exact ⟨st, e⟩)
  refine ⟨l, el, ?_⟩
  have key : ∀ g, g < x.clip.sizes.length → searchSegment M fused x fuel garbage g = some (ratesAt l g) := by
    intro g hg
    obtain ⟨st, e1, e2⟩ := hl g g (by simp [hg])
    rw [e1, ratesAt, List.getD_eq_getElem?_getD, e2]
    rfl
  refine ⟨key, fun j hj g hg => ?_⟩
  obtain ⟨st, e, hst⟩ := hs g
  rw [key g hg] at e
  cases e
  exact hst j hj

/-- **C65.** A legal clip compresses, whatever the error metric. -/
theorem C65_compresses {E : Type} [LinearOrder E] (M : Measure E) (fused : Bool) (h : InputOk x) (hh : ∀ b, M.precision b ≤ M.huge) (fuel : Nat)
    (hf : 72 * x.parents.length + 72 < fuel) (garbage : Nat → BitRates) (e : Meta.Extra) (s : Meta.Settings) (src : Meta.Source) (f : ClipFlags)
    (hv : C29.Valid src) : ∃ m, compress M fused x fuel garbage e s src f = some m := by
  obtain ⟨l, el, -, hl⟩ := search_spec M fused h hh fuel hf garbage
  obtain ⟨m, hm⟩ := C55.C55_compresses (e := e) (s := s) (f := f) (rated_ok h (ratesAt l) hl) hv
  refine ⟨m, ?_⟩
  unfold compress
  rw [el]
  exact hm

theorem key_eq (h : InputOk x) {g i : Nat} (hg : g < x.clip.sizes.length) (hi : i < x.clip.sizes.getD g 0) : keyOf x g i = i := by
  have := C64.C64_key (r := ratedClip x fun _ _ => ⟨24, 24, 24⟩) h.clip h.rate h.length h.duration hg hi
  unfold keyOf
  have e : uniformSampleKey x.clip.numSamples x.sampleRate (x.clip.start g) (x.clip.sizes.getD g 0)
    (sampleTime x.sampleRate x.duration (x.clip.start g) i) = some i := this
  rw [e]
  rfl

/-- What is decoded at a key frame is what was sampled during the search. -/
theorem pose_eq (fused : Bool) (rates : Nat → BitRates) (hall : ∀ j, j < x.parents.length → j ∈ x.order)
    {g i : Nat} (hg : g < x.clip.sizes.length) (hi : i < x.clip.sizes.getD g 0) {ev : List Event} {P : List Pose} (hP : Decoded fused x ev P)
    (hev : ∀ t b kind, (ratedClip x rates).bones[t]? = some b → (b.flags kind).isConstant = false →
      ∃ d0 d1 how, C64.AsMeasured fused (ratedClip x rates) b kind (x.clip.start g + i) d0 ∧
        (ev.filter fun e => e.kind = kind ∧ e.track = t) = [⟨kind, t, .animated (d0, d1) how⟩])
    (hco : ∀ t j kind, x.order[t]? = some j → ((x.bones j).flags kind).isConstant = true → ((x.bones j).flags kind).isDefault = false →
      (kind = .scale → x.clip.hasScale = true) →
      ∃ v, (ev.filter fun e => e.kind = kind ∧ e.track = t) = [⟨kind, t, v⟩] ∧ written v = some (constantValue (x.bones j) kind)) :
    P = (List.range x.parents.length).map fun k => sampled fused x.clip (x.bones k) g i (rates g k) := by
  refine List.ext_getElem? fun j => ?_
  by_cases hj : j < x.parents.length
  · obtain ⟨p, hp⟩ : ∃ p, P[j]? = some p := ⟨_, List.getElem?_eq_getElem (by rw [hP.length]; exact hj)⟩
    rw [hp, List.getElem?_map, List.getElem?_range hj, Option.map_some, Option.some.injEq]
    funext kind lane
    unfold sampled
    by_cases hc : ((x.bones j).flags kind).isConstant = true
    · rw [if_pos hc]
      by_cases hdef : ((x.bones j).flags kind).isDefault = true ∨ (kind = .scale ∧ x.clip.hasScale = false)
      · exact hP.default j p kind hp hc hdef lane
      · obtain ⟨t, ht⟩ := List.mem_iff_getElem?.1 (hall j hj)
        have h1 : ((x.bones j).flags kind).isDefault = false := by
          cases hd : ((x.bones j).flags kind).isDefault with
          | false => rfl
          | true => exact absurd (Or.inl hd) hdef
        have h2 : kind = .scale → x.clip.hasScale = true := by
          intro hk
          cases hs : x.clip.hasScale with
          | true => rfl
          | false => exact absurd (Or.inr ⟨hk, hs⟩) hdef
        obtain ⟨v, e1, e2⟩ := hP.constant t j p kind ht hp hc h1 h2
        obtain ⟨v', e1', e2'⟩ := hco t j kind ht hc h1 h2
        rw [e1] at e1'
        cases e1'
        rw [e2] at e2'
        exact congrFun (Option.some.inj e2') lane
    · rw [if_neg hc]
      have hc' : ((x.bones j).flags kind).isConstant = false := by simpa using hc
      obtain ⟨t, ht⟩ := List.mem_iff_getElem?.1 (hall j hj)
      obtain ⟨d0, d1, how, e1, e2⟩ := hP.animated t j p kind ht hp hc'
      have hb : (ratedClip x rates).bones[t]? = some (rated (x.bones j) fun g => rates g j) := by
        unfold ratedClip; dsimp only; rw [List.getElem?_map, ht]; rfl
      obtain ⟨d0', d1', how', m1, m2⟩ := hev t _ kind hb hc'
      rw [e1] at m2
      cases m2
      rw [e2 lane, m1 g hg i hi rfl lane]
      exact C64.C64_independent fused (x.bones j) _ (ratedClip x rates) rfl rfl rfl rfl rfl rfl g kind i _ lane
  · rw [List.getElem?_eq_none (by rw [hP.length]; omega), List.getElem?_eq_none (by simp; omega)]

/-- There is a decoded pose. -/
theorem pose_exists (fused : Bool) (rates : Nat → BitRates) (hout : ∀ j ∈ x.order, j < x.parents.length)
    {g i : Nat} (hg : g < x.clip.sizes.length) (hi : i < x.clip.sizes.getD g 0) {ev : List Event}
    (hev : ∀ t b kind, (ratedClip x rates).bones[t]? = some b → (b.flags kind).isConstant = false →
      ∃ d0 d1 how, C64.AsMeasured fused (ratedClip x rates) b kind (x.clip.start g + i) d0 ∧
        (ev.filter fun e => e.kind = kind ∧ e.track = t) = [⟨kind, t, .animated (d0, d1) how⟩])
    (hco : ∀ t j kind, x.order[t]? = some j → ((x.bones j).flags kind).isConstant = true → ((x.bones j).flags kind).isDefault = false →
      (kind = .scale → x.clip.hasScale = true) →
      ∃ v, (ev.filter fun e => e.kind = kind ∧ e.track = t) = [⟨kind, t, v⟩] ∧ written v = some (constantValue (x.bones j) kind)) : ∃ P, Decoded fused x ev P := by
  refine ⟨(List.range x.parents.length).map fun k => sampled fused x.clip (x.bones k) g i (rates g k), by simp, ?_, ?_, ?_⟩
  · intro t j p kind ht hp ha
    have hj := hout j (List.mem_of_getElem? ht)
    rw [List.getElem?_map, List.getElem?_range hj, Option.map_some, Option.some.injEq] at hp
    have hb : (ratedClip x rates).bones[t]? = some (rated (x.bones j) fun g => rates g j) := by
      unfold ratedClip; dsimp only; rw [List.getElem?_map, ht]; rfl
    obtain ⟨d0, d1, how, m1, m2⟩ := hev t _ kind hb ha
    refine ⟨d0, d1, how, m2, fun lane => ?_⟩
    rw [← hp, m1 g hg i hi rfl lane]
    unfold sampled
    rw [if_neg (by rw [ha]; simp)]
    exact (C64.C64_independent fused (x.bones j) _ (ratedClip x rates) rfl rfl rfl rfl rfl rfl g kind i _ lane).symm
  · intro t j p kind ht hp hc hd hs
    have hj := hout j (List.mem_of_getElem? ht)
    rw [List.getElem?_map, List.getElem?_range hj, Option.map_some, Option.some.injEq] at hp
    obtain ⟨v, e1, e2⟩ := hco t j kind ht hc hd hs
    refine ⟨v, e1, ?_⟩
    rw [e2, ← hp]
    congr 1
    funext lane
    unfold sampled
    rw [if_pos hc]
  · intro j p kind hp hc _ lane
    have hj : j < x.parents.length := by
      have := (List.getElem?_eq_some_iff.1 hp).1
      simpa using this
    rw [List.getElem?_map, List.getElem?_range hj, Option.map_some, Option.some.injEq] at hp
    rw [← hp]
    unfold sampled
    rw [if_pos hc]

/-- Specification: the buffer is the result of the compressor for this clip, with metadata that fits. -/
structure CompressedAs {E : Type} [LinearOrder E] (M : Measure E) (fused : Bool) (x : Input) (e : Meta.Extra) (s : Meta.Settings)
    (src : Meta.Source) (f : ClipFlags) (m : List (BitVec 8)) : Prop where
  input : InputOk x
  huge : ∀ b, M.precision b ≤ M.huge
  /-- no key frame is stripped, no bone either -/
  unstripped : x.clip.stripped = false
  bones : ∀ j, j < x.parents.length → j ∈ x.order
  metadata : C29.Valid src
  tracks : src.mapping.length = x.order.length
  result : ∃ fuel garbage, 72 * x.parents.length + 72 < fuel ∧ compress M fused x fuel garbage e s src f = some m
  small : m.length < 2 ^ 32

theorem written_constant (b : RawBone) (fmt : RotationFormat) (kind : Kind) :
    written (match kind with | .rotation => .rotation (C16.asLoaded fmt b.rotation) | kind => .vector (b.vector kind)) = some (constantValue b kind) := by
  cases kind with
  | rotation =>
    cases fmt <;>
    · simp only [C16.asLoaded, written, Option.some.injEq]
      funext lane
      unfold constantValue
      rw [if_pos rfl]
      try rfl
  | _ =>
    simp only [written, Option.some.injEq]
    funext lane
    unfold constantValue
    rw [if_neg (by simp)]

/-- What is written for the constant sub-tracks. -/
theorem constants_written {e : Meta.Extra} {s : Meta.Settings} {src : Meta.Source} {f : ClipFlags} {m : List (BitVec 8)} {rates : Nat → BitRates}
    {r : RawClip} (hcomp : Compressed r.quantize e s src f m) (hst : r.stripped = false) (hr : r = ratedClip x rates)
    {α : Type} (remapAlpha : α → Nat → Nat → Nat → α) (wrapping : Bool) (kf0 kf1 : Nat) (hkf : KeyFramePair wrapping r.quantize.numSamples kf0 kf1)
    (alpha : α) (perTrack : Bool) (rounding : Rounding) (w : Writer)
    (hp : perTrack = true → ∀ t, t < x.order.length → w.rounding rounding t ≠ .perTrack)
    (hskip : ∀ kind, w.skipAll kind = false ∧ ∀ t, w.skipTrack kind t = false) {y : Context} {a : α} {ev : List Event}
    (hx : seekContext remapAlpha m wrapping kf0 kf1 alpha perTrack rounding = some (y, a)) (hev : decompressTracks y w = some ev)
    (t j : Nat) (kind : Kind) (ht : x.order[t]? = some j) (hc : ((x.bones j).flags kind).isConstant = true)
    (hd : ((x.bones j).flags kind).isDefault = false) (hs : kind = .scale → x.clip.hasScale = true) :
    ∃ v, (ev.filter fun e => e.kind = kind ∧ e.track = t) = [⟨kind, t, v⟩] ∧ written v = some (constantValue (x.bones j) kind) := by
  have hlen : r.quantize.bones.length = x.order.length := by rw [hr]; unfold RawClip.quantize ratedClip; simp
  obtain ⟨y', hx', hreads⟩ := C49_unstripped hcomp hst remapAlpha wrapping kf0 kf1 hkf alpha perTrack rounding w
    (fun hpt t ht => hp hpt t (by rw [← hlen]; exact ht))
  rw [hx] at hx'
  cases hx'
  obtain ⟨ev', hev', -, hall⟩ := hreads.pose
  rw [hev] at hev'
  cases hev'
  obtain ⟨g0, i0, t0, a1, a2, a3, -⟩ := kept_all hcomp hst kf0 hkf.1
  obtain ⟨g1, i1, t1, b1, b2, b3, -⟩ := kept_all hcomp hst kf1 hkf.2.1
  have hb : r.quantize.bones[t]? = some ((rated (x.bones j) fun g => rates g j).quantize r) := by
    unfold RawClip.quantize
    dsimp only
    rw [List.getElem?_map]
    have : r.bones[t]? = some (rated (x.bones j) fun g => rates g j) := by
      rw [hr]; unfold ratedClip; dsimp only; rw [List.getElem?_map, ht]; rfl
    rw [this]
    rfl
  have key := hall g0 i0 g1 i1 ⟨t0, a1, a2, a3⟩ ⟨t1, b1, b2, b3⟩ t _ kind hb
  rw [(hskip kind).1, (hskip kind).2 t] at key
  have hc' : (((rated (x.bones j) fun g => rates g j).quantize r).flags kind).isConstant = true := hc
  have hd' : (((rated (x.bones j) fun g => rates g j).quantize r).flags kind).isDefault = false := hd
  have hs' : (kind = .scale && !r.quantize.hasScale) = false := by
    have e : r.quantize.hasScale = x.clip.hasScale := by rw [hr]; rfl
    rw [e]
    by_cases hk : kind = .scale
    · rw [hs hk]; simp
    · simp [hk]
  unfold expected at key
  rw [hd', hs', hc'] at key
  exact ⟨_, key, written_constant (x.bones j) r.quantize.rotationFormat kind⟩

/-- The rates behind a buffer, and what decoding it gives. -/
theorem decoded_spec {E : Type} [LinearOrder E] {M : Measure E} {fused : Bool} {e : Meta.Extra} {s : Meta.Settings} {src : Meta.Source}
    {f : ClipFlags} {m : List (BitVec 8)} (h : CompressedAs M fused x e s src f m) :
    ∃ (rates : Nat → BitRates) (fuel : Nat) (garbage : Nat → BitRates), 72 * x.parents.length + 72 < fuel ∧
      (∀ g, g < x.clip.sizes.length → findOptimalBitRates (setupOf M fused x g) fuel (garbage g) x.parents (fun j => kindsOf x.clip (x.bones j)) =
        some (rates g)) ∧
      (∀ j, j < x.parents.length → ∀ g, g < x.clip.sizes.length → Allowed (kindsOf x.clip (x.bones j)) (rates g j)) ∧
      ∀ {α : Type} (remapAlpha : α → Nat → Nat → Nat → α) (wrapping : Bool) (kf0 kf1 : Nat), KeyFramePair wrapping x.clip.numSamples kf0 kf1 →
        ∀ (alpha : α) (perTrack : Bool) (rounding : Rounding) (w : Writer),
        (perTrack = true → ∀ t, t < x.order.length → w.rounding rounding t ≠ .perTrack) →
        (∀ kind, w.skipAll kind = false ∧ ∀ t, w.skipTrack kind t = false) →
        ∃ y ev, seekContext remapAlpha m wrapping kf0 kf1 alpha perTrack rounding = some (y, alpha) ∧
          decompressTracks y w = some ev ∧ ∃ g i, g < x.clip.sizes.length ∧ i < x.clip.sizes.getD g 0 ∧ kf0 = x.clip.start g + i ∧
            (∃ P, Decoded fused x ev P) ∧ ∀ P, Decoded fused x ev P → P = (List.range x.parents.length).map fun k => sampled fused x.clip (x.bones k) g i (rates g k) := by
  obtain ⟨fuel, garbage, hf, hm⟩ := h.result
  obtain ⟨l, el, hseg, hl⟩ := search_spec M fused h.input h.huge fuel hf garbage
  have hok := rated_ok h.input (ratesAt l) hl
  have hm' : (ratedClip x (ratesAt l)).quantize.compress e s src f = some m := by
    unfold compress at hm
    rw [el] at hm
    exact hm
  have hcomp : Compressed (ratedClip x (ratesAt l)).quantize e s src f m := by
    refine ⟨quantize_ok hok, h.metadata, ?_, hm', h.small⟩
    rw [h.tracks]
    unfold RawClip.quantize ratedClip
    simp
  refine ⟨ratesAt l, fuel, garbage, hf, hseg, hl, ?_⟩
  intro α remapAlpha wrapping kf0 kf1 hkf alpha perTrack rounding w hp hskip
  obtain ⟨y, n0, n1, ev, hx, k0, k1, hev, hall⟩ := C64.C64_decoded hok hcomp remapAlpha wrapping kf0 kf1 hkf alpha perTrack rounding w
    (fun hpt t ht => hp hpt t (by simpa [ratedClip] using ht))
  have hst : (ratedClip x (ratesAt l)).stripped = false := h.unstripped
  rw [hst] at hx
  have hk0 : n0 = kf0 := by
    by_contra hne
    refine k0.2.2 kf0 (by have := k0.1; omega) le_rfl (kept_all hcomp hst kf0 ?_)
    rw [numSamples_quantize hok]; exact hkf.1
  subst hk0
  obtain ⟨-, ⟨g, i, t, ht, hi, hn, -⟩, -⟩ := k0
  obtain ⟨hg, hi, hn⟩ := C55.frame_inside hok (show Frame (ratedClip x (ratesAt l)).quantize n0 g i from ⟨t, ht, hi, hn⟩)
  have hn : n0 = x.clip.start g + i := hn
  have hev' : ∀ t b kind, (ratedClip x (ratesAt l)).bones[t]? = some b → (b.flags kind).isConstant = false →
      ∃ d0 d1 how, C64.AsMeasured fused (ratedClip x (ratesAt l)) b kind (x.clip.start g + i) d0 ∧
        (ev.filter fun e => e.kind = kind ∧ e.track = t) = [⟨kind, t, .animated (d0, d1) how⟩] := by
    intro t b kind hb ha
    obtain ⟨d0, d1, hd, hfil, -⟩ := hall t b kind hb ha
    rw [← hn]
    refine ⟨d0, d1, if perTrack then .slot (w.rounding rounding t) else .contextAlpha, (hd fused).1, ?_⟩
    rw [hfil, (hskip kind).1, (hskip kind).2 t]
    rfl
  have hco := constants_written hcomp hst rfl remapAlpha wrapping n0 kf1 (by rw [numSamples_quantize hok]; exact hkf) alpha perTrack rounding w
    (fun hpt t ht => hp hpt t ht) hskip hx hev
  refine ⟨y, ev, hx, hev, g, i, hg, hi, hn, pose_exists fused (ratesAt l) h.input.outputs hg hi hev' hco, ?_⟩
  intro P hP
  exact pose_eq fused (ratesAt l) h.bones hg hi hP hev' hco

/-- **C65.** The error at a key frame of the pose that is decoded there is the error that the search computed for it, for the bit
rates it found: for any error metric. -/
theorem C65_error {E : Type} [LinearOrder E] {M : Measure E} {fused : Bool} {e : Meta.Extra} {s : Meta.Settings} {src : Meta.Source}
    {f : ClipFlags} {m : List (BitVec 8)} (h : CompressedAs M fused x e s src f m) :
    ∃ (rates : Nat → BitRates) (fuel : Nat) (garbage : Nat → BitRates), 72 * x.parents.length + 72 < fuel ∧
      (∀ g, g < x.clip.sizes.length → findOptimalBitRates (setupOf M fused x g) fuel (garbage g) x.parents (fun j => kindsOf x.clip (x.bones j)) =
        some (rates g)) ∧
      ∀ {α : Type} (remapAlpha : α → Nat → Nat → Nat → α) (wrapping : Bool) (kf0 kf1 : Nat), KeyFramePair wrapping x.clip.numSamples kf0 kf1 →
        ∀ (alpha : α) (perTrack : Bool) (rounding : Rounding) (w : Writer),
        (perTrack = true → ∀ t, t < x.order.length → w.rounding rounding t ≠ .perTrack) →
        (∀ kind, w.skipAll kind = false ∧ ∀ t, w.skipTrack kind t = false) →
        ∃ y ev, seekContext remapAlpha m wrapping kf0 kf1 alpha perTrack rounding = some (y, alpha) ∧
          decompressTracks y w = some ev ∧ ∃ g i, g < x.clip.sizes.length ∧ i < x.clip.sizes.getD g 0 ∧ kf0 = x.clip.start g + i ∧
            (∃ P, Decoded fused x ev P) ∧ ∀ P, Decoded fused x ev P → ∀ b, M.objectError b kf0 P = (setupOf M fused x g).objectError (rates g) b i := by
  obtain ⟨rates, fuel, garbage, hf, hfind, -, hdec⟩ := decoded_spec h
  refine ⟨rates, fuel, garbage, hf, hfind, ?_⟩
  intro α remapAlpha wrapping kf0 kf1 hkf alpha perTrack rounding w hp hskip
  obtain ⟨y, ev, hy, hev, g, i, hg, hi, hn, hPe', hP⟩ := hdec remapAlpha wrapping kf0 kf1 hkf alpha perTrack rounding w hp hskip
  refine ⟨y, ev, hy, hev, g, i, hg, hi, hn, hPe', fun P hPd b => ?_⟩
  rw [hP P hPd, hn]
  unfold setupOf
  dsimp only
  rw [key_eq h.input hg hi]

theorem sampled_maxed (fused : Bool) {b : RawBone} {r : RawClip} {rates : Rates} (hall : Allowed (kindsOf r b) rates) (hmax : Maxed rates) (hs : r.hasScale = false → (b.flags .scale).isConstant = true)
    {kind : Kind} (ha : (b.flags kind).isConstant = false) (g i : Nat) (lane : Axis) :
    sampled fused r b g i rates kind lane = b.value kind lane (r.start g + i) := by
  unfold sampled
  rw [if_neg (by rw [ha]; simp)]
  unfold RawBone.measured
  by_cases hv : r.isVariable kind = false
  · rw [if_pos hv]
  · rw [if_neg hv]
    have hv' : r.isVariable kind = true := by simpa using hv
    have key : AllowedRate (kindOf r b kind) (rateOf rates kind) ∧ 24 ≤ rateOf rates kind := by
      obtain ⟨a1, a2, a3⟩ := hall
      obtain ⟨m1, m2, m3⟩ := hmax
      cases kind
      · exact ⟨a1, m1⟩
      · exact ⟨a2, m2⟩
      · exact ⟨a3, m3⟩
    have hk : (kindOf r b kind).1 = true := by
      unfold kindOf
      dsimp only
      rw [hv', ha]
      by_cases hk : kind = .scale
      · subst hk
        cases hsc : r.hasScale with
        | true => simp
        | false => rw [hs hsc] at ha; simp at ha
      · simp [hk]
    have h24 : rateOf rates kind = 24 := by
      rcases key.1 with ⟨h1, -⟩ | ⟨-, h2, -⟩
      · rw [hk] at h1; simp at h1
      · have := key.2; omega
    rw [h24, if_pos (by decide)]

/-- **C65.** With rotations stored as full quaternions, and a metric that does not get worse with more bits: at every key frame every
bone is decoded within its precision, or the samples of the bone and of all its ancestors are decoded without any loss. -/
theorem C65_precision {E : Type} [LinearOrder E] {M : Measure E} {fused : Bool} {e : Meta.Extra} {s : Meta.Settings} {src : Meta.Source}
    {f : ClipFlags} {m : List (BitVec 8)} (h : CompressedAs M fused x e s src f m) (hfull : x.clip.rotationFormat = .quatfFull)
    (hmono : ∀ g, g < x.clip.sizes.length → C62.Monotone (setupOf M fused x g)) {α : Type} (remapAlpha : α → Nat → Nat → Nat → α) (wrapping : Bool)
    (kf0 kf1 : Nat) (hkf : KeyFramePair wrapping x.clip.numSamples kf0 kf1) (alpha : α) (perTrack : Bool) (rounding : Rounding) (w : Writer)
    (hp : perTrack = true → ∀ t, t < x.order.length → w.rounding rounding t ≠ .perTrack)
    (hskip : ∀ kind, w.skipAll kind = false ∧ ∀ t, w.skipTrack kind t = false) :
    ∃ y ev, seekContext remapAlpha m wrapping kf0 kf1 alpha perTrack rounding = some (y, alpha) ∧ decompressTracks y w = some ev ∧
      (∃ P, Decoded fused x ev P) ∧ ∀ P, Decoded fused x ev P → ∀ b path, RootPath x.parents b path →
        M.objectError b kf0 P < M.precision b ∨
        ∀ j ∈ path, ∀ (p : Pose), P[j]? = some p → ∀ kind, ((x.bones j).flags kind).isConstant = false → ∀ lane,
          p kind lane = (x.bones j).value kind lane kf0 := by
  obtain ⟨rates, fuel, garbage, hf, hfind, hallowed, hdec⟩ := decoded_spec h
  obtain ⟨y, ev, hy, hev, g, i, hg, hi, hn, hPe', hP⟩ := hdec remapAlpha wrapping kf0 kf1 hkf alpha perTrack rounding w hp hskip
  refine ⟨y, ev, hy, hev, hPe', fun P hPd b path hpath => ?_⟩
  have hPe := hP P hPd
  rcases C62.C62_precision (setupOf M fused x g) (hmono g hg) (by simp [setupOf, hfull]) x.parents h.input.parents h.input.ordered
    (fun j => kindsOf x.clip (x.bones j)) h.huge fuel hf (garbage g) (rates g) (hfind g hg) b path hpath with hm | hm
  · left
    have := hm.2 i hi
    have e : (setupOf M fused x g).objectError (rates g) b i = M.objectError b kf0 P := by
      rw [hPe, hn]
      unfold setupOf
      dsimp only
      rw [key_eq h.input hg hi]
    rw [e] at this
    exact this
  · right
    intro j hj p hpj kind ha lane
    have hjl : j < x.parents.length := hpath.all_lt j hj
    rw [hPe, List.getElem?_map, List.getElem?_range hjl, Option.map_some, Option.some.injEq] at hpj
    rw [← hpj, hn]
    exact sampled_maxed fused (hallowed j hjl g hg) (hm j hj) (fun hs => h.input.scale hs j hjl) ha g i lane

/-! ### A clip and a metric that meet the hypotheses -/

def exBone : RawBone where
  flags := fun kind => if kind = .translation then ⟨false, false⟩ else ⟨true, true⟩
  rotation := ⟨0, 0, 0, 0x3F800000#32⟩
  vector := fun _ => ⟨0x3F800000#32, 0x3F800000#32, 0x3F800000#32⟩
  sample := fun _ n => ⟨if n = 0 then 0#32 else if n = 1 then 0x3C23D70B#32 else 0x3F800000#32, 0x3F000000#32, 0x3E800000#32, 0#32⟩
  bitRate := fun _ _ => 0
  memory := fun _ _ _ => List.replicate 16 0xAA#8

def exInput : Input where
  clip := { bones := [], strippedBones := [], hasScale := true, rotationFormat := .quatfFull, translationFormat := .varBits, scaleFormat := .varBits,
            numSamples := 3, segmenting := ⟨16, 31⟩, stripped := false, hardKeyframes := fun _ => 0,
            segmentGarbage := fun _ => List.replicate 64 0x55#8, garbage := fun _ => ⟨⟨0, 0, 0⟩, ⟨0, 0, 0⟩⟩ }
  bones := fun _ => exBone
  parents := [Raw.invalidIndex]
  order := [0]
  sampleRate := 30
  duration := fdiv 2 30

/-- The error of the second sample of the translation is 1 unless it is exact. -/
def exError (n : Nat) (p : Pose) : ℚ := if n = 1 ∧ p .translation .x ≠ exBone.value .translation .x 1 then 1 else 0

def exMeasure : Measure ℚ where
  localError := fun _ n p => exError n p
  objectError := fun _ n P => exError n (P.getD 0 fun _ _ => 0)
  precision := fun _ => 1 / 2
  zero := 0
  huge := 10 ^ 10
  level := 2

theorem exInput_ok : InputOk exInput where
  clip :=
    { bones := by decide
      scale := fun h => by cases h
      default := fun b hb kind => by
        obtain ⟨j, hj, rfl⟩ := List.mem_map.1 hb
        show (exBone.flags kind).isDefault = true → (exBone.flags kind).isConstant = true
        cases kind <;> decide
      samples := by decide
      settings := by decide
      finite := by
        intro b hb kind _ n hn lane
        obtain ⟨j, hj, rfl⟩ := List.mem_map.1 hb
        have key : ∀ n, n < 3 → ∀ lane ∈ [Axis.x, .y, .z],
            (((exBone.sample .translation n).xyz.lane lane).toNat % 2 ^ 31 < 255 * 2 ^ 23 ∧ |exBone.value .translation lane n| ≤ 2 ^ 125) := by decide +kernel
        exact key n hn lane (by cases lane <;> decide)
      rate := by
        intro b hb kind _ _ g hg
        obtain ⟨j, hj, rfl⟩ := List.mem_map.1 hb
        cases kind <;> exact ⟨le_rfl, fun _ => (by decide : (24 : Nat) ≠ 0)⟩
      memory := fun b hb g kind i => by obtain ⟨j, hj, rfl⟩ := List.mem_map.1 hb; rfl
      garbage := fun g => rfl
      hard := fun h => by cases h
      small := by decide +kernel }
  parents := ⟨by decide, by decide⟩
  ordered := by
    intro i p h
    cases i with
    | zero => exact Or.inl (Option.some.inj h).symm
    | succ i => simp [exInput] at h
  outputs := by decide
  rate := by decide +kernel
  length := by decide
  duration := Or.inl (by decide +kernel)
  scale := fun h => by cases h

theorem ex_monotone (g : Nat) (hg : g < exInput.clip.sizes.length) : C62.Monotone (setupOf exMeasure false exInput g) := by
  have hlen : exInput.clip.sizes.length = 1 := by decide +kernel
  have hg0 : g = 0 := by omega
  subst hg0
  intro st st' hr b s
  show exError (0 + s) (sampled false exInput.clip exBone 0 (keyOf exInput 0 s) (st' 0)) ≤
    exError (0 + s) (sampled false exInput.clip exBone 0 (keyOf exInput 0 s) (st 0))
  unfold exError
  by_cases hs : s = 1
  · subst hs
    have hk : keyOf exInput 0 1 = 1 := by decide +kernel
    rw [hk]
    have key : ∀ q, q < 24 → exBone.measured false exInput.clip 0 .translation 1 q .x ≠ exBone.value .translation .x 1 := by decide +kernel
    have key' : exBone.measured false exInput.clip 0 .translation 1 24 .x = exBone.value .translation .x 1 := by decide +kernel
    have e : ∀ r : Rates, sampled false exInput.clip exBone 0 1 r .translation .x = exBone.measured false exInput.clip 0 .translation 1 r.translation .x :=
      fun r => rfl
    rw [e, e]
    rcases (hr 0).2.1 with h | ⟨h1, h2⟩
    · rw [h]
    · have hq := key (st 0).translation (by omega)
      rw [if_pos (show 0 + 1 = 1 ∧ exBone.measured false exInput.clip 0 .translation 1 (st 0).translation .x ≠ exBone.value .translation .x 1 from ⟨by decide, hq⟩)]
      split <;> norm_num
  · rw [if_neg (by omega), if_neg (by omega)]

theorem ex_huge : (1 / 2 : ℚ) ≤ 10 ^ 10 := by norm_num

theorem exCompressed : ∃ m, CompressedAs exMeasure false exInput ⟨false, false⟩ ⟨true, true, true, true, true⟩ C64.exSource C49.exFlags m := by
  obtain ⟨m, hm⟩ := C65_compresses exMeasure false exInput_ok (fun _ => ex_huge) 200 (by decide) (fun _ _ => ⟨0, 0, 0⟩) ⟨false, false⟩
    ⟨true, true, true, true, true⟩ C64.exSource C49.exFlags C64.exSource_valid
  refine ⟨m, exInput_ok, fun _ => ex_huge, rfl, by decide, C64.exSource_valid, rfl, ⟨200, _, by decide, hm⟩, ?_⟩
  have : ((compress exMeasure false exInput 200 (fun _ _ => ⟨0, 0, 0⟩) ⟨false, false⟩ ⟨true, true, true, true, true⟩ C64.exSource C49.exFlags).map
      fun b => decide (b.length < 2 ^ 32)) = some true := by
    decide +kernel
  rw [hm, Option.map_some, Option.some.injEq] at this
  exact of_decide_eq_true this

/-- The search raises the translation to full precision. -/
example : ((searchAll exMeasure false exInput 200 fun _ _ => ⟨0, 0, 0⟩).map fun l => l.map fun st => st 0) = some [⟨255, 24, 255⟩] := by
  decide +kernel

end Acl.C65
