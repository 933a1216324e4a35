import Verif.Core.PolylineLemmas
import Verif.Props.C64
/-!
C69: a transform clip sampled at a time is within tolerance of its input at that time: from the samples given to the compressor, through
the bytes, to the translations and scales the writer receives.
Specification vocabulary: `framePosition`, `lastPosition`, `Line` (Core/PolylineSpec.lean), `Spread`, `tolerance`
(Transform/QuantizeClose.lean), `Kept` (C49), `Fresh` (C20).
-/
namespace Acl.C69
open Acl.Context Acl.Interp Acl.F32 Acl.Polyline Acl.C50
open Acl.Transform (RawClip RawBone RawOk Kind Sample Axis Spread tolerance evalSample evalVector decompressTracks decompressTrack Compressed ClipFlags)
open Acl.C49 (Kept Frame Reads)

variable {r : RawClip} {e : Meta.Extra} {s : Meta.Settings} {src : Meta.Source} {f : ClipFlags} {m : List (BitVec 8)}

theorem frame_of_kept {c : Transform.ClipSource} {n : Nat} (h : Kept c n) : ∃ g i, Frame c n g i := by
  obtain ⟨g, i, t, h1, h2, h3, -⟩ := h
  exact ⟨g, i, t, h1, h2, h3⟩

theorem frame_lt {c : Transform.ClipSource} {n g i : Nat} (h : Frame c n g i) : n < c.numSamples := by
  obtain ⟨t, h1, h2, h3⟩ := h
  have hm : (c.segments.map (·.numSamples))[g]? = some t.numSamples := by rw [List.getElem?_map, h1]; rfl
  have e1 := C49.sum_take_succ _ g _ hm
  have hg : g < (c.segments.map (·.numSamples)).length := (List.getElem?_eq_some_iff.1 hm).1
  have e2 := C49.sum_take_mono (c.segments.map (·.numSamples)) (i := g + 1) (j := (c.segments.map (·.numSamples)).length) (by omega)
  rw [List.take_length] at e2
  unfold Transform.ClipSource.numSamples
  rw [h3, List.map_take]
  omega

/-- What is written for an animated sub-track, from what a pose reads. -/
theorem animated_events (hr : RawOk r) {x : Transform.Context} {w : Transform.Writer} {perTrack : Bool} {rounding : Rounding} {n0 n1 g0 i0 g1 i1 : Nat}
    (h : Reads r.quantize x w perTrack rounding n0 n1) (f0 : Frame r.quantize n0 g0 i0) (f1 : Frame r.quantize n1 g1 i1) {t : Nat} {b : RawBone}
    {kind : Kind} (hb : r.bones[t]? = some b) (ha : (b.flags kind).isConstant = false) :
    (∃ ev, decompressTracks x w = some ev ∧ (ev.filter fun e => e.kind = kind ∧ e.track = t) =
      (if w.skipAll kind || w.skipTrack kind t then []
        else [⟨kind, t, .animated (C49.sampleOf r.quantize (b.quantize r) kind g0 i0, C49.sampleOf r.quantize (b.quantize r) kind g1 i1)
          (if perTrack then .slot (w.rounding rounding t) else .contextAlpha)⟩])) ∧
      ∃ one, decompressTrack x w t = some one ∧ (one.filter fun e => e.kind = kind) =
        [⟨kind, t, .animated (C49.sampleOf r.quantize (b.quantize r) kind g0 i0, C49.sampleOf r.quantize (b.quantize r) kind g1 i1)
          (if perTrack then .roundedAlpha (w.rounding rounding t) else .contextAlpha)⟩] := by
  have hmem := List.mem_of_getElem? hb
  have hb' : r.quantize.bones[t]? = some (b.quantize r) := by
    unfold RawClip.quantize; dsimp only; rw [List.getElem?_map, hb]; rfl
  have hsc : kind = .scale → r.quantize.hasScale = true := by
    rintro rfl
    cases hh : r.quantize.hasScale with
    | true => rfl
    | false => rw [hr.scale hh b hmem] at ha; simp at ha
  have hexp : ∀ how, C49.expected r.quantize w how (b.quantize r) kind t (C49.sampleOf r.quantize (b.quantize r) kind g0 i0)
      (C49.sampleOf r.quantize (b.quantize r) kind g1 i1) =
      some (.animated (C49.sampleOf r.quantize (b.quantize r) kind g0 i0, C49.sampleOf r.quantize (b.quantize r) kind g1 i1) how) := by
    intro how
    have hf1 : ((b.quantize r).flags kind).isConstant = false := ha
    have hf2 : ((b.quantize r).flags kind).isDefault = false := by
      cases hd : ((b.quantize r).flags kind).isDefault with
      | false => rfl
      | true =>
        have := hr.default b hmem kind hd
        rw [this] at ha; simp at ha
    unfold C49.expected
    rw [hf1, hf2]
    have hcond : (false || (decide (kind = Kind.scale) && !r.quantize.hasScale)) = false := by
      by_cases hk : kind = .scale
      · rw [hsc hk]; simp
      · simp [hk]
    rw [hcond]
    simp
  constructor
  · obtain ⟨ev, hev, -, hpose⟩ := h.pose
    refine ⟨ev, hev, ?_⟩
    rw [hpose g0 i0 g1 i1 f0 f1 t _ kind hb', hexp]
    rfl
  · refine ⟨_, h.single g0 i0 g1 i1 f0 f1 t _ hb', ?_⟩
    rw [List.filter_flatMap]
    have key : ∀ k' : Kind, (C49.call k' t (C49.expected r.quantize w (if perTrack then .roundedAlpha (w.rounding rounding t) else .contextAlpha)
        (b.quantize r) k' t (C49.sampleOf r.quantize (b.quantize r) k' g0 i0) (C49.sampleOf r.quantize (b.quantize r) k' g1 i1))).filter
        (fun e => decide (e.kind = kind)) = if k' = kind then
          [⟨kind, t, .animated (C49.sampleOf r.quantize (b.quantize r) kind g0 i0, C49.sampleOf r.quantize (b.quantize r) kind g1 i1)
            (if perTrack then .roundedAlpha (w.rounding rounding t) else .contextAlpha)⟩] else [] := by
      intro k'
      by_cases hk : k' = kind
      · subst hk
        rw [hexp, if_pos rfl]
        unfold C49.call
        simp
      · rw [if_neg hk, List.filter_eq_nil_iff]
        intro ev' hev'
        unfold C49.call at hev'
        split at hev'
        · rw [List.mem_singleton] at hev'
          subst hev'
          simpa using hk
        · simp at hev'
    simp only [List.flatMap_cons, List.flatMap_nil, key]
    cases kind <;> simp

/-- The position a context computes stands for the time, whatever the looping policy. -/
theorem stands_clip {k : Clip} {p : Looping} (hp : p = .clamp ∨ p = .wrap) (h1 : 1 ≤ k.numSamples) (hn : k.numSamples ≤ 2 ^ 23 - 4)
    (hr : 0 < k.sampleRate ∧ k.sampleRate < pow2 128) (t : ℚ) :
    Stands (lastPosition (p == .wrap) k.numSamples) (fmul (clampTime t (k.finiteDuration p)) k.sampleRate)
      (framePosition t k.sampleRate (lastPosition (p == .wrap) k.numSamples)) := by
  have e : loopedNumSamples k p = lastPosition (p == .wrap) k.numSamples + 1 := by
    rw [C11.looped_eq h1 (by omega)]
    unfold resolveLooping lastPosition
    rcases hp with rfl | rfl <;> rfl
  unfold Clip.finiteDuration fmul
  rw [e]
  refine stands ?_ hr.1 hr.2
  unfold lastPosition
  split <;> omega

/-- **C69.** Compress a legal transform clip - any bit rates, any key frames stripped -, bind a context to the buffer, set a looping
policy and seek to any time, before, inside of or after the clip. This succeeds, and each component of each animated translation and
scale that `decompress_tracks` and `decompress_track` write is within `tol` of the polyline through the input samples (those of the
frames kept) at that time, up to float rounding: of the interpolation, and of the time. `Wc` bounds how much the component varies over the
clip, `Ws` over a segment, `M` its magnitude. -/
theorem C69_at_time (hr : RawOk r) (h : Compressed r.quantize e s src f m) (hrate : 0 < ofBits f.sampleRate ∧ ofBits f.sampleRate < pow2 128)
    (hn : r.numSamples ≤ 2 ^ 23 - 4) (supported : Nat → Bool) (hv : supported 10 = true) (cs : Context.Settings) (hcl : cs.clampTimes = true)
    (w : World) (a : Nat) (ha : tracksOf supported m = some (w.tracks a)) (p : Looping) (time : ℚ) (ht : time < pow2 128)
    (perTrack : Bool) (writer : Transform.Writer)
    (hp : perTrack = true → ∀ i, i < r.bones.length → writer.rounding .none i = .none) :
    ∃ x x' q pose ev, C20.Fresh transformKind cs w a none p x ∧ Context.seek transformKind cs w x time .none = some x' ∧ x'.seen = some q ∧
      poseContext m q perTrack .none = some pose ∧ decompressTracks pose writer = some ev ∧
      ∀ i b kind, r.bones[i]? = some b → (b.flags kind).isConstant = false →
        ∃ d0 d1 how how' one,
          (ev.filter fun e => e.kind = kind ∧ e.track = i) =
            (if writer.skipAll kind || writer.skipTrack kind i then [] else [⟨kind, i, .animated (d0, d1) how⟩]) ∧
          decompressTrack pose writer i = some one ∧ (one.filter fun e => e.kind = kind) = [⟨kind, i, .animated (d0, d1) how'⟩] ∧
          ∀ fused lane Ws Wc M tol, kind ≠ .rotation →
            (∀ g, g < r.sizes.length → Spread r b kind lane g Ws Wc M ∧ tolerance r b kind g Ws Wc M ≤ tol) →
            ∃ y, Line (Kept r.quantize) r.numSamples (effective cs (clipOf r.quantize f) p == .wrap) (b.value kind lane)
                (framePosition time (ofBits f.sampleRate) (lastPosition (effective cs (clipOf r.quantize f) p == .wrap) r.numSamples)) y ∧
              |evalVector fused q.alpha (evalSample fused lane d0) (evalSample fused lane d1) how - y| ≤
                tol * (1 + 1 / 2 ^ 21) + M / 2 ^ 21 + pow2 (-146) + Wc * ((r.numSamples + 5) / 2 ^ 23) ∧
              |evalVector fused q.alpha (evalSample fused lane d0) (evalSample fused lane d1) how' - y| ≤
                tol * (1 + 1 / 2 ^ 21) + M / 2 ^ 21 + pow2 (-146) + Wc * ((r.numSamples + 5) / 2 ^ 23) := by
  have hns := Transform.numSamples_quantize hr
  have hlen : r.quantize.bones.length = r.bones.length := by unfold RawClip.quantize; dsimp only; rw [List.length_map]
  obtain ⟨x, x', q, pose, n0, n1, a1, a2, a3, a4, a5, a6⟩ := C50_sample_at_time h hrate (by rw [hns]; exact hn) supported hv cs hcl w a ha p time ht
    .none perTrack writer (by intro hq i hi; rw [hp hq i (by rwa [hlen] at hi)]; simp)
  have ends := kept_ends h.clip
  rw [hns] at a6 ends
  have kn : Kept r.quantize n0 ∧ Kept r.quantize n1 := by
    rcases lt_or_ge (fmul (clampTime time ((clipOf r.quantize f).finiteDuration (effective cs (clipOf r.quantize f) p))) (ofBits f.sampleRate))
      (r.numSamples : ℚ) with hx | hx
    · exact ⟨(a6.inside hx).before.2.1, (a6.inside hx).after.2.1⟩
    · obtain ⟨-, e0, e1⟩ := a6.ends hx
      rw [e0, e1]
      exact ⟨ends.1, ends.1⟩
  obtain ⟨g0, i0, f0⟩ := frame_of_kept kn.1
  obtain ⟨g1, i1, f1⟩ := frame_of_kept kn.2
  obtain ⟨ev, hev, -⟩ := a5.pose
  have hkept : ∀ n, Kept r.quantize n → n < r.numSamples := by
    intro n hk
    obtain ⟨g, i, hf⟩ := frame_of_kept hk
    have := frame_lt hf
    rwa [hns] at this
  refine ⟨x, x', q, pose, ev, a1, a2, a3, a4, hev, ?_⟩
  intro i b kind hb hconst
  have hmem := List.mem_of_getElem? hb
  obtain ⟨⟨ev', hev', e1⟩, one, e2, e3⟩ := animated_events hr a5 f0 f1 hb hconst
  rw [hev, Option.some.injEq] at hev'
  subst hev'
  refine ⟨_, _, _, _, one, e1, e2, e3, ?_⟩
  intro fused lane Ws Wc M tol _ hsp
  obtain ⟨q0, q1, q2⟩ := C55.frame_inside hr f0
  obtain ⟨q0', q1', q2'⟩ := C55.frame_inside hr f1
  have c0 := C55.close_of_frame fused hr f0 hmem hconst
  have c1 := C55.close_of_frame fused hr f1 hmem hconst
  have l0 := hkept _ kn.1
  have l1 := hkept _ kn.2
  have hil : i < r.bones.length := (List.getElem?_eq_some_iff.1 hb).1
  have w1 : C55.weight q.alpha (if perTrack then .slot (writer.rounding .none i) else .contextAlpha) = q.alpha := by
    cases perTrack with
    | false => rfl
    | true => simp only [if_true]; rw [hp rfl i hil]; rfl
  have w2 : C55.weight q.alpha (if perTrack then .roundedAlpha (writer.rounding .none i) else .contextAlpha) = q.alpha := by
    cases perTrack with
    | false => rfl
    | true => simp only [if_true]; rw [hp rfl i hil]; rfl
  have b1 := C55.C55_between fused q0 q0' ⟨i0, q1, q2⟩ ⟨i1, q1', q2'⟩ c0 c1 lane (hsp g0 q0).1 (hsp g1 q0').1 l0 l1 (hsp g0 q0).2 (hsp g1 q0').2
    q.alpha (if perTrack then .slot (writer.rounding .none i) else .contextAlpha) (by rw [w1]; exact a6.unit.1) (by rw [w1]; exact a6.unit.2)
  have b2 := C55.C55_between fused q0 q0' ⟨i0, q1, q2⟩ ⟨i1, q1', q2'⟩ c0 c1 lane (hsp g0 q0).1 (hsp g1 q0').1 l0 l1 (hsp g0 q0).2 (hsp g1 q0').2
    q.alpha (if perTrack then .roundedAlpha (writer.rounding .none i) else .contextAlpha) (by rw [w2]; exact a6.unit.1) (by rw [w2]; exact a6.unit.2)
  rw [w1] at b1
  rw [w2] at b2
  have hnpos : 1 ≤ r.numSamples := by omega
  have st := stands_clip (k := clipOf r.quantize f) (p := effective cs (clipOf r.quantize f) p) (by
      have := effective_ne cs (clipOf r.quantize f) p
      generalize effective cs (clipOf r.quantize f) p = l at *
      cases l <;> simp_all) (by show 1 ≤ r.quantize.numSamples; rw [hns]; exact hnpos) (by show r.quantize.numSamples ≤ _; rw [hns]; exact hn) hrate time
  have ens : (clipOf r.quantize f).numSamples = r.numSamples := hns
  rw [ens] at st
  have hW : ∀ i j, i < r.numSamples → j < r.numSamples → |b.value kind lane i - b.value kind lane j| ≤ Wc := by
    intro i j hi hj
    rw [abs_le]
    have s1 := (hsp g0 q0).1.clip i j hi hj
    have s2 := (hsp g0 q0).1.clip j i hj hi
    constructor <;> linarith
  obtain ⟨y, hy, hyb⟩ := line_of_blend a6 hnpos ends.1 ends.2 hkept st (by positivity) hW
  have hWc : 0 ≤ Wc := (abs_nonneg _).trans (hW 0 0 hnpos hnpos)
  have hm : ((lastPosition (effective cs (clipOf r.quantize f) p == .wrap) r.numSamples : Nat) : ℚ) ≤ r.numSamples := by
    have : lastPosition (effective cs (clipOf r.quantize f) p == .wrap) r.numSamples ≤ r.numSamples := by
      unfold lastPosition; split <;> omega
    exact_mod_cast this
  have hfin : Wc * ((lastPosition (effective cs (clipOf r.quantize f) p == .wrap) r.numSamples : Nat) / 2 ^ 23 + 1 / 2 ^ 21 + 1 / 2 ^ 23)
      ≤ Wc * ((r.numSamples + 5) / 2 ^ 23) := by
    refine mul_le_mul_of_nonneg_left ?_ hWc
    linarith
  refine ⟨y, hy, ?_, ?_⟩
  · refine (abs_sub_le _ _ _).trans (add_le_add b1 (hyb.trans hfin))
  · refine (abs_sub_le _ _ _).trans (add_le_add b2 (hyb.trans hfin))

/-! ### The polyline -/

theorem onCurve_le {kept : Nat → Prop} {count : Nat} {loops : Bool} {n : Nat} (h : OnCurve kept count loops n) : n ≤ lastPosition loops count := by
  unfold lastPosition
  rcases h with ⟨-, h⟩ | ⟨rfl, rfl⟩
  · split <;> omega
  · simp

/-- Two frames of the curve with none in between, and a frame of the curve in their closed interval: it is one of the two. -/
theorem onCurve_end {kept : Nat → Prop} {count : Nat} {loops : Bool} {a b n : Nat} (hb : OnCurve kept count loops b)
    (hab : ∀ n, a < n → n < b → ¬ kept n) (hn : OnCurve kept count loops n) (h1 : a ≤ n) (h2 : n ≤ b) : n = a ∨ n = b := by
  rcases hn with ⟨h, hl⟩ | ⟨h, rfl⟩
  · by_contra hc
    exact hab n (by omega) (by omega) h
  · right
    rcases hb with ⟨-, hl⟩ | ⟨-, rfl⟩ <;> omega

theorem line_at_frame {kept : Nat → Prop} {count : Nat} {loops : Bool} {v : Nat → ℚ} {p y : ℚ} (h : Line kept count loops v p y) {n : Nat}
    (hn : OnCurve kept count loops n) (hp : p = n) : y = valueAt count v n := by
  cases h with
  | frame n' h1 h2 =>
    have : n' = n := by rw [h2] at hp; exact_mod_cast hp
    rw [this]
  | between a b h1 h2 hab h3 p0 p1 =>
    have hge := nat_sub_ge hab
    have hne : (b : ℚ) - a ≠ 0 := by linarith
    subst hp
    rcases onCurve_end h2 h3 hn (by exact_mod_cast p0) (by exact_mod_cast p1) with rfl | rfl
    · rw [sub_self, zero_mul, add_zero, mul_div_cancel_left₀ _ hne]
    · rw [sub_self, zero_mul, zero_add, mul_div_cancel_left₀ _ hne]

/-- The specification defines a curve: at every position within the clip there is exactly one value, and at a frame kept it is the value
of that frame. -/
theorem C69_curve {kept : Nat → Prop} {count : Nat} (loops : Bool) (v : Nat → ℚ) (h1 : 1 ≤ count) (k0 : kept 0) (kl : kept (count - 1)) (p : ℚ)
    (h0 : 0 ≤ p) (hp : p ≤ lastPosition loops count) :
    ∃! y, Line kept count loops v p y := by
  classical
  have ex : ∃ y, Line kept count loops v p y := by
    have hc := floor_toNat_cast h0
    have f0 := Int.floor_le p
    have f1 := Int.lt_floor_add_one p
    rw [← hc] at f0 f1
    generalize ⌊p⌋.toNat = k at *
    have hk : k ≤ lastPosition loops count := by
      have : (k : ℚ) ≤ lastPosition loops count := by linarith
      exact_mod_cast this
    have onLast : OnCurve kept count loops (lastPosition loops count) := by
      unfold lastPosition
      cases loops with
      | true => exact .inr ⟨rfl, rfl⟩
      | false => exact .inl ⟨kl, by simp; omega⟩
    rcases Nat.lt_or_ge k (lastPosition loops count) with hlt | hge
    · have kc : k < count := by
        unfold lastPosition at hlt
        split at hlt <;> omega
      obtain ⟨a, a1, a2, a3⟩ := exists_last k0 k
      have exb : ∃ b, k < b ∧ OnCurve kept count loops b := ⟨_, hlt, onLast⟩
      have hb := Nat.find_spec exb
      have hmin := fun n => Nat.find_min exb (m := n)
      generalize Nat.find exb = b at *
      have aq : (a : ℚ) ≤ k := by exact_mod_cast a1
      have bq : (k : ℚ) + 1 ≤ b := by exact_mod_cast hb.1
      refine ⟨_, .between a b (.inl ⟨a2, by omega⟩) hb.2 (by omega) ?_ (by linarith) (by linarith)⟩
      intro n n1 n2 hn
      rcases Nat.lt_or_ge k n with h | h
      · refine hmin n n2 ⟨h, .inl ⟨hn, ?_⟩⟩
        have := onCurve_le hb.2
        unfold lastPosition at this
        split at this <;> omega
      · exact a3 n n1 h hn
    · have e : k = lastPosition loops count := by omega
      have : p = ((lastPosition loops count : Nat) : ℚ) := le_antisymm hp (by rw [← e]; exact f0)
      exact ⟨_, .frame _ onLast this⟩
  obtain ⟨y, hy⟩ := ex
  refine ⟨y, hy, ?_⟩
  intro z hz
  cases hy with
  | frame n h2 h3 => exact line_at_frame hz h2 h3
  | between a b ha hb hab hk p0 p1 =>
    have hself := Line.between (v := v) a b ha hb hab hk p0 p1
    cases hz with
    | frame n h2 h3 => exact (line_at_frame hself h2 h3).symm
    | between a' b' ha' hb' hab' hk' p0' p1' =>
      have l1 : a ≤ b' := by have : (a : ℚ) ≤ b' := by linarith
                             exact_mod_cast this
      have l2 : a' ≤ b := by have : (a' : ℚ) ≤ b := by linarith
                             exact_mod_cast this
      rcases lt_trichotomy a a' with h | h | h
      · -- a' is in the interval of a and b, so it is b
        rcases onCurve_end hb hk ha' (by omega) l2 with e | e
        · omega
        · have ep : p = b := le_antisymm p1 (by rw [← e]; exact p0')
          rw [line_at_frame hself hb ep]
          exact line_at_frame (.between a' b' ha' hb' hab' hk' p0' p1') hb ep
      · subst h
        rcases lt_trichotomy b b' with h | h | h
        · rcases onCurve_end hb' hk' hb (by omega) (by omega) with e | e <;> omega
        · rw [h]
        · rcases onCurve_end hb hk hb' (by omega) (by omega) with e | e <;> omega
      · rcases onCurve_end hb' hk' ha (by omega) l1 with e | e
        · omega
        · have ep : p = a := le_antisymm (by rw [e]; exact p1') p0
          rw [line_at_frame hself ha ep]
          exact line_at_frame (.between a' b' ha' hb' hab' hk' p0' p1') ha ep

/-- When all frames are kept it is the usual linear interpolation of the two neighbouring frames. -/
theorem C69_neighbours {kept : Nat → Prop} {count : Nat} (loops : Bool) (v : Nat → ℚ) (hk : ∀ n, n < count → kept n) (k : Nat) (u : ℚ) (u0 : 0 ≤ u)
    (u1 : u ≤ 1) (h : k + 1 < count) : Line kept count loops v (k + u) ((1 - u) * v k + u * v (k + 1)) := by
  have h2 := Line.between (kept := kept) (count := count) (loops := loops) (v := v) (p := k + u) k (k + 1) (.inl ⟨hk _ (by omega), by omega⟩)
    (.inl ⟨hk _ h, h⟩) (by omega) (fun n a b => by omega) (by linarith) (by push_cast; linarith)
  have e : (((k + 1 : Nat) : ℚ) - (k + u)) * valueAt count v k + ((k + u) - k) * valueAt count v (k + 1) = (1 - u) * v k + u * v (k + 1) := by
    unfold valueAt
    rw [if_neg (by omega), if_neg (by omega)]
    push_cast; ring
  have e2 : ((k + 1 : Nat) : ℚ) - k = 1 := by push_cast; ring
  rw [e, e2, div_one] at h2
  exact h2

/-! ### The hypotheses are met -/

/-- The clip of C55 (18 frames in two segments, 30 Hz): it compresses, a context can be bound to it, and the components of its
translation vary little. -/
example : (∃ m, Compressed C55.exClip.quantize ⟨false, false⟩ ⟨true, true, true, true, true⟩ C64.exSource C49.exFlags m) ∧
    (0 < ofBits C49.exFlags.sampleRate ∧ ofBits C49.exFlags.sampleRate < pow2 128) ∧ C55.exClip.numSamples ≤ 2 ^ 23 - 4 ∧
    C55.exClip.bones[0]? = some C55.exBone ∧ (C55.exBone.flags .translation).isConstant = false :=
  ⟨C64.exCompressed, ⟨by decide +kernel, by decide +kernel⟩, by decide +kernel, rfl, rfl⟩

/-- Its translation varies by at most an eighth within a segment, and so does the tolerance: it was made constant in the first segment. -/
example : ∀ g, g < C55.exClip.sizes.length → Spread C55.exClip C55.exBone .translation .x g (1 / 8) (1 / 4) 1 ∧
    tolerance C55.exClip C55.exBone .translation g (1 / 8) (1 / 4) 1 ≤ 1 / 7 := by
  have hsz : C55.exClip.sizes = [9, 9] := by decide +kernel
  have v : ∀ i, i < 18 → ∀ j, j < 18 → C55.exBone.value .translation .x i - C55.exBone.value .translation .x j ≤ 1 / 4 := by decide +kernel
  have v2 : ∀ g, g < 2 → ∀ i, i < 9 → ∀ j, j < 9 → C55.exBone.value .translation .x (C55.exClip.start g + i) -
      C55.exBone.value .translation .x (C55.exClip.start g + j) ≤ 1 / 8 := by decide +kernel
  have mg : ∀ i, i < 18 → |C55.exBone.value .translation .x i| ≤ 1 := by decide +kernel
  intro g hg
  rw [hsz] at hg
  have hg2 : g = 0 ∨ g = 1 := by simp at hg; omega
  have hgd : C55.exClip.sizes.getD g 0 = 9 := by
    rw [hsz]; rcases hg2 with rfl | rfl <;> rfl
  refine ⟨⟨?_, ?_, mg, by norm_num⟩, ?_⟩
  · intro i j hi hj
    rw [hgd] at hi hj
    exact v2 g (by omega) i hi j hj
  · intro i j hi hj
    exact v i hi j hj
  · rcases hg2 with rfl | rfl <;> decide +kernel

/-- A looping curve of two frames, three quarters of the way from the second frame back to the first. -/
example : Line (fun n => n < 2) 2 true (fun n => if n = 0 then 8 else 4) (7 / 4) 7 := by
  have h := Line.between (kept := fun n => n < 2) (count := 2) (loops := true) (v := fun n => if n = 0 then (8 : ℚ) else 4) (p := 7 / 4) 1 2
    (.inl ⟨by omega, by omega⟩) (.inr ⟨rfl, rfl⟩) (by omega) (fun n a b => by omega) (by norm_num) (by norm_num)
  have e : ((((2 : Nat) : ℚ) - 7 / 4) * valueAt 2 (fun n => if n = 0 then (8 : ℚ) else 4) 1 +
      (7 / 4 - ((1 : Nat) : ℚ)) * valueAt 2 (fun n => if n = 0 then (8 : ℚ) else 4) 2) / (((2 : Nat) : ℚ) - ((1 : Nat) : ℚ)) = 7 := by
    norm_num [valueAt]
  rwa [e] at h

end Acl.C69
