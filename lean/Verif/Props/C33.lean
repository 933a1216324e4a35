import Verif.Raw.TrackArray
import Verif.Core.InterpolationLemmas
import Mathlib.Tactic.Common
/-!
C33: on raw track arrays, sampling one track is sampling all of them and keeping that track.
-/
namespace Acl.C33
open Acl.F32 Acl.Interp Acl.Raw

/-- The track an event is about. -/
def trackOf : Event → Nat
  | .float _ i _ => i
  | .rotation i _ => i
  | .translation i _ => i
  | .scale i _ => i

theorem alphaPerPolicy_eq (alpha : ℚ) (q : Rounding) : alphaPerPolicy alpha q = applyRounding alpha q := by
  cases q <;> rfl

theorem samples_policy (n : Nat) (rate t : ℚ) (q : Rounding) (l : Looping) :
    samplesWithRate n rate t q l =
      (samplesWithRate n rate t .perTrack l).map fun s => (s.1, s.2.1, alphaPerPolicy s.2.2 q) := by
  unfold samplesWithRate samplesOfIndex
  simp only [alphaPerPolicy_eq]
  cases toU32 (fmul t rate) with
  | none => rfl
  | some i0 =>
    simp only [Option.bind_eq_bind, Option.bind_some]
    split
    · rfl
    · split <;> rfl

theorem type_eq {a : TrackArray} (h : a.isValid = true) : ∀ t ∈ a.tracks, t.type = a.type := by
  intro t ht
  unfold TrackArray.isValid at h
  rw [Bool.and_eq_true, List.all_eq_true] at h
  have h2 := h.1 t ht
  unfold trackOk at h2
  simp only [Bool.and_eq_true, beq_iff_eq] at h2
  exact h2.1.1.1.1

theorem sampleOne_tracks {B : Blends} {type : TrackType} {t : Track} {i f0 f1 : Nat} {alpha : ℚ} {es : List Event}
    (h : sampleOne B type t i f0 f1 alpha = some es) : ∀ e ∈ es, trackOf e = i := by
  unfold sampleOne at h
  cases h0 : t.samples[f0]? with
  | none => rw [h0] at h; cases h
  | some s0 =>
    cases h1 : t.samples[f1]? with
    | none => rw [h0, h1] at h; cases h
    | some s1 =>
      rw [h0, h1] at h
      simp only [Option.bind_eq_bind, Option.bind_some] at h
      cases type <;> (simp only [Option.pure_def, Option.some.injEq] at h; subst h; intro e he; simp at he)
      all_goals first
        | (subst he; rfl)
        | (rcases he with rfl | rfl | rfl <;> rfl)

/-- The loop, and its events for a track. -/
theorem loop_filter {B : Blends} {type : TrackType} {p : Nat → Rounding} {f0 f1 : Nat} {alpha : ℚ} (l : List Track) (i : Nat)
    {es : List Event} (h : sampleLoop B type p f0 f1 alpha l i = some es) (hi : ∀ t ∈ l, t.type = type) :
    (∀ e ∈ es, i ≤ trackOf e) ∧
    ∀ k (hk : k < l.length), sampleOne B l[k].type l[k] (i + k) f0 f1 (alphaPerPolicy alpha (p (i + k))) =
      some (es.filter fun e => trackOf e == i + k) := by
  induction l generalizing i es with
  | nil =>
    rw [sampleLoop] at h
    cases h
    exact ⟨fun e he => absurd he (by simp), fun k hk => absurd hk (by simp)⟩
  | cons t rest ih =>
    rw [sampleLoop] at h
    cases h1 : sampleOne B type t i f0 f1 (alphaPerPolicy alpha (p i)) with
    | none => rw [h1] at h; cases h
    | some e1 =>
      cases h2 : sampleLoop B type p f0 f1 alpha rest (i + 1) with
      | none => rw [h1, h2] at h; cases h
      | some e2 =>
        rw [h1, h2] at h
        simp only [Option.bind_eq_bind, Option.bind_some, Option.pure_def, Option.some.injEq] at h
        subst h
        have t1 := sampleOne_tracks h1
        obtain ⟨t2, t3⟩ := ih (i + 1) h2 (fun t ht => hi t (List.mem_cons_of_mem _ ht))
        refine ⟨?_, ?_⟩
        · intro e he
          rcases List.mem_append.mp he with h | h
          · exact (t1 e h).ge
          · exact (Nat.le_succ i).trans (t2 e h)
        · intro k hk
          rw [List.filter_append]
          cases k with
          | zero =>
            simp only [List.getElem_cons_zero, Nat.add_zero]
            rw [hi t List.mem_cons_self, h1]
            rw [List.filter_eq_self.mpr (fun e he => by rw [t1 e he]; simp),
              List.filter_eq_nil_iff.mpr (fun e he => by have := t2 e he; simp; omega), List.append_nil]
          | succ k =>
            simp only [List.getElem_cons_succ]
            rw [show i + (k + 1) = i + 1 + k by omega, t3 k (by simpa using hk)]
            have hnil : e1.filter (fun e => trackOf e == i + 1 + k) = [] :=
              List.filter_eq_nil_iff.mpr (fun e he => by have := t1 e he; simp; omega)
            rw [hnil, List.nil_append]

theorem loop_success {B : Blends} {type : TrackType} {p : Nat → Rounding} {f0 f1 : Nat} {alpha : ℚ} (l : List Track) (i : Nat)
    (hi : ∀ t ∈ l, f0 < t.samples.length ∧ f1 < t.samples.length) :
    ∃ es, sampleLoop B type p f0 f1 alpha l i = some es := by
  induction l generalizing i with
  | nil => exact ⟨_, rfl⟩
  | cons t rest ih =>
    obtain ⟨es, h⟩ := ih (i + 1) (fun t ht => hi t (List.mem_cons_of_mem _ ht))
    have h1 : ∃ e1, sampleOne B type t i f0 f1 (alphaPerPolicy alpha (p i)) = some e1 := by
      obtain ⟨a, b⟩ := hi t List.mem_cons_self
      unfold sampleOne
      rw [List.getElem?_eq_getElem a, List.getElem?_eq_getElem b]
      simp only [Option.bind_eq_bind, Option.bind_some]
      cases type <;> exact ⟨_, rfl⟩
    obtain ⟨e1, h1⟩ := h1
    rw [sampleLoop, h1, h]
    exact ⟨_, rfl⟩

/-- On a valid track array, when sampling all the tracks gives the events `es`, sampling track `i` at the same time with
the same policies gives the events of `es` that are about track `i`, in order. -/
theorem C33_same (B : Blends) (a : TrackArray) (hv : a.isValid = true) (time : ℚ) (rounding : Rounding)
    (policyOf : Rounding → Nat → Rounding) (es : List Event) (h : sampleTracks B a time rounding policyOf = some es)
    (i : Nat) (hi : i < a.tracks.length) :
    sampleTrack B a i time rounding policyOf = some (es.filter fun e => trackOf e == i) := by
  unfold sampleTracks at h
  unfold sampleTrack
  rw [List.getElem?_eq_getElem hi]
  simp only [Option.bind_eq_bind, Option.bind_some]
  rw [samples_policy]
  cases hs : samplesWithRate a.numSamples a.sampleRate (clampTime time a.finiteDuration) .perTrack a.looping with
  | none => simp only [hs] at h; cases h
  | some s =>
    obtain ⟨f0, f1, alpha⟩ := s
    simp only [hs, Option.bind_eq_bind, Option.bind_some] at h
    simp only [Option.map_some, Option.bind_some]
    have := (loop_filter a.tracks 0 h (type_eq hv)).2 i hi
    rwa [Nat.zero_add] at this

/-- Sampling a valid, non-empty array of at most 2^23 - 4 samples succeeds: no sample out of bounds is read. -/
theorem C33_success (B : Blends) (a : TrackArray) (hv : a.isValid = true) (hlen : a.tracks ≠ [])
    (hn1 : 1 ≤ a.numSamples) (hn : a.numSamples ≤ 2 ^ 23 - 4) (hl : a.looping ≠ .asCompressed)
    (hr : 0 < a.sampleRate ∧ a.sampleRate < pow2 128) (time : ℚ) (ht : time < pow2 128) (rounding : Rounding)
    (policyOf : Rounding → Nat → Rounding) :
    ∃ es, sampleTracks B a time rounding policyOf = some es := by
  have hsz : ∀ t ∈ a.tracks, t.samples.length = a.numSamples := by
    intro t ht
    unfold TrackArray.isValid at hv
    rw [Bool.and_eq_true, List.all_eq_true] at hv
    have h2 := hv.1 t ht
    unfold trackOk at h2
    simp only [Bool.and_eq_true, beq_iff_eq] at h2
    exact h2.1.1.1.2
  have hn' : a.numSamples + 4 ≤ 2 ^ 23 := by omega
  have hd : a.finiteDuration =
      calculateFiniteDuration ((if a.looping = .clamp then a.numSamples - 1 else a.numSamples) + 1) a.sampleRate := by
    unfold TrackArray.finiteDuration
    rw [if_neg (by simpa using hlen)]
    simp only []
    have e : (a.numSamples + 1) % 2 ^ 32 = a.numSamples + 1 := Nat.mod_eq_of_lt (by omega)
    rw [e]
    congr 1
    cases hlp : a.looping
    · simp; omega
    · simp; omega
    · exact absurd hlp hl
  obtain ⟨b0, b1⟩ := time_rate_le (m := if a.looping = .clamp then a.numSamples - 1 else a.numSamples) (t := time)
    (by split <;> omega) hr.1 hr.2 ht
  rw [← hd] at b0 b1
  obtain ⟨s, hs, hv'⟩ := samplesOfIndex_neighbours .perTrack a.looping hn1 hn' b0 b1
  unfold sampleTracks samplesWithRate fmul
  simp only []
  rw [hs]
  obtain ⟨f0, f1, alpha⟩ := s
  obtain ⟨g0, g1, -⟩ := hv'
  exact loop_success a.tracks 0 (fun t ht => by rw [hsz t ht]; exact ⟨g0, g1⟩)

/-- What the writer must receive for track `i` when its value lies between the samples `s0` and `s1`: each component of the
track, blended by the same factor, and for a transform its rotation, its translation and its scale in that order. -/
def blended (B : Blends) (type : TrackType) (i : Nat) (s0 s1 : Sample) (alpha : ℚ) : List Event :=
  if type = .qvvf then
    [.rotation i (B.quatLerp s0.rotation s1.rotation alpha), .translation i (B.vectorLerp s0.translation s1.translation alpha),
      .scale i (B.vectorLerp s0.scale s1.scale alpha)]
  else if type = .float1f then [.float type i (B.scalarLerp s0.floats s1.floats alpha)]
  else [.float type i (B.vectorLerp s0.floats s1.floats alpha)]

theorem sampleOne_blended {B : Blends} {type : TrackType} {t : Track} {i f0 f1 : Nat} {alpha : ℚ} {es : List Event}
    (h : sampleOne B type t i f0 f1 alpha = some es) :
    ∃ s0 s1, t.samples[f0]? = some s0 ∧ t.samples[f1]? = some s1 ∧ es = blended B type i s0 s1 alpha := by
  unfold sampleOne at h
  cases h0 : t.samples[f0]? with
  | none => rw [h0] at h; cases h
  | some s0 =>
    cases h1 : t.samples[f1]? with
    | none => rw [h0, h1] at h; cases h
    | some s1 =>
      rw [h0, h1] at h
      simp only [Option.bind_eq_bind, Option.bind_some] at h
      refine ⟨s0, s1, rfl, rfl, ?_⟩
      cases type <;> (simp only [Option.pure_def, Option.some.injEq] at h; subst h; rfl)

/-- On a valid track array, sampling all the tracks writes, for every track, the blend of the two samples of the track that
surround the (clamped) time, by the factor that its own rounding policy makes of the position of the time between the two.
With `C33_same` the same holds of sampling one track. -/
theorem C33_values (B : Blends) (a : TrackArray) (hv : a.isValid = true) (time : ℚ) (rounding : Rounding)
    (policyOf : Rounding → Nat → Rounding) (es : List Event) (h : sampleTracks B a time rounding policyOf = some es) :
    ∃ f0 f1 alpha,
      samplesWithRate a.numSamples a.sampleRate (clampTime time a.finiteDuration) .perTrack a.looping = some (f0, f1, alpha) ∧
      ∀ i (hi : i < a.tracks.length), ∃ s0 s1, a.tracks[i].samples[f0]? = some s0 ∧ a.tracks[i].samples[f1]? = some s1 ∧
        es.filter (fun e => trackOf e == i) = blended B a.type i s0 s1 (applyRounding alpha (policyOf rounding i)) := by
  unfold sampleTracks at h
  cases hs : samplesWithRate a.numSamples a.sampleRate (clampTime time a.finiteDuration) .perTrack a.looping with
  | none => simp only [hs] at h; cases h
  | some s =>
    obtain ⟨f0, f1, alpha⟩ := s
    simp only [hs, Option.bind_eq_bind, Option.bind_some] at h
    refine ⟨f0, f1, alpha, rfl, fun i hi => ?_⟩
    have := (loop_filter a.tracks 0 h (type_eq hv)).2 i hi
    rw [Nat.zero_add] at this
    obtain ⟨s0, s1, h0, h1, he⟩ := sampleOne_blended this
    refine ⟨s0, s1, h0, h1, ?_⟩
    rw [he, type_eq hv _ (List.getElem_mem hi), alphaPerPolicy_eq]

/-- Two float1 tracks of three samples. -/
def example_array : TrackArray where
  tracks := [⟨.float1f, [⟨[0], [], [], []⟩, ⟨[1], [], [], []⟩, ⟨[3], [], [], []⟩], 30, 1, invalidIndex, true, true⟩,
    ⟨.float1f, [⟨[5], [], [], []⟩, ⟨[6], [], [], []⟩, ⟨[7], [], [], []⟩], 30, 0, invalidIndex, true, true⟩]
  looping := .clamp

example : example_array.isValid = true := by decide +kernel

example : sampleTracks ⟨fun x y t => List.zipWith (fun x y => Lerp.lerp true x y t) x y, fun x _ _ => x, fun x _ _ => x⟩ example_array (1 / 20) .none
      (fun p i => if i = 1 then .ceil else p) = some [.float .float1f 0 [2], .float .float1f 1 [7]] := by
  decide +kernel

/-- A transform track of two samples. -/
def example_transform : TrackArray where
  tracks := [⟨.qvvf, [⟨[], [0, 0, 0, 1], [1, 2, 3], [1, 1, 1]⟩, ⟨[], [1, 0, 0, 0], [3, 4, 5], [2, 2, 2]⟩], 30, 0, invalidIndex, true, true⟩]
  looping := .clamp

example : example_transform.isValid = true ∧
    sampleTracks ⟨fun x _ _ => x, fun x y t => List.zipWith (fun x y => Lerp.lerp true x y t) x y, fun _ y _ => y⟩ example_transform
      (1 / 60) .none (fun p _ => p) =
      some [.rotation 0 [1, 0, 0, 0], .translation 0 [2, 3, 4], .scale 0 [3 / 2, 3 / 2, 3 / 2]] := by
  constructor <;> decide +kernel

end Acl.C33
