import Verif.Database.Tiers
import Verif.Props.C21
namespace Acl.Tiers
open Acl Acl.C43 Acl.C21
variable {E : Type} [LinearOrder E] [OrderTop E] [Zero E]

/-- The clip is one compression produces (C17, C43): its segments have the given sizes. -/
structure ClipOk (metrics : List (SegmentMetric E)) (sizes : List Nat) (clip : Clip E) : Prop where
  metricsLen : metrics.length = sizes.length
  sizesOk : SizesOk sizes
  small : sizes.sum < 2 ^ 32
  samples : clip.numSamples = sizes.sum
  segments : clip.numSegments = sizes.length
  starts : ∀ s, s < sizes.length → sizes.length > 1 → clip.segmentStarts[s]? = some (start sizes s)
  bits : clip.poseBits.length = sizes.length
  order : IsClipOrder metrics sizes clip.metadata

/-- Number of frames of `out` from clip `c`. -/
def countClip (out : List (Frame E)) (c : Nat) : Nat := (out.filter (fun f => f.tracksIndex == c)).length

theorem countClip_append (a b : List (Frame E)) (c : Nat) :
    countClip (a ++ b) c = countClip a c + countClip b c := by
  unfold countClip; rw [List.filter_append, List.length_append]

theorem countClip_take_le (out : List (Frame E)) (s i j : Nat) (h : i ≤ j) :
    countClip (out.take i) s ≤ countClip (out.take j) s := by
  obtain ⟨d, rfl⟩ := Nat.exists_eq_add_of_le h
  rw [List.take_add, countClip_append]; omega

theorem countClip_sum (out : List (Frame E)) (n : Nat) (h : ∀ f ∈ out, f.tracksIndex < n) :
    ((List.range n).map (countClip out)).sum = out.length := by
  induction out with
  | nil =>
    have : ((List.range n).map (countClip ([] : List (Frame E)))).sum = 0 := by
      clear h
      induction n with
      | zero => rfl
      | succ n ih => rw [List.range_succ, List.map_append, List.sum_append, ih]; rfl
    rw [this]; rfl
  | cons e out ih =>
    have ih' := ih (fun x hx => h x (List.mem_cons_of_mem _ hx))
    have hstep : ∀ s, countClip (e :: out) s = countClip out s + (if s = e.tracksIndex then 1 else 0) := by
      intro s
      unfold countClip
      rw [List.filter_cons]
      by_cases hs : s = e.tracksIndex
      · subst hs; simp
      · have : (e.tracksIndex == s) = false := by simpa using Ne.symm hs
        rw [this]; simp [hs]
    have : ∀ m, ((List.range m).map (countClip (e :: out))).sum
        = ((List.range m).map (countClip out)).sum + (if e.tracksIndex < m then 1 else 0) := by
      intro m
      induction m with
      | zero => simp
      | succ m ihm =>
        rw [List.range_succ, List.map_append, List.map_append, List.sum_append, List.sum_append, ihm]
        simp only [List.map_singleton, List.sum_singleton, hstep]
        split <;> split <;> split <;> omega
    rw [this n, ih', if_pos (h e List.mem_cons_self), List.length_cons]

/-- The frame made from entry `src` of clip `c`. -/
def FrameOf (sizes : List Nat) (clip : Clip E) (c : Nat) (src : KeyframeMeta E) (f : Frame E) : Prop :=
  f.tracksIndex = c ∧ f.segmentIndex = src.segmentIndex ∧ f.clipFrameIndex = src.keyframeIndex ∧
  f.segmentFrameIndex + start sizes src.segmentIndex = src.keyframeIndex ∧
  clip.poseBits[src.segmentIndex]? = some f.frameBitSize ∧ f.error = src.strippingError

/-- All the clips are fine; `sizes c` are the sizes of the segments of clip `c`. -/
def ClipsOk (clips : List (Clip E)) (metrics : Nat → List (SegmentMetric E)) (sizes : Nat → List Nat) : Prop :=
  ∀ (c : Nat) clip, clips[c]? = some clip → ClipOk (metrics c) (sizes c) clip

theorem ClipOk.orderLength {metrics : List (SegmentMetric E)} {sizes : List Nat} {clip : Clip E}
    (h : ClipOk metrics sizes clip) : clip.metadata.length = clip.numSamples := by
  have := h.order.keyframes.length_eq
  rw [h.samples]; simpa using this

theorem considerClip_spec {clips : List (Clip E)} {metrics : Nat → List (SegmentMetric E)} {sizes : Nat → List Nat}
    (hok : ClipsOk clips metrics sizes) (counts : List Nat) (hc : counts.length = clips.length) (highest : Bool)
    (best : Frame E) (c : Nat) (clip : Clip E) (i : Nat) (hclip : clips[c]? = some clip) (hi : counts[c]? = some i) :
    (clip.numSamples ≤ i ∧ considerClip clips counts highest best c = some best) ∨
    (i < clip.numSamples ∧ ∃ src, clip.metadata[i]? = some src ∧
      ((¬ (src.strippingError < best.error ∨ highest = true) ∧ considerClip clips counts highest best c = some best) ∨
       ((src.strippingError < best.error ∨ highest = true) ∧ ∃ f, FrameOf (sizes c) clip c src f ∧
          considerClip clips counts highest best c = some f))) := by
  have ok := hok c clip hclip
  unfold considerClip
  rw [hclip, Option.bind_eq_bind, Option.bind_some, hi, Option.bind_eq_bind, Option.bind_some]
  by_cases hle : clip.numSamples ≤ i
  · left; exact ⟨hle, by rw [if_pos hle]⟩
  · right
    rw [if_neg hle]
    have hlen := ok.orderLength
    have hg : clip.metadata[i]? = some (clip.metadata[i]'(by omega)) := List.getElem?_eq_getElem (by omega)
    refine ⟨by omega, _, hg, ?_⟩
    rw [hg, Option.bind_eq_bind, Option.bind_some]
    generalize clip.metadata[i]'(by omega) = src at *
    by_cases hlt : src.strippingError < best.error ∨ highest = true
    · right
      refine ⟨hlt, ?_⟩
      rw [if_pos hlt]
      obtain ⟨n, hn, h1, h2⟩ := ok.order.segment src (List.mem_iff_getElem?.2 ⟨_, hg⟩)
      have hsl : src.segmentIndex < (sizes c).length := by
        by_contra hc; rw [List.getElem?_eq_none (by omega)] at hn; simp at hn
      have hb : clip.poseBits[src.segmentIndex]? = some (clip.poseBits[src.segmentIndex]'(by rw [ok.bits]; exact hsl)) :=
        List.getElem?_eq_getElem _
      rw [hb, Option.bind_some]
      dsimp only
      have hst : (if clip.numSegments > 1 then clip.segmentStarts[src.segmentIndex]? else some 0) = some (start (sizes c) src.segmentIndex) := by
        by_cases hm : clip.numSegments > 1
        · rw [if_pos hm]; exact ok.starts _ hsl (by rw [← ok.segments]; exact hm)
        · rw [if_neg hm]
          have : src.segmentIndex = 0 := by have := ok.segments; omega
          rw [this]; rfl
      by_cases hm : clip.numSegments > 1
      · rw [if_pos hm] at hst
        rw [if_pos hm, hst]
        exact ⟨_, ⟨rfl, rfl, rfl, by show src.keyframeIndex - _ + _ = _; omega, hb, rfl⟩, rfl⟩
      · rw [if_neg hm] at hst
        simp only [Option.some.injEq] at hst
        rw [if_neg hm]
        exact ⟨_, ⟨rfl, rfl, rfl, by show src.keyframeIndex - 0 + _ = _; omega, hb, rfl⟩, rfl⟩
    · left; exact ⟨hlt, by rw [if_neg hlt]⟩

theorem considerClips_spec {clips : List (Clip E)} {metrics : Nat → List (SegmentMetric E)} {sizes : Nat → List Nat}
    (hok : ClipsOk clips metrics sizes) (counts : List Nat) (hc : counts.length = clips.length) (highest : Bool)
    (k c : Nat) (best : Frame E) (hk : c + k ≤ clips.length) :
    ∃ b, considerClips clips counts highest k c best = some b ∧
      (highest = false → b.error ≤ best.error) ∧
      (highest = false → ∀ (t : Nat) clip i src, c ≤ t → t < c + k → clips[t]? = some clip → counts[t]? = some i →
        i < clip.numSamples → clip.metadata[i]? = some src → b.error ≤ src.strippingError) ∧
      ((b = best ∧ (highest = true → ∀ (t : Nat) clip i, c ≤ t → t < c + k → clips[t]? = some clip → counts[t]? = some i →
          clip.numSamples ≤ i)) ∨
        ∃ (t : Nat) (clip : Clip E) (i : Nat) (src : KeyframeMeta E), c ≤ t ∧ t < c + k ∧ clips[t]? = some clip ∧
          counts[t]? = some i ∧ i < clip.numSamples ∧ clip.metadata[i]? = some src ∧ FrameOf (sizes t) clip t src b) := by
  induction k generalizing c best with
  | zero =>
    exact ⟨best, rfl, fun _ => le_refl _, fun _ t _ _ _ h1 h2 => by omega, Or.inl ⟨rfl, fun _ t _ _ h1 h2 => by omega⟩⟩
  | succ k ih =>
    have hg1 : clips[c]? = some (clips[c]'(by omega)) := List.getElem?_eq_getElem (by omega)
    have hg2 : counts[c]? = some (counts[c]'(by omega)) := List.getElem?_eq_getElem (by omega)
    generalize clips[c]'(by omega) = clip at *
    generalize counts[c]'(by omega) = i at *
    have hstep : ∀ best', considerClip clips counts highest best c = some best' →
        considerClips clips counts highest (k+1) c best = considerClips clips counts highest k (c+1) best' := by
      intro best' e
      rw [considerClips, e]; rfl
    rcases considerClip_spec hok counts hc highest best c clip i hg1 hg2 with ⟨hle, e⟩ | ⟨hlt, src, hsrc, ⟨hn, e⟩ | ⟨hy, f, hf, e⟩⟩
    · obtain ⟨b, e2, h1, h2, h3⟩ := ih (c+1) best (by omega)
      refine ⟨b, by rw [hstep _ e, e2], h1, ?_, ?_⟩
      · intro hh t clip' i' src' a1 a2 a3 a4 a5 a6
        by_cases ht : t = c
        · subst ht
          rw [hg1] at a3; rw [hg2] at a4
          simp only [Option.some.injEq] at a3 a4; subst a3; subst a4; omega
        · exact h2 hh t clip' i' src' (by omega) (by omega) a3 a4 a5 a6
      · rcases h3 with ⟨h3, h4⟩ | ⟨t, clip', i', src', a1, a2, a3⟩
        · left; refine ⟨h3, fun hh t clip' i' a1 a2 a3 a4 => ?_⟩
          by_cases ht : t = c
          · subst ht
            rw [hg1] at a3; rw [hg2] at a4
            simp only [Option.some.injEq] at a3 a4; subst a3; subst a4; exact hle
          · exact h4 hh t clip' i' (by omega) (by omega) a3 a4
        · right; exact ⟨t, clip', i', src', by omega, by omega, a3⟩
    · push Not at hn
      obtain ⟨b, e2, h1, h2, h3⟩ := ih (c+1) best (by omega)
      refine ⟨b, by rw [hstep _ e, e2], h1, ?_, ?_⟩
      · intro hh t clip' i' src' a1 a2 a3 a4 a5 a6
        by_cases ht : t = c
        · subst ht
          rw [hg1] at a3; rw [hg2] at a4
          simp only [Option.some.injEq] at a3 a4; subst a3; subst a4
          rw [hsrc] at a6; simp only [Option.some.injEq] at a6; subst a6
          exact le_trans (h1 hh) hn.1
        · exact h2 hh t clip' i' src' (by omega) (by omega) a3 a4 a5 a6
      · rcases h3 with ⟨h3, h4⟩ | ⟨t, clip', i', src', a1, a2, a3⟩
        · left; refine ⟨h3, fun hh => absurd hh hn.2⟩
        · right; exact ⟨t, clip', i', src', by omega, by omega, a3⟩
    · obtain ⟨b, e2, h1, h2, h3⟩ := ih (c+1) f (by omega)
      have hfe : f.error = src.strippingError := hf.2.2.2.2.2
      refine ⟨b, by rw [hstep _ e, e2], ?_, ?_, ?_⟩
      · intro hh
        refine le_trans (h1 hh) ?_
        rw [hfe]
        rcases hy with hy | hy
        · exact le_of_lt hy
        · rw [hh] at hy; simp at hy
      · intro hh t clip' i' src' a1 a2 a3 a4 a5 a6
        by_cases ht : t = c
        · subst ht
          rw [hg1] at a3; rw [hg2] at a4
          simp only [Option.some.injEq] at a3 a4; subst a3; subst a4
          rw [hsrc] at a6; simp only [Option.some.injEq] at a6; subst a6
          rw [← hfe]; exact h1 hh
        · exact h2 hh t clip' i' src' (by omega) (by omega) a3 a4 a5 a6
      · right
        rcases h3 with ⟨h3, h4⟩ | ⟨t, clip', i', src', a1, a2, a3⟩
        · exact ⟨c, clip, i, src, le_refl _, by omega, hg1, hg2, hlt, hsrc, by rw [h3]; exact hf⟩
        · exact ⟨t, clip', i', src', by omega, by omega, a3⟩

/-- Invariant of the assignment: `all` are the frames assigned so far, to any tier. -/
structure TierInv (clips : List (Clip E)) (sizes : Nat → List Nat) (counts : List Nat) (all : List (Frame E)) : Prop where
  len : counts.length = clips.length
  counts : ∀ (c : Nat), c < clips.length → counts[c]? = some (countClip all c)
  le : ∀ (c : Nat) clip, clips[c]? = some clip → countClip all c ≤ clip.numSamples
  clip : ∀ f ∈ all, f.tracksIndex < clips.length
  entry : ∀ (i : Nat) (f : Frame E), all[i]? = some f → ∃ clip src, clips[f.tracksIndex]? = some clip ∧
    clip.metadata[countClip (all.take i) f.tracksIndex]? = some src ∧ FrameOf (sizes f.tracksIndex) clip f.tracksIndex src f

/-- The frame at position `i` is the cheapest of the next ones of all the clips. -/
def GreedyAt (clips : List (Clip E)) (all : List (Frame E)) (i : Nat) : Prop :=
  ∀ (f : Frame E), all[i]? = some f → ∀ (t : Nat) clip src, clips[t]? = some clip →
    countClip (all.take i) t < clip.numSamples → clip.metadata[countClip (all.take i) t]? = some src →
    f.error ≤ src.strippingError

theorem numFrames_eq (clips : List (Clip E)) :
    numFrames clips = ((List.range clips.length).map (fun c => (clips.map (·.numSamples)).getD c 0)).sum := by
  have : numFrames clips = (clips.map (·.numSamples)).sum := by
    induction clips with
    | nil => rfl
    | cons c cs ih => rw [numFrames, ih]; simp
  rw [this]
  congr 1
  apply List.ext_getElem?
  intro i
  rw [List.getElem?_map, List.getElem?_map]
  by_cases hi : i < clips.length
  · rw [List.getElem?_range hi]; simp [hi]
  · rw [List.getElem?_eq_none (by omega), List.getElem?_eq_none (by simp; omega)]; rfl

theorem exists_unassigned {clips : List (Clip E)} {sizes : Nat → List Nat} {counts : List Nat} {all : List (Frame E)}
    (h : TierInv clips sizes counts all) (hl : all.length < numFrames clips) :
    ∃ (c : Nat) (clip : Clip E), clips[c]? = some clip ∧ countClip all c < clip.numSamples := by
  rw [numFrames_eq, ← countClip_sum _ _ h.clip] at hl
  obtain ⟨s, h1, h2⟩ := sum_lt_exists _ _ _ hl
  exact ⟨s, clips[s], List.getElem?_eq_getElem h1, by simpa [h1] using h2⟩

/-- Movable frames of one clip. -/
theorem movable_clip {metrics : List (SegmentMetric E)} {sizes : List Nat} {clip : Clip E}
    (h : ClipOk metrics sizes clip) :
    (if clip.numSamples ≥ 2 then clip.numSamples - clip.numSegments * 2 else 0) = movableCount sizes := by
  rw [h.samples, h.segments]
  rcases h.sizesOk with hs | hs
  · have := sum_ge sizes (fun n hn => (hs n hn).1)
    split
    · omega
    · have : sizes.length = 0 := by omega
      rw [List.length_eq_zero_iff.1 this]; rfl
  · subst hs; rfl

theorem numMovable_eq {clips : List (Clip E)} {metrics : Nat → List (SegmentMetric E)} {sizes : Nat → List Nat}
    (hok : ClipsOk clips metrics sizes) :
    numMovable clips = ((List.range clips.length).map (fun c => movableCount (sizes c))).sum := by
  induction clips generalizing metrics sizes with
  | nil => rfl
  | cons c cs ih =>
    have h1 := ih (metrics := fun i => metrics (i+1)) (sizes := fun i => sizes (i+1))
      (fun i clip hi => hok (i+1) clip (by simpa using hi))
    rw [numMovable, h1, movable_clip (hok 0 c rfl), List.length_cons, List.range_succ_eq_map, List.map_cons,
      List.sum_cons, List.map_map]
    rfl

/-- As long as fewer frames than there are movable ones were assigned, some clip's next frame is
movable. -/
theorem exists_movable {clips : List (Clip E)} {metrics : Nat → List (SegmentMetric E)} {sizes : Nat → List Nat}
    (hok : ClipsOk clips metrics sizes) {counts : List Nat} {all : List (Frame E)}
    (h : TierInv clips sizes counts all) (hl : all.length < numMovable clips) :
    ∃ (c : Nat) (clip : Clip E) (src : KeyframeMeta E), clips[c]? = some clip ∧ countClip all c < clip.numSamples ∧
      clip.metadata[countClip all c]? = some src ∧ src.strippingError < ⊤ := by
  rw [numMovable_eq hok, ← countClip_sum _ _ h.clip] at hl
  obtain ⟨s, h1, h2⟩ := sum_lt_exists _ _ _ hl
  have hg : clips[s]? = some clips[s] := List.getElem?_eq_getElem h1
  have ok := hok s _ hg
  have hmt := movable_total _ _ ok.metricsLen _ ok.order
  have hle : movableCount (sizes s) ≤ clips[s].metadata.length := by rw [← hmt]; exact List.countP_le_length
  have hlen := ok.orderLength
  have hg2 : clips[s].metadata[countClip all s]? = some (clips[s].metadata[countClip all s]'(by omega)) :=
    List.getElem?_eq_getElem _
  refine ⟨s, _, _, hg, by omega, hg2, ?_⟩
  have hb := movable_first _ _ ok.metricsLen _ ok.order _ _ h2 hg2
  apply lt_of_le_of_ne le_top
  intro heq
  exact hb ((ok.order.boundary _ (List.mem_iff_getElem?.2 ⟨_, hg2⟩)).1 heq)

theorem assignOne_spec {clips : List (Clip E)} {metrics : Nat → List (SegmentMetric E)} {sizes : Nat → List Nat}
    (hok : ClipsOk clips metrics sizes) (highest : Bool) (counts : List Nat) (done out : List (Frame E))
    (h : TierInv clips sizes counts (done ++ out))
    (hl : (done ++ out).length < (if highest then numFrames clips else numMovable clips)) :
    ∃ counts' f, assignOne clips highest (counts, out) = some (counts', out ++ [f]) ∧
      TierInv clips sizes counts' (done ++ (out ++ [f])) ∧
      (highest = false → GreedyAt clips (done ++ (out ++ [f])) (done ++ out).length ∧ f.error < ⊤) := by
  obtain ⟨b, eb, hb1, hb2, hb3⟩ := considerClips_spec hok counts h.len highest clips.length 0
    ⟨0, 0, 0, 0, 0, ⊤⟩ (by omega)
  have hfin : highest = false → b.error < ⊤ := by
    intro hh
    rw [hh] at hl
    simp only [Bool.false_eq_true, if_false] at hl
    obtain ⟨s, clip, src, a1, a2, a3, a4⟩ := exists_movable hok h hl
    have hs : s < clips.length := by
      by_contra hc; rw [List.getElem?_eq_none (by omega)] at a1; simp at a1
    exact lt_of_le_of_lt (hb2 hh s clip _ src (by omega) (by omega) a1 (h.counts s hs) a2 a3) a4
  rcases hb3 with ⟨hb3, hb4⟩ | ⟨t, clip, i, src, -, ht, hclip, hcnt, hi, hsrc, hf⟩
  · exfalso
    cases hh : highest with
    | false =>
      have := hfin hh
      rw [hb3] at this
      exact absurd this (lt_irrefl _)
    | true =>
      rw [hh] at hl
      simp only [if_true] at hl
      obtain ⟨s, clip, a1, a2⟩ := exists_unassigned h hl
      have hs : s < clips.length := by
        by_contra hc; rw [List.getElem?_eq_none (by omega)] at a1; simp at a1
      have := hb4 hh s clip _ (by omega) (by omega) a1 (h.counts s hs)
      omega
  · have hbt : b.tracksIndex = t := hf.1
    have ht' : t < clips.length := by omega
    have hi' : i = countClip (done ++ out) t := by
      have := h.counts t ht'; rw [hcnt] at this; simpa using this
    have hcs : ∀ s, countClip (done ++ (out ++ [b])) s = countClip (done ++ out) s + (if s = t then 1 else 0) := by
      intro s
      rw [← List.append_assoc, countClip_append]
      congr 1
      unfold countClip
      by_cases hst : s = t
      · subst hst; simp [hbt]
      · have : (b.tracksIndex == s) = false := by rw [hbt]; simpa using Ne.symm hst
        simp [this, hst]
    refine ⟨counts.set t (i+1), b, ?_, ?_, ?_⟩
    · unfold assignOne
      rw [eb, Option.bind_eq_bind, Option.bind_some, hbt]
      show (counts[t]?).bind _ = _
      rw [hcnt]; rfl
    · constructor
      · simpa using h.len
      · intro s hs
        rw [hcs]
        by_cases hst : s = t
        · subst hst; rw [List.getElem?_set_self (by rw [h.len]; exact hs), if_pos rfl, hi']
        · rw [List.getElem?_set_ne (Ne.symm hst), if_neg hst, Nat.add_zero]; exact h.counts s hs
      · intro s clip' hs
        rw [hcs]
        by_cases hst : s = t
        · subst hst; rw [hclip] at hs; simp only [Option.some.injEq] at hs; subst hs; rw [if_pos rfl]; omega
        · rw [if_neg hst]; exact h.le s clip' hs
      · intro f hf'
        rw [← List.append_assoc] at hf'
        rcases List.mem_append.1 hf' with hx | hx
        · exact h.clip f hx
        · rw [List.mem_singleton] at hx; rw [hx, hbt]; exact ht'
      · intro j f hj
        rw [← List.append_assoc] at hj ⊢
        by_cases hjl : j < (done ++ out).length
        · rw [List.getElem?_append_left hjl] at hj
          rw [List.take_append_of_le_length (by omega)]
          exact h.entry j f hj
        · rw [List.getElem?_append_right (by omega)] at hj
          have hj2 : j = (done ++ out).length := by
            by_contra hne
            rw [List.getElem?_eq_none (by rw [List.length_singleton]; omega)] at hj; simp at hj
          subst hj2
          rw [Nat.sub_self] at hj
          simp only [List.getElem?_cons_zero, Option.some.injEq] at hj
          subst hj
          rw [List.take_left' rfl, hbt]
          exact ⟨clip, src, hclip, by rw [← hi']; exact hsrc, hf⟩
    · intro hh
      refine ⟨?_, hfin hh⟩
      intro f hj t' clip' src'
      rw [← List.append_assoc] at hj ⊢
      rw [List.getElem?_append_right (by omega), Nat.sub_self] at hj
      simp only [List.getElem?_cons_zero, Option.some.injEq] at hj
      subst hj
      rw [List.take_left' rfl]
      intro a1 a2 a3
      have ht'' : t' < clips.length := by
        by_contra hc; rw [List.getElem?_eq_none (by omega)] at a1; simp at a1
      exact hb2 hh t' clip' _ src' (by omega) (by omega) a1 (h.counts t' ht'') a2 a3

theorem greedyAt_append {clips : List (Clip E)} {a b : List (Frame E)} {i : Nat} (hi : i < a.length) :
    GreedyAt clips (a ++ b) i ↔ GreedyAt clips a i := by
  unfold GreedyAt
  rw [List.getElem?_append_left hi, List.take_append_of_le_length (by omega)]

theorem assignLoop_spec {clips : List (Clip E)} {metrics : Nat → List (SegmentMetric E)} {sizes : Nat → List Nat}
    (hok : ClipsOk clips metrics sizes) (highest : Bool) (k : Nat) (counts : List Nat) (done out : List (Frame E))
    (h : TierInv clips sizes counts (done ++ out))
    (hl : (done ++ out).length + k ≤ (if highest then numFrames clips else numMovable clips)) :
    ∃ counts' new, assignLoop clips highest k (counts, out) = some (counts', out ++ new) ∧ new.length = k ∧
      TierInv clips sizes counts' (done ++ (out ++ new)) ∧
      (highest = false → (∀ i, (done ++ out).length ≤ i → i < (done ++ out).length + k →
        GreedyAt clips (done ++ (out ++ new)) i) ∧ ∀ f ∈ new, f.error < ⊤) := by
  induction k generalizing counts out with
  | zero => exact ⟨counts, [], by simp [assignLoop], rfl, by simpa using h, fun _ => ⟨fun i h1 h2 => by omega, by simp⟩⟩
  | succ k ih =>
    obtain ⟨counts1, f, e1, h1, g1⟩ := assignOne_spec hok highest counts done out h (by omega)
    have hlen1 : (done ++ (out ++ [f])).length = (done ++ out).length + 1 := by simp; omega
    obtain ⟨counts2, new, e2, l2, h2, g2⟩ := ih counts1 (out ++ [f]) h1 (by omega)
    refine ⟨counts2, f :: new, ?_, by simp [l2], ?_, ?_⟩
    · rw [assignLoop, e1, Option.bind_eq_bind, Option.bind_some, e2]; simp
    · simpa using h2
    · intro hh
      obtain ⟨ga, gf⟩ := g1 hh
      obtain ⟨gb, gn⟩ := g2 hh
      have happ : done ++ (out ++ (f :: new)) = done ++ (out ++ [f] ++ new) := by simp
      refine ⟨?_, ?_⟩
      · intro i hi1 hi2
        rw [happ]
        by_cases hi : i = (done ++ out).length
        · subst hi
          rw [← List.append_assoc, greedyAt_append (by rw [hlen1]; omega)]
          exact ga
        · exact gb i (by omega) (by omega)
      · intro x hx
        rcases List.mem_cons.1 hx with hx | hx
        · rw [hx]; exact gf
        · exact gn x hx

theorem assignTiers_spec {clips : List (Clip E)} {metrics : Nat → List (SegmentMetric E)} {sizes : Nat → List Nat}
    (hok : ClipsOk clips metrics sizes) (wantLow wantMedium : Nat) :
    ∃ low medium high counts, assignTiers clips wantLow wantMedium = some (low, medium, high) ∧
      low.length = numLow clips wantLow ∧ medium.length = numMedium clips wantLow wantMedium ∧
      (low ++ medium ++ high).length = numFrames clips ∧
      TierInv clips sizes counts (low ++ medium ++ high) ∧
      (∀ i, i < (low ++ medium).length → GreedyAt clips (low ++ medium ++ high) i) ∧
      ∀ f ∈ low ++ medium, f.error < ⊤ := by
  have hmf : numMovable clips ≤ numFrames clips := by
    clear hok
    induction clips with
    | nil => exact le_refl _
    | cons c cs ih => simp only [numMovable, numFrames]; split <;> omega
  have hlow : numLow clips wantLow ≤ numMovable clips := Nat.min_le_left _ _
  have hmed : numMedium clips wantLow wantMedium ≤ numMovable clips - numLow clips wantLow := Nat.min_le_left _ _
  have hinit : TierInv clips sizes (clips.map (fun _ => 0)) ([] ++ []) := by
    constructor
    · simp
    · intro s hs; simp [hs, countClip]
    · intro s clip _; simp [countClip]
    · simp
    · simp
  obtain ⟨c1, low, e1, l1, h1, g1⟩ := assignLoop_spec hok false (numLow clips wantLow) _ [] [] hinit (by simpa using hlow)
  simp only [List.nil_append] at e1 h1 g1
  obtain ⟨c2, medium, e2, l2, h2, g2⟩ := assignLoop_spec hok false (numMedium clips wantLow wantMedium) c1 low []
    (by simpa using h1) (by simp [l1]; omega)
  simp only [List.nil_append, List.append_nil] at e2 h2 g2
  obtain ⟨c3, high, e3, l3, h3, -⟩ := assignLoop_spec hok true
    (numFrames clips - numMedium clips wantLow wantMedium - numLow clips wantLow) c2 (low ++ medium) []
    (by simpa using h2) (by simp [l1, l2]; omega)
  simp only [List.nil_append] at e3 h3
  refine ⟨low, medium, high, c3, ?_, l1, l2, by simp [l1, l2, l3]; omega, h3, ?_, ?_⟩
  · unfold assignTiers
    dsimp only
    rw [e1, Option.bind_eq_bind, Option.bind_some]
    dsimp only
    rw [e2, Option.bind_some]
    dsimp only
    rw [e3, Option.bind_some]
  · intro i hi
    rw [greedyAt_append hi]
    by_cases hil : i < low.length
    · rw [greedyAt_append hil]
      exact (g1 trivial).1 i (by simp) (by simp; omega)
    · exact (g2 trivial).1 i (by omega) (by simp at hi; omega)
  · intro f hf
    rcases List.mem_append.1 hf with h | h
    · exact (g1 trivial).2 f h
    · exact (g2 trivial).2 f h

end Acl.Tiers
