import Verif.Database.BuildSpec
/-
build_database on clips it can use.
-/
namespace Acl.DbBuild
open Acl.Headers Acl.Tiers Acl.Chunks Acl.Runtime Acl.Rewrite Acl.Transform Acl.Meta Acl.C43 Acl.C21 Acl.C22 Acl.C23

variable {E : Type} [LinearOrder E] [OrderTop E] [Zero E]

/-- The sizes of the segments of clip `k`. -/
def sizesOf (xs : List Input) (k : Nat) : List Nat := ((xs[k]?).map Input.sizes).getD []

theorem sizesOf_eq {xs : List Input} {k : Nat} {x : Input} (h : xs[k]? = some x) : sizesOf xs k = x.sizes := by
  unfold sizesOf; rw [h]; rfl

theorem clipSampleOffsets_get : ∀ (sizes : List Nat) (o s : Nat), s < sizes.length →
    (Segmenting.clipSampleOffsets o sizes)[s]? = some (o + start sizes s)
  | [], _, _, h => by simp at h
  | n :: rest, o, 0, _ => by simp [Segmenting.clipSampleOffsets, start]
  | n :: rest, o, s + 1, h => by
    rw [Segmenting.clipSampleOffsets, List.getElem?_cons_succ, clipSampleOffsets_get rest (o + n) s (by simpa using h)]
    unfold start
    rw [List.take_succ_cons, List.sum_cons, Nat.add_assoc]

theorem clipSampleOffsets_length (sizes : List Nat) (o : Nat) : (Segmenting.clipSampleOffsets o sizes).length = sizes.length := by
  induction sizes generalizing o with
  | nil => rfl
  | cons n rest ih => rw [Segmenting.clipSampleOffsets, List.length_cons, ih, List.length_cons]

/-- What is read of the clips. -/
theorem tierClips_ok {value : BitVec 32 → E} {metrics : Nat → List (SegmentMetric E)} {xs : List Input}
    (hx : ∀ (k : Nat) x, xs[k]? = some x → InputOk value (metrics k) x) :
    ∃ clips, each (tierClip value) (xs.map (·.m)) = some clips ∧ clips.length = xs.length ∧ ClipsOk clips metrics (sizesOf xs) ∧
      ∀ (k : Nat) x clip, xs[k]? = some x → clips[k]? = some clip →
        clip.poseBits = (List.range x.c.segments.length).map (frameWidth x.c.bones) ∧ clip.numSamples = x.c.numSamples := by
  have hex : ∀ x : Input, ∃ clip, ∀ (k : Nat), xs[k]? = some x → tierClip value x.m = some clip ∧ ClipOk (metrics k) (sizesOf xs k) clip ∧
      clip.poseBits = (List.range x.c.segments.length).map (frameWidth x.c.bones) ∧ clip.numSamples = x.c.numSamples := by
    intro x
    by_cases hm : ∃ k : Nat, xs[k]? = some x
    · obtain ⟨k, hk⟩ := hm
      obtain ⟨starts, h1, h2⟩ := tierClip_ok (hx k x hk).input value
      refine ⟨_, fun j hj => ⟨h1, ?_, rfl, rfl⟩⟩
      have ok := hx j x hj
      rw [sizesOf_eq hj]
      refine ⟨ok.metricsLen, ok.sizes, ?_, rfl, ?_, ?_, ?_, ok.order⟩
      · have := ok.compressed.clip.numSamples
        have e : x.sizes.sum = x.c.numSamples := rfl
        omega
      · unfold Input.sizes; rw [List.length_map]
      · intro s hs hl
        have hl2 : x.c.segments.length ≠ 1 := by unfold Input.sizes at hl; rw [List.length_map] at hl; omega
        dsimp only
        rw [h2 hl2]
        unfold Segmenting.segmentStartIndices
        change (Segmenting.clipSampleOffsets 0 x.sizes ++ _)[s]? = _
        rw [List.getElem?_append_left (by rw [clipSampleOffsets_length]; exact hs), clipSampleOffsets_get _ _ _ hs, Nat.zero_add]
      · unfold Input.sizes
        rw [List.length_map, List.length_map, List.length_range]
    · exact ⟨⟨0, 0, [], [], []⟩, fun k hk => absurd ⟨k, hk⟩ hm⟩
  choose g hg using hex
  refine ⟨xs.map g, ?_, by rw [List.length_map], ?_, ?_⟩
  · have := each_some (f := fun x : Input => tierClip value x.m) g xs fun x hxm => by
      obtain ⟨k, hk⟩ := List.mem_iff_getElem?.1 hxm
      exact (hg x k hk).1
    rw [← this]
    exact each_map (tierClip value) (·.m) xs
  · intro k clip hk
    rw [List.getElem?_map, Option.map_eq_some_iff] at hk
    obtain ⟨x, hxk, rfl⟩ := hk
    exact (hg x k hxk).2.1
  · intro k x clip hxk hk
    rw [List.getElem?_map, hxk, Option.map_some, Option.some.injEq] at hk
    subst hk
    exact (hg x k hxk).2.2

/-- What build_compressed_tracks writes for a clip. -/
structure OutputOk (x : Input) (high : List (Frame E)) (k cho : Nat) (m' : List (BitVec 8)) : Prop where
  hash : load32 m' 4 = some (hash32 (m'.drop 8))
  segments : Clip.field m' 0 = some x.c.segments.length
  decoded : m'.length < 2 ^ 32 → DbClipIs x.c x.f high k cho m'
  api : m'.length < 2 ^ 32 → SameApi x.m m' (x.c.numSamples - (high.filter fun fr => fr.tracksIndex == k).length != 0)

theorem rewriteClips_ok {high : List (Frame E)} : ∀ (xs : List Input) (k cho : Nat),
    (∀ (i : Nat) x, xs[i]? = some x → DbInput x.c x.e x.s x.src x.f x.m ∧ TierFrames x.c (k + i) high) →
    ∃ outs, rewriteClips high (xs.map (·.m)) k cho = some outs ∧ outs.length = xs.length ∧
      ∀ (i : Nat) x m', xs[i]? = some x → outs[i]? = some m' → OutputOk x high (k + i) (cho + headersSize (xs.take i)) m'
  | [], k, cho, _ => ⟨[], rfl, rfl, fun i x m' h => by simp at h⟩
  | x :: rest, k, cho, h => by
    obtain ⟨hin, htf⟩ := h 0 x rfl
    obtain ⟨m', segs, o, headersAt, typesAt, constantsAt, rangesAt, rangesSize, b, tracks, l, st, hr, hrw⟩ := rewriteClip_ok hin htf cho
    have hsec := hrw.sections
    obtain ⟨outs, h1, h2, h3⟩ := rewriteClips_ok (high := high) rest (k + 1) (cho + (8 + 16 * x.c.segments.length)) fun i y hy => by
      have := h (i + 1) y (by rw [List.getElem?_cons_succ]; exact hy)
      rw [show k + 1 + i = k + (i + 1) by omega]
      exact this
    refine ⟨m' :: outs, ?_, by rw [List.length_cons, List.length_cons, h2], ?_⟩
    · rw [List.map_cons, rewriteClips]
      have hr' : rewriteClip x.m high k cho = some m' := hr
      rw [hr', Option.bind_some, hsec.segments, Option.bind_some, h1]
      rfl
    · intro i y n hy hn
      cases i with
      | zero =>
        rw [List.getElem?_cons_zero, Option.some.injEq] at hy hn
        subst hy; subst hn
        refine ⟨hrw.hash, ?_, fun hs => ?_, fun hs => hrw.api hin htf hs⟩
        · have : Clip.field m' 0 = Clip.field x.m 0 := by
            unfold Clip.field; rw [hrw.written.counts 0 (by omega)]
          rw [this]; exact hsec.segments
        · exact hrw.decoded hin htf hs
      | succ i =>
        rw [List.getElem?_cons_succ] at hy hn
        have := h3 i y n hy hn
        rw [List.take_succ_cons]
        unfold headersSize at this ⊢
        rw [List.map_cons, List.sum_cons, show k + (i + 1) = k + 1 + i by omega, ← Nat.add_assoc]
        exact this

end Acl.DbBuild
