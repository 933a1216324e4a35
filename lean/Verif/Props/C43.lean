import Verif.Transform.ContributingErrorMain
import Mathlib.Order.Fin.Basic
/-
C43: the order in which key frames are removed.

Errors are abstract: any linear order with a zero and an infinity. The error metric is an arbitrary
function of (the two stored frames, the interpolated frame, the bone).
-/
namespace Acl.C43
open Acl
variable {E : Type} [LinearOrder E] [OrderTop E] [Zero E]

/-- First sample of segment `s` in the clip. -/
def start (sizes : List Nat) (s : Nat) : Nat := (sizes.take s).sum

/-- Key frame `k` of the clip is the first or the last one of a segment. -/
def IsBoundary (sizes : List Nat) (k : Nat) : Prop :=
  ∃ (s : Nat) (n : Nat), sizes[s]? = some n ∧ 0 < n ∧ (k = start sizes s ∨ k + 1 = start sizes s + n)

/-- What the removal order of a clip has to be. `sizes` are the numbers of key frames of the segments
and `metrics` the error metric on every segment. -/
structure IsClipOrder (metrics : List (SegmentMetric E)) (sizes : List Nat)
    (out : List (KeyframeMeta E)) : Prop where
  /-- every key frame of the clip exactly once -/
  keyframes : (out.map (·.keyframeIndex)).Perm (List.range sizes.sum)
  /-- entry `i` says it is the `i`-th to go -/
  index : ∀ (i : Nat) (e : KeyframeMeta E), out[i]? = some e → e.strippingIndex = i
  /-- entries name the segment the key frame is in -/
  segment : ∀ e ∈ out, ∃ n, sizes[e.segmentIndex]? = some n ∧ start sizes e.segmentIndex ≤ e.keyframeIndex ∧
    e.keyframeIndex < start sizes e.segmentIndex + n
  /-- the boundaries are those with an infinite error -/
  boundary : ∀ e ∈ out, (e.strippingError = ⊤ ↔ IsBoundary sizes e.keyframeIndex)
  /-- and they come after every movable key frame -/
  boundaryLast : ∀ (i j : Nat) (e f : KeyframeMeta E), i < j → out[i]? = some e → out[j]? = some f →
    IsBoundary sizes e.keyframeIndex → IsBoundary sizes f.keyframeIndex
  /-- what the order says of segment `s` is the removal order of that segment -/
  segments : ∀ (s : Nat) mt n, metrics[s]? = some mt → sizes[s]? = some n →
    ∃ order, IsSegmentOrder mt s n order ∧
      (out.filter (fun e => e.segmentIndex == s)).map (fun e => (e.keyframeIndex, e.strippingError, e.isTrivial))
        = order.map (fun e => (start sizes s + e.keyframeIndex, e.strippingError, e.isTrivial))
  /-- the key frame which goes next is the cheapest of the next ones of all the segments -/
  greedy : ∀ (i j : Nat) (e f : KeyframeMeta E), i ≤ j → out[i]? = some e → out[j]? = some f →
    (∀ (l : Nat) (g : KeyframeMeta E), i ≤ l → l < j → out[l]? = some g → g.segmentIndex ≠ f.segmentIndex) →
    e.strippingError ≤ f.strippingError

/-- **C43 (one segment).** `find_contributing_error` never fails and whatever `std::sort` does with
equal keys, the result lists every key frame of the segment once: the movable ones first, always the
cheapest one to remove among those left, then the two boundaries with an infinite error. -/
theorem C43_segment_order (mt : SegmentMetric E) (segment n : Nat) (hn1 : 1 ≤ n) (hn : n ≤ 32)
    (h0 : (0 : E) < ⊤) (hfin : ∀ p q i j, mt.boneError p q i j < ⊤)
    (garbage : List (KeyframeMeta E)) (hg : garbage.length = 32) :
    ∃ a, contributingErrorUnsorted mt segment n garbage = some a ∧
      ∀ order, SortedByStripping a order → IsSegmentOrder mt segment n order :=
  segmentOrder_spec mt segment n hn1 hn h0 hfin garbage hg

theorem start_succ (sizes : List Nat) (s n : Nat) (h : sizes[s]? = some n) :
    start sizes (s+1) = start sizes s + n := by
  unfold start
  rw [List.take_add_one, h, List.sum_append]
  simp

theorem start_mono (sizes : List Nat) (s t : Nat) (h : s ≤ t) : start sizes s ≤ start sizes t := by
  unfold start
  obtain ⟨d, rfl⟩ := Nat.exists_eq_add_of_le h
  rw [List.take_add, List.sum_append]; omega

theorem start_le_sum (sizes : List Nat) (s : Nat) : start sizes s ≤ sizes.sum := by
  unfold start
  conv_rhs => rw [← List.take_append_drop s sizes, List.sum_append]
  omega

theorem segment_unique (sizes : List Nat) (s t n m k : Nat) (hs : sizes[s]? = some n) (ht : sizes[t]? = some m)
    (h1 : start sizes s ≤ k) (h2 : k < start sizes s + n) (h3 : start sizes t ≤ k) (h4 : k < start sizes t + m) :
    s = t := by
  rcases Nat.lt_trichotomy s t with h | h | h
  · have := start_mono sizes (s+1) t h
    rw [start_succ sizes s n hs] at this; omega
  · exact h
  · have := start_mono sizes (t+1) s h
    rw [start_succ sizes t m ht] at this; omega

theorem locate (sizes : List Nat) (k : Nat) (h : k < sizes.sum) :
    ∃ (s : Nat) (n : Nat), sizes[s]? = some n ∧ start sizes s ≤ k ∧ k < start sizes s + n := by
  have : ∀ m, m ≤ sizes.length → k < start sizes m →
      ∃ (s : Nat) (n : Nat), sizes[s]? = some n ∧ start sizes s ≤ k ∧ k < start sizes s + n := by
    intro m
    induction m with
    | zero => intro _ h; simp [start] at h
    | succ m ih =>
      intro hm hk
      by_cases hlt : k < start sizes m
      · exact ih (by omega) hlt
      · have hg : sizes[m]? = some sizes[m] := List.getElem?_eq_getElem (by omega)
        rw [start_succ sizes m _ hg] at hk
        exact ⟨m, _, hg, by omega, hk⟩
  apply this sizes.length (le_refl _)
  unfold start; rw [List.take_length]; exact h

theorem merged_filter (segments : List (SegmentOrder E)) (counts : List Nat) (out : List (KeyframeMeta E))
    (h : MergeInv segments (counts, out)) (s : Nat) (seg : SegmentOrder E) (hs : segments[s]? = some seg)
    (i : Nat) :
    ((out.take i).filter (fun e => e.segmentIndex == s)).map (fun e => (e.keyframeIndex, e.strippingError, e.isTrivial))
      = (seg.contributingError.take (countSeg (out.take i) s)).map
          (fun e => (seg.clipSampleOffset + e.keyframeIndex, e.strippingError, e.isTrivial)) := by
  induction i with
  | zero => simp [countSeg]
  | succ i ih =>
    rw [List.take_add_one]
    cases he : out[i]? with
    | none => simpa using ih
    | some e =>
      rw [Option.toList_some, List.filter_append, List.map_append, ih]
      obtain ⟨seg', src, h1, h2, h3⟩ := h.entry i e he
      rw [countSeg_append]
      by_cases hes : e.segmentIndex = s
      · rw [hes, hs] at h1
        simp only [Option.some.injEq] at h1
        subst h1
        change seg.contributingError[countSeg (out.take i) e.segmentIndex]? = _ at h2
        rw [hes] at h2
        have hc : countSeg [e] s = 1 := by unfold countSeg; simp [hes]
        rw [hc, List.take_add_one, List.map_append, h2]
        congr 1
        have : (e.segmentIndex == s) = true := by simpa using hes
        rw [List.filter_singleton, this]
        simp only [if_true, List.map_singleton, Option.toList_some]
        rw [h3]; unfold relocate; simp [Nat.add_comm]
      · have : (e.segmentIndex == s) = false := by simpa using hes
        have hc : countSeg [e] s = 0 := by unfold countSeg; simp [hes]
        rw [hc, List.filter_singleton, this]; simp

theorem countSeg_take_le (out : List (KeyframeMeta E)) (s i j : Nat) (h : i ≤ j) :
    countSeg (out.take i) s ≤ countSeg (out.take j) s := by
  obtain ⟨d, rfl⟩ := Nat.exists_eq_add_of_le h
  rw [List.take_add, countSeg_append]; omega

theorem sum_le_eq (n : Nat) (f g : Nat → Nat) (h : ∀ s, s < n → f s ≤ g s)
    (hs : ((List.range n).map f).sum = ((List.range n).map g).sum) : ∀ s, s < n → f s = g s := by
  induction n with
  | zero => intro s hs; omega
  | succ n ih =>
    rw [List.range_succ, List.map_append, List.map_append, List.sum_append, List.sum_append] at hs
    simp only [List.map_singleton, List.sum_singleton] at hs
    have hle : ((List.range n).map f).sum ≤ ((List.range n).map g).sum := by
      clear hs ih
      induction n with
      | zero => simp
      | succ n ih =>
        rw [List.range_succ, List.map_append, List.map_append, List.sum_append, List.sum_append]
        simp only [List.map_singleton, List.sum_singleton]
        have := ih (fun s hs => h s (by omega))
        have := h n (by omega)
        omega
    have hn := h n (by omega)
    intro s hs'
    by_cases hsn : s = n
    · subst hsn; omega
    · exact ih (fun s hs => h s (by omega)) (by omega) s (by omega)

/-- **C43 (clip).** Given removal orders of the segments, `sort_contributing_error` produces the
removal order of the clip. -/
theorem C43_clip_order (metrics : List (SegmentMetric E)) (sizes : List Nat)
    (segments : List (SegmentOrder E)) (hm : metrics.length = sizes.length)
    (hlen : segments.length = sizes.length)
    (hseg : ∀ (s : Nat) seg mt n, segments[s]? = some seg → metrics[s]? = some mt → sizes[s]? = some n →
      seg.numSamples = n ∧ seg.clipSampleOffset = start sizes s ∧ IsSegmentOrder mt s n seg.contributingError) :
    ∃ out, sortContributingError segments sizes.sum = some out ∧ IsClipOrder metrics sizes out := by
  have hget : ∀ s (hs : s < segments.length), ∃ mt n, metrics[s]? = some mt ∧ sizes[s]? = some n ∧
      (segments[s]).numSamples = n ∧ (segments[s]).clipSampleOffset = start sizes s ∧
      IsSegmentOrder mt s n (segments[s]).contributingError := by
    intro s hs
    have a := List.getElem?_eq_getElem (l := metrics) (i := s) (by omega)
    have b := List.getElem?_eq_getElem (l := sizes) (i := s) (by omega)
    exact ⟨_, _, a, b, hseg s _ _ _ (List.getElem?_eq_getElem hs) a b⟩
  have hnum : segments.map (·.numSamples) = sizes := by
    apply List.ext_getElem?
    intro i
    rw [List.getElem?_map]
    by_cases hi : i < segments.length
    · obtain ⟨mt, n, -, h2, h3, -⟩ := hget i hi
      rw [List.getElem?_eq_getElem hi, h2, Option.map_some, h3]
    · rw [List.getElem?_eq_none (by omega), List.getElem?_eq_none (by omega)]; rfl
  have hready : SegmentsReady segments := by
    intro s seg hs
    have hsl : s < segments.length := by
      by_contra hc; rw [List.getElem?_eq_none (by omega)] at hs; simp at hs
    obtain ⟨mt, n, -, -, h3, -, h5⟩ := hget s hsl
    rw [List.getElem?_eq_getElem hsl] at hs
    simp only [Option.some.injEq] at hs
    rw [hs] at h3 h5
    refine ⟨?_, h5.segment⟩
    have := h5.keyframes.length_eq
    simp at this; omega
  obtain ⟨out, counts, e, hI, hl⟩ := sortContributingError_spec segments hready sizes.sum (by rw [hnum])
  refine ⟨out, e, ?_⟩
  -- every segment is exhausted
  have hfull : ∀ s (hs : s < segments.length), countSeg out s = (segments[s]).numSamples := by
    intro s hs
    have h1 := sum_le_eq segments.length (countSeg out) (fun s => (segments.map (·.numSamples)).getD s 0)
      (by
        intro s hs
        have := hI.le s _ (List.getElem?_eq_getElem hs)
        simpa [hs] using this)
      (by
        rw [countSeg_sum _ _ hI.seg]
        show out.length = _
        rw [hl]
        conv_lhs => rw [← hnum]
        congr 1
        apply List.ext_getElem?
        intro i
        rw [List.getElem?_map]
        by_cases hi : i < segments.length
        · rw [List.getElem?_map, List.getElem?_range hi]; simp [hi]
        · rw [List.getElem?_map, List.getElem?_eq_none (by omega), List.getElem?_eq_none (by simp; omega)]; rfl) s hs
    simpa [hs] using h1
  -- where an entry comes from
  have hentry : ∀ (i : Nat) (x : KeyframeMeta E), out[i]? = some x → ∃ mt n seg src,
      metrics[x.segmentIndex]? = some mt ∧ sizes[x.segmentIndex]? = some n ∧
      segments[x.segmentIndex]? = some seg ∧ seg.numSamples = n ∧
      IsSegmentOrder mt x.segmentIndex n seg.contributingError ∧
      countSeg (out.take i) x.segmentIndex < n ∧
      seg.contributingError[countSeg (out.take i) x.segmentIndex]? = some src ∧ src.keyframeIndex < n ∧
      x = relocate (start sizes x.segmentIndex) i src := by
    intro i x hx
    obtain ⟨seg, src, h1, h2, h3⟩ := hI.entry i x hx
    have hsl : x.segmentIndex < segments.length := by
      by_contra hc; rw [List.getElem?_eq_none (by omega)] at h1; simp at h1
    obtain ⟨mt, n, g1, g2, g3, g4, g5⟩ := hget _ hsl
    have hse : segments[x.segmentIndex] = seg := by
      rw [List.getElem?_eq_getElem hsl] at h1; simpa using h1
    rw [hse] at g3 g4 g5
    have hlc : seg.contributingError.length = n := by
      have := g5.keyframes.length_eq; simpa using this
    refine ⟨mt, n, seg, src, g1, g2, h1, g3, g5, ?_, h2, ?_, ?_⟩
    · by_contra hc
      rw [List.getElem?_eq_none (by change _ ≤ countSeg (out.take i) _; omega)] at h2; simp at h2
    · have : src.keyframeIndex ∈ List.range n :=
        g5.keyframes.subset (List.mem_map_of_mem (List.mem_iff_getElem?.2 ⟨_, h2⟩))
      simpa using this
    · rw [← g4]; exact h3
  have hbd : ∀ (i : Nat) (x : KeyframeMeta E), out[i]? = some x → ∀ n src seg, sizes[x.segmentIndex]? = some n →
      segments[x.segmentIndex]? = some seg →
      seg.contributingError[countSeg (out.take i) x.segmentIndex]? = some src →
      x = relocate (start sizes x.segmentIndex) i src → src.keyframeIndex < n →
      (IsBoundary sizes x.keyframeIndex ↔ ¬ Movable n src.keyframeIndex) := by
    intro i x hx n src seg hn hsg hsrc hrel hlt
    have hk : x.keyframeIndex = src.keyframeIndex + start sizes x.segmentIndex := by
      conv_lhs => rw [hrel]
      rfl
    constructor
    · rintro ⟨t, m, ht, hm0, hcase⟩ hmov
      have hts : t = x.segmentIndex := by
        apply segment_unique sizes t x.segmentIndex m n x.keyframeIndex ht hn <;> omega
      rw [hts] at ht hcase
      rw [hn] at ht; simp only [Option.some.injEq] at ht
      obtain ⟨m1, m2⟩ := hmov
      omega
    · intro hmov
      refine ⟨x.segmentIndex, n, hn, by omega, ?_⟩
      unfold Movable at hmov
      omega
  have herr : ∀ (i : Nat) (x : KeyframeMeta E), out[i]? = some x →
      (x.strippingError = ⊤ ↔ IsBoundary sizes x.keyframeIndex) ∧
      (∀ n, sizes[x.segmentIndex]? = some n → (IsBoundary sizes x.keyframeIndex ↔ n ≤ countSeg (out.take i) x.segmentIndex + 2)) := by
    intro i x hx
    obtain ⟨mt, n, seg, src, g1, g2, g3, g4, g5, g6, g7, g8, g9⟩ := hentry i x hx
    have hb := hbd i x hx n src seg g2 g3 g7 g9 g8
    have hxe : x.strippingError = src.strippingError := by
      conv_lhs => rw [g9]
      rfl
    by_cases hc : countSeg (out.take i) x.segmentIndex + 2 < n
    · obtain ⟨m1, -, m3, -⟩ := g5.movable _ src hc g7
      refine ⟨?_, ?_⟩
      · rw [hb, hxe]
        exact ⟨fun h => absurd (h ▸ m3) (lt_irrefl _), fun h => absurd m1 h⟩
      · intro n' hn'
        rw [g2] at hn'; simp only [Option.some.injEq] at hn'; subst hn'
        rw [hb]
        exact ⟨fun h => absurd m1 h, fun h => by omega⟩
    · obtain ⟨m1, m2, -⟩ := g5.boundary _ src (by omega) g7
      refine ⟨?_, ?_⟩
      · rw [hb, hxe]; exact ⟨fun _ => m1, fun _ => m2⟩
      · intro n' hn'
        rw [g2] at hn'; simp only [Option.some.injEq] at hn'; subst hn'
        rw [hb]
        exact ⟨fun _ => by omega, fun _ => m1⟩
  have hfilter : ∀ s (hs : s < segments.length),
      (out.filter (fun e => e.segmentIndex == s)).map (fun e => (e.keyframeIndex, e.strippingError, e.isTrivial))
        = (segments[s]).contributingError.map
            (fun e => (start sizes s + e.keyframeIndex, e.strippingError, e.isTrivial)) := by
    intro s hs
    have := merged_filter segments counts out hI s _ (List.getElem?_eq_getElem hs) out.length
    rw [List.take_length] at this
    obtain ⟨mt, n, g1, g2, g3, g4, g5⟩ := hget s hs
    rw [this, hfull s hs, g4, g3]
    have hlc : (segments[s]).contributingError.length = n := by
      have := g5.keyframes.length_eq; simpa using this
    rw [← hlc, List.take_length]
  constructor
  · -- permutation
    refine List.Perm.symm ?_
    apply (List.subperm_of_subset List.nodup_range ?_).perm_of_length_le (by simp [hl])
    intro k hk
    rw [List.mem_range] at hk
    obtain ⟨s, n, hs, h1, h2⟩ := locate sizes k hk
    have hsl : s < segments.length := by
      rw [hlen]; by_contra hc; rw [List.getElem?_eq_none (by omega)] at hs; simp at hs
    obtain ⟨mt, n', g1, g2, g3, g4, g5⟩ := hget s hsl
    rw [hs] at g2; simp only [Option.some.injEq] at g2; subst g2
    have hmem : k - start sizes s ∈ (segments[s]).contributingError.map (·.keyframeIndex) :=
      g5.keyframes.symm.subset (by rw [List.mem_range]; omega)
    obtain ⟨x, hx, hxk⟩ := List.mem_map.1 hmem
    have hf := hfilter s hsl
    have hx2 : (start sizes s + x.keyframeIndex, x.strippingError, x.isTrivial) ∈
        (out.filter (fun e => e.segmentIndex == s)).map (fun e => (e.keyframeIndex, e.strippingError, e.isTrivial)) := by
      rw [hf]; exact List.mem_map.2 ⟨x, hx, rfl⟩
    obtain ⟨y, hy, hye⟩ := List.mem_map.1 hx2
    refine List.mem_map.2 ⟨y, (List.mem_filter.1 hy).1, ?_⟩
    simp only [Prod.mk.injEq] at hye
    omega
  · intro i x hx
    obtain ⟨mt, n, seg, src, g1, g2, g3, g4, g5, g6, g7, g8, g9⟩ := hentry i x hx
    rw [g9]; rfl
  · intro x hx
    obtain ⟨i, hi⟩ := List.mem_iff_getElem?.1 hx
    obtain ⟨mt, n, seg, src, g1, g2, g3, g4, g5, g6, g7, g8, g9⟩ := hentry i x hi
    have hk : x.keyframeIndex = src.keyframeIndex + start sizes x.segmentIndex := by
      conv_lhs => rw [g9]
      rfl
    exact ⟨n, g2, by omega, by omega⟩
  · intro x hx
    obtain ⟨i, hi⟩ := List.mem_iff_getElem?.1 hx
    exact (herr i x hi).1
  · intro i j x y hij hx hy hbx
    obtain ⟨mt, n, seg, src, g1, g2, g3, g4, g5, g6, g7, g8, g9⟩ := hentry j y hy
    rw [(herr j y hy).2 n g2]
    have hmono := countSeg_take_le out y.segmentIndex i j (by omega)
    have htop := (herr i x hx).1.2 hbx
    have hlc : seg.contributingError.length = n := by
      have := g5.keyframes.length_eq; simpa using this
    have hg : seg.contributingError[countSeg (out.take i) y.segmentIndex]? =
        some (seg.contributingError[countSeg (out.take i) y.segmentIndex]'(by omega)) :=
      List.getElem?_eq_getElem (by omega)
    have hle := hI.greedy i x hx y.segmentIndex seg _ g3 (by change countSeg (out.take i) _ < _; omega) hg
    by_contra hc
    have hfin := (g5.movable _ _ (show countSeg (out.take i) y.segmentIndex + 2 < n by omega) hg).2.2.1
    rw [htop] at hle
    exact absurd (lt_of_le_of_lt hle hfin) (lt_irrefl _)
  · intro s mt n hmt hn
    have hsl : s < segments.length := by
      rw [hlen]; by_contra hc; rw [List.getElem?_eq_none (by omega)] at hn; simp at hn
    obtain ⟨mt', n', g1, g2, g3, g4, g5⟩ := hget s hsl
    rw [hmt] at g1; rw [hn] at g2
    simp only [Option.some.injEq] at g1 g2
    subst g1; subst g2
    exact ⟨_, g5, hfilter s hsl⟩
  · intro i j x y hij hx hy hne
    obtain ⟨mt, n, seg, src, g1, g2, g3, g4, g5, g6, g7, g8, g9⟩ := hentry j y hy
    have hcount : countSeg (out.take i) y.segmentIndex = countSeg (out.take j) y.segmentIndex := by
      obtain ⟨d, rfl⟩ := Nat.exists_eq_add_of_le hij
      rw [List.take_add, countSeg_append]
      have : countSeg ((out.drop i).take d) y.segmentIndex = 0 := by
        unfold countSeg
        rw [List.length_eq_zero_iff, List.filter_eq_nil_iff]
        intro z hz
        obtain ⟨l, hl'⟩ := List.mem_iff_getElem?.1 hz
        rw [List.getElem?_take] at hl'
        split at hl'
        · rw [List.getElem?_drop] at hl'
          have := hne (i + l) z (by omega) (by omega) hl'
          simpa using this
        · simp at hl'
      omega
    have hle := hI.greedy i x hx y.segmentIndex seg src g3
      (by change countSeg (out.take i) _ < _; omega) (by change seg.contributingError[countSeg (out.take i) _]? = _; rw [hcount]; exact g7)
    rw [g9]; exact hle

/-- A run of `find_contributing_error` on every segment, then of `sort_contributing_error` on the
clip (quantize.transform.h:1900-1960): `garbage` is what every freshly allocated array contains and
`orders` what `std::sort` produced for every segment. -/
def Run (metrics : List (SegmentMetric E)) (sizes : List Nat) (garbage : Nat → List (KeyframeMeta E))
    (orders : List (List (KeyframeMeta E))) : Prop :=
  orders.length = sizes.length ∧
  ∀ (s : Nat) mt n order, metrics[s]? = some mt → sizes[s]? = some n → orders[s]? = some order →
    ∃ a, contributingErrorUnsorted mt s n (garbage s) = some a ∧ SortedByStripping a order

/-- The segments as `sort_contributing_error` sees them after the run. -/
def mergeInput (sizes : List Nat) (orders : List (List (KeyframeMeta E))) : List (SegmentOrder E) :=
  (List.range sizes.length).map
    (fun s => ⟨sizes.getD s 0, start sizes s, orders.getD s []⟩)

/-- **C43.** For every clip (any number of segments of 1 to 32 key frames), every error metric with
finite errors, every content of the uninitialised memory and every behaviour of `std::sort` on equal
keys: the computation succeeds and its result is a removal order of the clip. -/
theorem C43_removal_order (metrics : List (SegmentMetric E)) (sizes : List Nat)
    (hm : metrics.length = sizes.length) (hsz : ∀ n ∈ sizes, 1 ≤ n ∧ n ≤ 32)
    (h0 : (0 : E) < ⊤) (hfin : ∀ mt ∈ metrics, ∀ p q i j, mt.boneError p q i j < ⊤)
    (garbage : Nat → List (KeyframeMeta E)) (hg : ∀ s, (garbage s).length = 32)
    (orders : List (List (KeyframeMeta E))) (hrun : Run metrics sizes garbage orders) :
    ∃ out, sortContributingError (mergeInput sizes orders) sizes.sum = some out ∧
      IsClipOrder metrics sizes out := by
  apply C43_clip_order metrics sizes _ hm (by simp [mergeInput])
  intro s seg mt n hseg hmt hn
  have hs : s < sizes.length := by
    by_contra hc; rw [List.getElem?_eq_none (by omega)] at hn; simp at hn
  unfold mergeInput at hseg
  rw [List.getElem?_map, List.getElem?_range hs, Option.map_some] at hseg
  simp only [Option.some.injEq] at hseg
  subst hseg
  have ho : orders[s]? = some (orders.getD s []) := by
    rw [List.getD_eq_getElem?_getD, List.getElem?_eq_getElem (by rw [hrun.1]; exact hs)]; rfl
  obtain ⟨a, ha, hsort⟩ := hrun.2 s mt n _ hmt hn ho
  have hnm := hsz n (List.mem_iff_getElem?.2 ⟨_, hn⟩)
  obtain ⟨a', ha', hspec⟩ := C43_segment_order mt s n hnm.1 hnm.2 h0
    (hfin mt (List.mem_iff_getElem?.2 ⟨_, hmt⟩)) (garbage s) (hg s)
  rw [ha] at ha'; simp only [Option.some.injEq] at ha'; subst ha'
  refine ⟨?_, rfl, hspec _ hsort⟩
  show sizes.getD s 0 = n
  rw [List.getD_eq_getElem?_getD, hn]; rfl

/-- Such runs always exist: the hypothesis `Run` of `C43_removal_order` can be met for every clip. -/
theorem run_exists (metrics : List (SegmentMetric E)) (sizes : List Nat)
    (hm : metrics.length = sizes.length) (hsz : ∀ n ∈ sizes, 1 ≤ n ∧ n ≤ 32)
    (h0 : (0 : E) < ⊤) (hfin : ∀ mt ∈ metrics, ∀ p q i j, mt.boneError p q i j < ⊤)
    (garbage : Nat → List (KeyframeMeta E)) (hg : ∀ s, (garbage s).length = 32) :
    ∃ orders, Run metrics sizes garbage orders := by
  have hex : ∀ s (hs : s < sizes.length), ∃ a, contributingErrorUnsorted (metrics[s]'(by omega)) s sizes[s] (garbage s) = some a := by
    intro s hs
    have hnm := hsz sizes[s] (List.getElem_mem hs)
    obtain ⟨a, ha, -⟩ := C43_segment_order (metrics[s]'(by omega)) s sizes[s] hnm.1 hnm.2 h0
      (hfin _ (List.getElem_mem _)) (garbage s) (hg s)
    exact ⟨a, ha⟩
  have hsort : ∀ a : List (KeyframeMeta E), ∃ l, SortedByStripping a l := by
    intro a
    refine ⟨a.mergeSort (fun x y => decide (x.strippingIndex ≤ y.strippingIndex)), List.mergeSort_perm _ _, ?_⟩
    have := List.pairwise_mergeSort (le := fun (x y : KeyframeMeta E) => decide (x.strippingIndex ≤ y.strippingIndex))
      (by intro x y z; simp; omega) (by intro x y; simp; omega) a
    exact this.imp (fun h => by simpa using h)
  choose f hf using hsort
  refine ⟨(List.range sizes.length).map (fun s =>
    f (((metrics[s]?).bind (fun mt => contributingErrorUnsorted mt s (sizes.getD s 0) (garbage s))).getD [])), by simp, ?_⟩
  intro s mt n order h1 h2 h3
  have hs : s < sizes.length := by
    by_contra hc; rw [List.getElem?_eq_none (by omega)] at h2; simp at h2
  obtain ⟨a, ha⟩ := hex s hs
  have e1 : metrics[s]'(by omega) = mt := by
    rw [List.getElem?_eq_getElem (by omega)] at h1; simpa using h1
  have e2 : sizes[s] = n := by
    rw [List.getElem?_eq_getElem hs] at h2; simpa using h2
  rw [e1, e2] at ha
  refine ⟨a, ha, ?_⟩
  rw [List.getElem?_map, List.getElem?_range hs, Option.map_some] at h3
  simp only [Option.some.injEq] at h3
  rw [h1, List.getD_eq_getElem?_getD, h2] at h3
  simp only [Option.bind_some, Option.getD_some, ha] at h3
  rw [← h3]; exact hf a

/-! Non-vacuity: a clip of two segments (5 and 3 key frames) over `WithTop Nat`-like errors. -/
section Example

/-- Errors 0..1000, 1000 is infinity. -/
abbrev Err := Fin 1001

/-- Two bones; the error of a frame grows with its distance to the stored frames. -/
def exMetric (w : Nat) : SegmentMetric Err where
  numBones := 2
  boneError := fun p q f b => ⟨min 999 ((f - p) * (q - f) * w + b + f), by omega⟩
  precision := fun _ => 9

def exGarbage : List (KeyframeMeta Err) := List.replicate 32 ⟨77, 77, 77, 77, true⟩

def exInsert (x : KeyframeMeta Err) : List (KeyframeMeta Err) → List (KeyframeMeta Err)
  | [] => [x]
  | y :: l => if x.strippingIndex ≤ y.strippingIndex then x :: y :: l else y :: exInsert x l

def exSort : List (KeyframeMeta Err) → List (KeyframeMeta Err)
  | [] => []
  | x :: l => exInsert x (exSort l)

def exOrder (w s n : Nat) : List (KeyframeMeta Err) :=
  exSort ((contributingErrorUnsorted (exMetric w) s n exGarbage).getD [])

/-- The run of the example: keys in removal order, clip relative. -/
example : ((sortContributingError (mergeInput [5, 3] [exOrder 4 0 5, exOrder 6 1 3]) 8).getD []).map
    (fun e => (e.keyframeIndex, e.strippingError.val, e.isTrivial)) =
    [(1, 6, true), (6, 8, true), (3, 8, true), (2, 19, false), (5, 1000, false), (7, 1000, false),
     (0, 1000, false), (4, 1000, false)] := by
  decide +kernel

example : (0 : Err) < ⊤ := by decide
example : ∀ w p q i j, (exMetric w).boneError p q i j < ⊤ := by
  intro w p q i j
  show (_ : Fin 1001) < Fin.last 1000
  rw [Fin.lt_def]
  show min 999 _ < 1000
  omega

end Example

end Acl.C43
