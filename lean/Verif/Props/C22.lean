import Verif.Database.TiersLemmas
/-
C22: the tiers of a database partition the key frames of its clips.
-/
namespace Acl.C22
open Acl Acl.Tiers Acl.C43 Acl.C21
variable {E : Type} [LinearOrder E] [OrderTop E] [Zero E]

/-- Key frame `k` of clip `c` is in the tier. -/
def InTier (tier : List (Frame E)) (c k : Nat) : Prop := ∃ f ∈ tier, f.tracksIndex = c ∧ f.clipFrameIndex = k

/-- By clip, then segment, then key frame. -/
def Before (a b : Frame E) : Prop :=
  a.tracksIndex < b.tracksIndex ∨ (a.tracksIndex = b.tracksIndex ∧
    (a.segmentIndex < b.segmentIndex ∨ (a.segmentIndex = b.segmentIndex ∧ a.segmentFrameIndex < b.segmentFrameIndex)))

/-- Number of movable key frames of all the clips: all of them but the boundaries of the segments. -/
def totalMovable (sizes : Nat → List Nat) (numClips : Nat) : Nat :=
  ((List.range numClips).map (fun c => movableCount (sizes c))).sum

/-- What the three tiers have to be. `sizes c` are the numbers of key frames of the segments of clip `c`. -/
structure IsTiering (clips : List (Clip E)) (sizes : Nat → List Nat) (wantLow wantMedium : Nat)
    (low medium high : List (Frame E)) : Prop where
  /-- the tiers hold key frames of the clips of the database only -/
  clip : ∀ f ∈ low ++ medium ++ high, f.tracksIndex < clips.length
  /-- every key frame of every clip is in exactly one tier, once -/
  partition : ∀ (c : Nat), c < clips.length →
    (((low ++ medium ++ high).filter (fun f => f.tracksIndex == c)).map (·.clipFrameIndex)).Perm (List.range (sizes c).sum)
  /-- an entry names the right segment, the right frame of it and its size -/
  fields : ∀ f ∈ low ++ medium ++ high, ∃ n clip, (sizes f.tracksIndex)[f.segmentIndex]? = some n ∧
    f.segmentFrameIndex < n ∧ start (sizes f.tracksIndex) f.segmentIndex + f.segmentFrameIndex = f.clipFrameIndex ∧
    clips[f.tracksIndex]? = some clip ∧ clip.poseBits[f.segmentIndex]? = some f.frameBitSize
  /-- the boundaries of the segments stay in the clip -/
  boundary : ∀ f ∈ low ++ medium, ¬ IsBoundary (sizes f.tracksIndex) f.clipFrameIndex
  /-- as many frames as requested move, if there are that many -/
  lowCount : low.length = min (totalMovable sizes clips.length) wantLow
  mediumCount : medium.length = min (totalMovable sizes clips.length - low.length) wantMedium
  /-- of every clip, the low tier gets the first of the removal order, the medium tier the next ones -/
  importance : ∀ (c : Nat) clip (i j : Nat) (e g : KeyframeMeta E), clips[c]? = some clip → i < j →
    clip.metadata[i]? = some e → clip.metadata[j]? = some g →
    (InTier low c g.keyframeIndex → InTier low c e.keyframeIndex) ∧
    (InTier medium c g.keyframeIndex → InTier low c e.keyframeIndex ∨ InTier medium c e.keyframeIndex)
  /-- the tiers are in clip, segment, key frame order -/
  sorted : low.Pairwise Before ∧ medium.Pairwise Before ∧ high.Pairwise Before

/-- The frames are moved one at a time; `order` is a possible order: it starts with those of the low
tier, and the next one to go always is the cheapest of the next ones of all the clips (`remaining`
of clip `t` being the first of its removal order that did not go yet). -/
def MovedCheapestFirst (clips : List (Clip E)) (low medium : List (Frame E)) (order : List (Frame E)) : Prop :=
  (order.take low.length).Perm low ∧ (order.drop low.length).Perm medium ∧
  ∀ (i : Nat) (f : Frame E), order[i]? = some f → ∀ (t : Nat) clip (j : Nat) (src : KeyframeMeta E), clips[t]? = some clip →
    clip.metadata[j]? = some src →
    ((∀ l e, l < j → clip.metadata[l]? = some e → InTier (order.take i) t e.keyframeIndex) ∧
      ¬ InTier (order.take i) t src.keyframeIndex) →
    f.error ≤ src.strippingError

theorem filter_getElem? {α : Type} (p : α → Bool) (l : List α) (j : Nat) (f : α) (h : (l.filter p)[j]? = some f) :
    ∃ i, l[i]? = some f ∧ ((l.take i).filter p).length = j ∧ p f = true := by
  induction l generalizing j with
  | nil => simp at h
  | cons a l ih =>
    rw [List.filter_cons] at h
    cases hp : p a with
    | true =>
      rw [hp, if_pos rfl] at h
      cases j with
      | zero => simp only [List.getElem?_cons_zero, Option.some.injEq] at h; subst h; exact ⟨0, rfl, rfl, hp⟩
      | succ j =>
        rw [List.getElem?_cons_succ] at h
        obtain ⟨i, h1, h2, h3⟩ := ih j h
        exact ⟨i+1, by simpa using h1, by simp [hp, h2], h3⟩
    | false =>
      rw [hp] at h
      obtain ⟨i, h1, h2, h3⟩ := ih j (by simpa using h)
      exact ⟨i+1, by simpa using h1, by simp [hp, h2], h3⟩

theorem sum_eq_all (n : Nat) (f g : Nat → Nat) (hle : ∀ i, i < n → f i ≤ g i)
    (h : ((List.range n).map f).sum = ((List.range n).map g).sum) : ∀ i, i < n → f i = g i := by
  have key : ∀ n, (∀ i, i < n → f i ≤ g i) → ((List.range n).map f).sum ≤ ((List.range n).map g).sum := by
    intro n
    induction n with
    | zero => intro _; simp
    | succ n ih =>
      intro hle
      rw [List.range_succ, List.map_append, List.map_append, List.sum_append, List.sum_append]
      have := ih (fun i hi => hle i (by omega))
      have := hle n (by omega)
      simp; omega
  induction n with
  | zero => intro i hi; omega
  | succ n ih =>
    rw [List.range_succ, List.map_append, List.map_append, List.sum_append, List.sum_append] at h
    simp only [List.map_singleton, List.sum_singleton] at h
    have h1 := key n (fun i hi => hle i (by omega))
    have h2 := hle n (by omega)
    intro i hi
    by_cases hin : i = n
    · subst hin; omega
    · exact ih (fun i hi => hle i (by omega)) (by omega) i (by omega)

section
variable {clips : List (Clip E)} {metrics : Nat → List (SegmentMetric E)} {sizes : Nat → List Nat}
  (hok : ClipsOk clips metrics sizes) {counts : List Nat} {all : List (Frame E)} (h : TierInv clips sizes counts all)
  (hl : all.length = numFrames clips)
include hok h hl

theorem all_assigned (c : Nat) (clip : Clip E) (hc : clips[c]? = some clip) : countClip all c = clip.numSamples := by
  rw [numFrames_eq, ← countClip_sum _ _ h.clip] at hl
  have hcl : c < clips.length := by
    by_contra hn; rw [List.getElem?_eq_none (by omega)] at hc; simp at hc
  have := sum_eq_all _ _ _ ?_ hl c hcl
  · rw [this]; rw [List.getElem?_eq_getElem hcl] at hc; simp only [Option.some.injEq] at hc; simp [hcl, hc]
  · intro i hi
    have := h.le i _ (List.getElem?_eq_getElem hi)
    simpa [hi] using this

/-- the frames of clip `c`, in order of assignment, are its removal order -/
theorem clip_frames (c : Nat) (clip : Clip E) (hc : clips[c]? = some clip) (j : Nat) (src : KeyframeMeta E)
    (hj : clip.metadata[j]? = some src) :
    ∃ i f, all[i]? = some f ∧ countClip (all.take i) c = j ∧ FrameOf (sizes c) clip c src f := by
  have hcnt := all_assigned hok h hl c clip hc
  have hlen := (hok c clip hc).orderLength
  have hjl : j < clip.metadata.length := by
    by_contra hn; rw [List.getElem?_eq_none (by omega)] at hj; simp at hj
  have hjf : j < (all.filter (fun f => f.tracksIndex == c)).length := by
    have : countClip all c = (all.filter (fun f => f.tracksIndex == c)).length := rfl
    omega
  obtain ⟨i, h1, h2, h3⟩ := filter_getElem? _ _ j _ (List.getElem?_eq_getElem hjf)
  have h3' : ((all.filter (fun f => f.tracksIndex == c))[j]).tracksIndex = c := by simpa using h3
  obtain ⟨clip', src', a1, a2, a3⟩ := h.entry i _ h1
  rw [h3'] at a1 a2 a3
  rw [hc] at a1; simp only [Option.some.injEq] at a1; subst a1
  have h2' : countClip (all.take i) c = j := h2
  rw [h2', hj] at a2; simp only [Option.some.injEq] at a2; subst a2
  exact ⟨i, _, h1, h2', a3⟩

theorem clip_map (c : Nat) (clip : Clip E) (hc : clips[c]? = some clip) :
    (all.filter (fun f => f.tracksIndex == c)).map (·.clipFrameIndex) = clip.metadata.map (·.keyframeIndex) := by
  have hcnt := all_assigned hok h hl c clip hc
  have hlen := (hok c clip hc).orderLength
  have hfl : (all.filter (fun f => f.tracksIndex == c)).length = clip.metadata.length := by
    rw [hlen, ← hcnt]; rfl
  apply List.ext_getElem?
  intro j
  rw [List.getElem?_map, List.getElem?_map]
  by_cases hj : j < clip.metadata.length
  · have e2 : clip.metadata[j]? = some clip.metadata[j] := List.getElem?_eq_getElem hj
    obtain ⟨i, h1, h2, h3⟩ := filter_getElem? _ _ j _ (List.getElem?_eq_getElem (hfl.symm ▸ hj))
    have h3' : ((all.filter (fun f => f.tracksIndex == c))[j]'(by omega)).tracksIndex = c := by simpa using h3
    obtain ⟨clip', src', a1, a2, a3⟩ := h.entry i _ h1
    rw [h3'] at a1 a2 a3
    rw [hc] at a1; simp only [Option.some.injEq] at a1; subst a1
    have h2' : countClip (all.take i) c = j := h2
    rw [h2', e2] at a2; simp only [Option.some.injEq] at a2; subst a2
    rw [List.getElem?_eq_getElem (hfl.symm ▸ hj), e2]
    simp only [Option.map_some, Option.some.injEq]
    exact a3.2.2.1
  · rw [List.getElem?_eq_none (by omega), List.getElem?_eq_none (by omega)]; rfl

theorem metadata_unique (c : Nat) (clip : Clip E) (hc : clips[c]? = some clip) (i j : Nat) (e g : KeyframeMeta E)
    (hi : clip.metadata[i]? = some e) (hj : clip.metadata[j]? = some g) (hk : e.keyframeIndex = g.keyframeIndex) : i = j := by
  have hnd : (clip.metadata.map (·.keyframeIndex)).Nodup :=
    (hok c clip hc).order.keyframes.nodup_iff.2 List.nodup_range
  have hil : i < (clip.metadata.map (·.keyframeIndex)).length := by
    by_contra hn
    rw [List.length_map] at hn
    rw [List.getElem?_eq_none (by omega)] at hi; simp at hi
  refine (List.getElem?_inj hil hnd).1 ?_
  rw [List.getElem?_map, List.getElem?_map, hi, hj]; simp [hk]

/-- position in the assignment order of an assigned frame -/
theorem position (c : Nat) (clip : Clip E) (hc : clips[c]? = some clip) (p : Nat) (f : Frame E) (hp : all[p]? = some f)
    (hf : f.tracksIndex = c) (j : Nat) (g : KeyframeMeta E) (hj : clip.metadata[j]? = some g)
    (hk : f.clipFrameIndex = g.keyframeIndex) : countClip (all.take p) c = j := by
  obtain ⟨clip', src, a1, a2, a3⟩ := h.entry p f hp
  rw [hf] at a1 a2 a3
  rw [hc] at a1; simp only [Option.some.injEq] at a1; subst a1
  exact metadata_unique hok h hl c clip hc _ _ _ _ a2 hj (by rw [← hk]; exact a3.2.2.1.symm)

/-- Earlier in the removal order means assigned earlier. -/
theorem earlier (c : Nat) (clip : Clip E) (hc : clips[c]? = some clip) (p : Nat) (f : Frame E) (hp : all[p]? = some f)
    (hf : f.tracksIndex = c) (i j : Nat) (e g : KeyframeMeta E) (hij : i < j) (hi : clip.metadata[i]? = some e)
    (hj : clip.metadata[j]? = some g) (hk : f.clipFrameIndex = g.keyframeIndex) :
    ∃ p' f', p' < p ∧ all[p']? = some f' ∧ f'.tracksIndex = c ∧ f'.clipFrameIndex = e.keyframeIndex := by
  have h1 := position hok h hl c clip hc p f hp hf j g hj hk
  obtain ⟨p', f', a1, a2, a3⟩ := clip_frames hok h hl c clip hc i e hi
  refine ⟨p', f', ?_, a1, a3.1, a3.2.2.1⟩
  by_contra hn
  have := countClip_take_le all c p p' (by omega)
  omega

end

theorem mem_take_of_getElem? {α : Type} (l : List α) (n p : Nat) (x : α) (hp : p < n) (hx : l[p]? = some x) :
    x ∈ l.take n := by
  apply List.mem_iff_getElem?.2
  exact ⟨p, by rw [List.getElem?_take, if_pos hp]; exact hx⟩

theorem before_of_sorted {a b : Frame E} (h : frameLess b a = false)
    (hne : ¬ (a.tracksIndex = b.tracksIndex ∧ a.segmentIndex = b.segmentIndex ∧ a.segmentFrameIndex = b.segmentFrameIndex)) :
    Before a b := by
  unfold frameLess at h
  unfold Before
  split at h
  · simp at h
  · split at h
    · split at h
      · simp at h
      · split at h
        · simp only [decide_eq_false_iff_not] at h; omega
        · omega
    · omega

theorem sorted_before {tier sorted : List (Frame E)} (hs : SortedFrames tier sorted)
    (hd : tier.Pairwise (fun a b => ¬ (a.tracksIndex = b.tracksIndex ∧ a.clipFrameIndex = b.clipFrameIndex)))
    (hfun : ∀ a ∈ tier, ∀ b ∈ tier, a.tracksIndex = b.tracksIndex → a.segmentIndex = b.segmentIndex →
      a.segmentFrameIndex = b.segmentFrameIndex → a.clipFrameIndex = b.clipFrameIndex) : sorted.Pairwise Before := by
  have hd' : sorted.Pairwise (fun a b => ¬ (a.tracksIndex = b.tracksIndex ∧ a.clipFrameIndex = b.clipFrameIndex)) :=
    hs.1.symm.pairwise hd (fun {a b} h ⟨h1, h2⟩ => h ⟨h1.symm, h2.symm⟩)
  have hand := List.Pairwise.and hs.2 hd'
  refine hand.imp_of_mem ?_
  intro a b ha hb ⟨h1, h2⟩
  refine before_of_sorted h1 ?_
  rintro ⟨e1, e2, e3⟩
  exact h2 ⟨e1, hfun a (hs.1.mem_iff.1 ha) b (hs.1.mem_iff.1 hb) e1 e2 e3⟩

theorem inTier_perm {a b : List (Frame E)} (h : a.Perm b) (c k : Nat) : InTier a c k ↔ InTier b c k := by
  unfold InTier
  constructor <;> rintro ⟨f, hf, h2⟩
  · exact ⟨f, h.mem_iff.1 hf, h2⟩
  · exact ⟨f, h.mem_iff.2 hf, h2⟩

theorem mem_all_fields {clips : List (Clip E)} {metrics : Nat → List (SegmentMetric E)} {sizes : Nat → List Nat}
    (hok : ClipsOk clips metrics sizes) {counts : List Nat} {all : List (Frame E)} (h : TierInv clips sizes counts all)
    (f : Frame E) (hf : f ∈ all) : ∃ n clip src, clips[f.tracksIndex]? = some clip ∧ src ∈ clip.metadata ∧
      (sizes f.tracksIndex)[f.segmentIndex]? = some n ∧ f.segmentFrameIndex < n ∧
      start (sizes f.tracksIndex) f.segmentIndex + f.segmentFrameIndex = f.clipFrameIndex ∧
      clip.poseBits[f.segmentIndex]? = some f.frameBitSize ∧ src.keyframeIndex = f.clipFrameIndex ∧
      src.strippingError = f.error := by
  obtain ⟨i, hi⟩ := List.mem_iff_getElem?.1 hf
  obtain ⟨clip, src, a1, a2, a3⟩ := h.entry i f hi
  obtain ⟨b1, b2, b3, b4, b5, b6⟩ := a3
  have hm : src ∈ clip.metadata := List.mem_iff_getElem?.2 ⟨_, a2⟩
  obtain ⟨n, c1, c2, c3⟩ := (hok _ clip a1).order.segment src hm
  rw [← b2] at b4 b5 c1 c2 c3
  exact ⟨n, clip, src, a1, hm, c1, by omega, by omega, b5, b3.symm, b6.symm⟩

/-- **C22.** For clips as compression produces them, assignment never fails and whatever `std::sort`
does, the sorted tiers are a tiering. -/
theorem C22_tiers {clips : List (Clip E)} {metrics : Nat → List (SegmentMetric E)} {sizes : Nat → List Nat}
    (hok : ClipsOk clips metrics sizes) (wantLow wantMedium : Nat) :
    ∃ low medium high, assignTiers clips wantLow wantMedium = some (low, medium, high) ∧
      ∀ low' medium' high', SortedFrames low low' → SortedFrames medium medium' → SortedFrames high high' →
        IsTiering clips sizes wantLow wantMedium low' medium' high' ∧
        ∃ order, MovedCheapestFirst clips low' medium' order := by
  obtain ⟨low, medium, high, counts, e, l1, l2, l3, hinv, hgreedy, hfin⟩ := assignTiers_spec hok wantLow wantMedium
  refine ⟨low, medium, high, e, ?_⟩
  intro low' medium' high' s1 s2 s3
  have hperm : (low' ++ medium' ++ high').Perm (low ++ medium ++ high) := (s1.1.append s2.1).append s3.1
  have hperm2 : (low' ++ medium').Perm (low ++ medium) := s1.1.append s2.1
  have hmov : numMovable clips = totalMovable sizes clips.length := numMovable_eq hok
  have hfields := mem_all_fields hok hinv
  have hnd : (low ++ medium ++ high).Pairwise (fun a b => ¬ (a.tracksIndex = b.tracksIndex ∧ a.clipFrameIndex = b.clipFrameIndex)) := by
    rw [List.pairwise_iff_getElem]
    intro p q hp hq hpq ⟨h1, h2⟩
    have gp : (low ++ medium ++ high)[p]? = some (low ++ medium ++ high)[p] := List.getElem?_eq_getElem hp
    have gq : (low ++ medium ++ high)[q]? = some (low ++ medium ++ high)[q] := List.getElem?_eq_getElem hq
    obtain ⟨clip, src, a1, a2, a3⟩ := hinv.entry p _ gp
    have c1 := position hok hinv l3 _ clip (h1 ▸ a1) q _ gq rfl _ src a2 (by rw [← h2]; exact a3.2.2.1)
    have c2 : countClip ((low ++ medium ++ high).take q) (low ++ medium ++ high)[q].tracksIndex ≥
        countClip ((low ++ medium ++ high).take (p+1)) (low ++ medium ++ high)[q].tracksIndex :=
      countClip_take_le _ _ _ _ hpq
    rw [List.take_add_one, gp, countClip_append] at c2
    rw [h1] at c1
    have : countClip (some (low ++ medium ++ high)[p]).toList (low ++ medium ++ high)[q].tracksIndex = 1 := by
      rw [← h1]
      generalize (low ++ medium ++ high)[p] = x
      unfold countClip; simp
    omega
  have hfun : ∀ a ∈ low ++ medium ++ high, ∀ b ∈ low ++ medium ++ high, a.tracksIndex = b.tracksIndex →
      a.segmentIndex = b.segmentIndex → a.segmentFrameIndex = b.segmentFrameIndex → a.clipFrameIndex = b.clipFrameIndex := by
    intro a ha b hb h1 h2 h3
    obtain ⟨_, _, _, _, _, _, _, x1, _⟩ := hfields a ha
    obtain ⟨_, _, _, _, _, _, _, x2, _⟩ := hfields b hb
    rw [h1, h2] at x1; omega
  have sub1 : ∀ f ∈ low, f ∈ low ++ medium ++ high := fun f hf => by simp [hf]
  have sub2 : ∀ f ∈ medium, f ∈ low ++ medium ++ high := fun f hf => by simp [hf]
  have sub3 : ∀ f ∈ high, f ∈ low ++ medium ++ high := fun f hf => by simp [hf]
  refine ⟨⟨?_, ?_, ?_, ?_, ?_, ?_, ?_, ?_⟩, low ++ medium, ?_, ?_, ?_⟩
  · intro f hf; exact hinv.clip f (hperm.mem_iff.1 hf)
  · intro c hc
    have hg : clips[c]? = some clips[c] := List.getElem?_eq_getElem hc
    refine ((hperm.filter _).map _).trans ?_
    rw [clip_map hok hinv l3 c _ hg]
    exact (hok c _ hg).order.keyframes
  · intro f hf
    obtain ⟨n, clip, src, a1, _, a2, a3, a4, a5, _⟩ := hfields f (hperm.mem_iff.1 hf)
    exact ⟨n, clip, a2, a3, a4, a1, a5⟩
  · intro f hf hb
    have hf' := hperm2.mem_iff.1 hf
    obtain ⟨n, clip, src, a1, am, a2, a3, a4, a5, a6, a7⟩ := hfields f (List.mem_append_left _ hf')
    rw [← a6] at hb
    have := ((hok _ clip a1).order.boundary src am).2 hb
    have hlt := hfin f hf'
    rw [← a7, this] at hlt
    exact lt_irrefl _ hlt
  · rw [s1.1.length_eq, l1, ← hmov]; rfl
  · rw [s2.1.length_eq, l2, s1.1.length_eq, l1, ← hmov]; rfl
  · intro c clip i j e g hc hij hi hj
    constructor
    · intro ht
      rw [inTier_perm s1.1] at ht ⊢
      obtain ⟨f, hf, ft, fk⟩ := ht
      obtain ⟨p, hp⟩ := List.mem_iff_getElem?.1 hf
      have hpl : p < low.length := by
        by_contra hn; rw [List.getElem?_eq_none (by omega)] at hp; simp at hp
      have hp' : (low ++ medium ++ high)[p]? = some f := by
        rw [List.append_assoc, List.getElem?_append_left hpl]; exact hp
      obtain ⟨p', f', q1, q2, q3, q4⟩ := earlier hok hinv l3 c clip hc p f hp' ft i j e g hij hi hj fk
      rw [List.append_assoc, List.getElem?_append_left (by omega)] at q2
      exact ⟨f', List.mem_iff_getElem?.2 ⟨_, q2⟩, q3, q4⟩
    · intro ht
      rw [inTier_perm s2.1] at ht
      rw [inTier_perm s1.1, inTier_perm s2.1]
      obtain ⟨f, hf, ft, fk⟩ := ht
      obtain ⟨p, hp⟩ := List.mem_iff_getElem?.1 hf
      have hpl : p < medium.length := by
        by_contra hn; rw [List.getElem?_eq_none (by omega)] at hp; simp at hp
      have hp' : (low ++ medium ++ high)[low.length + p]? = some f := by
        rw [List.append_assoc, List.getElem?_append_right (by omega), Nat.add_sub_cancel_left,
          List.getElem?_append_left hpl]; exact hp
      obtain ⟨p', f', q1, q2, q3, q4⟩ := earlier hok hinv l3 c clip hc _ f hp' ft i j e g hij hi hj fk
      rw [List.getElem?_append_left (by simp; omega)] at q2
      rcases List.mem_append.1 (List.mem_iff_getElem?.2 ⟨_, q2⟩) with h | h
      · left; exact ⟨f', h, q3, q4⟩
      · right; exact ⟨f', h, q3, q4⟩
  · rw [List.append_assoc, List.pairwise_append] at hnd
    have hnd2 := hnd.2.1
    rw [List.pairwise_append] at hnd2
    exact ⟨sorted_before s1 hnd.1 (fun a ha b hb => hfun a (sub1 a ha) b (sub1 b hb)),
      sorted_before s2 hnd2.1 (fun a ha b hb => hfun a (sub2 a ha) b (sub2 b hb)),
      sorted_before s3 hnd2.2.1 (fun a ha b hb => hfun a (sub3 a ha) b (sub3 b hb))⟩
  · rw [s1.1.length_eq, List.take_left' rfl]; exact s1.1.symm
  · rw [s1.1.length_eq, List.drop_left' rfl]; exact s2.1.symm
  · intro i f hf t clip j src hc hj ⟨hall, hnot⟩
    have hil : i < (low ++ medium).length := by
      by_contra hn; rw [List.getElem?_eq_none (by omega)] at hf; simp at hf
    have hf' : (low ++ medium ++ high)[i]? = some f := by rw [List.getElem?_append_left hil]; exact hf
    have htake : (low ++ medium ++ high).take i = (low ++ medium).take i := List.take_append_of_le_length (by omega)
    have hjl : j < clip.metadata.length := by
      by_contra hn; rw [List.getElem?_eq_none (by omega)] at hj; simp at hj
    have hlen := (hok t clip hc).orderLength
    -- the next frame of clip `t` is `src`
    have hcount : countClip ((low ++ medium ++ high).take i) t = j := by
      obtain ⟨p, f2, a1, a2, a3⟩ := clip_frames hok hinv l3 t clip hc j src hj
      rcases Nat.lt_trichotomy (countClip ((low ++ medium ++ high).take i) t) j with hlt | heq | hgt
      · exfalso
        have hg : clip.metadata[countClip ((low ++ medium ++ high).take i) t]? =
            some (clip.metadata[countClip ((low ++ medium ++ high).take i) t]'(by omega)) := List.getElem?_eq_getElem _
        obtain ⟨f3, hm3, b1, b2⟩ := hall _ _ hlt hg
        obtain ⟨q, hq⟩ := List.mem_iff_getElem?.1 hm3
        rw [List.getElem?_take] at hq
        split at hq
        · rename_i hqi
          have hq' : (low ++ medium ++ high)[q]? = some f3 := by
            rw [List.getElem?_append_left (by omega)]; exact hq
          have c1 := position hok hinv l3 t clip hc q f3 hq' b1 _ _ hg b2
          have c2 := countClip_take_le (low ++ medium ++ high) t (q+1) i hqi
          rw [List.take_add_one, hq', countClip_append] at c2
          have : countClip (some f3).toList t = 1 := by unfold countClip; simp [b1]
          omega
        · simp at hq
      · exact heq
      · exfalso
        apply hnot
        have hpi : p < i := by
          by_contra hn
          have := countClip_take_le (low ++ medium ++ high) t i p (by omega)
          omega
        rw [← htake]
        exact ⟨f2, mem_take_of_getElem? _ _ _ _ hpi a1, a3.1, a3.2.2.1⟩
    exact hgreedy i hil f hf' t clip src hc (by rw [hcount]; omega) (by rw [hcount]; exact hj)

/-! Non-vacuity: every list of segment sizes and metrics gives a legal clip; and a concrete database
of two clips, 5 + 3 and 4 key frames. -/
section Example

theorem clipOk_exists (metrics : List (SegmentMetric E)) (sizes : List Nat) (poseBits : List Nat)
    (hm : metrics.length = sizes.length) (hp : poseBits.length = sizes.length) (hsz : SizesOk sizes)
    (hsm : sizes.sum < 2 ^ 32) (h0 : (0 : E) < ⊤) (hfin : ∀ mt ∈ metrics, ∀ p q i j, mt.boneError p q i j < ⊤) :
    ∃ clip, ClipOk metrics sizes clip := by
  have hb : ∀ n ∈ sizes, 1 ≤ n ∧ n ≤ 32 := by
    rcases hsz with h | h
    · intro n hn; have := h n hn; omega
    · subst h; simp
  let g : Nat → List (KeyframeMeta E) := fun _ => List.replicate 32 ⟨0, 0, 0, 0, false⟩
  obtain ⟨orders, hrun⟩ := run_exists metrics sizes hm hb h0 hfin g (by simp [g])
  obtain ⟨out, -, hout⟩ := C43_removal_order metrics sizes hm hb h0 hfin g (by simp [g]) orders hrun
  exact ⟨⟨sizes.sum, sizes.length, (List.range sizes.length).map (start sizes), poseBits, out⟩, hm, hsz, hsm, rfl, rfl,
    fun s hs _ => by simp [hs], hp, hout⟩

def exClips : List (Clip Err) :=
  [⟨8, 2, [0, 5], [100, 96], exOrderClip⟩,
   ⟨4, 1, [], [64], (sortContributingError (mergeInput [4] [exOrder 5 0 4]) 4).getD []⟩]

def exShow (l : List (Frame Err)) : List (List Nat) :=
  l.map (fun f => [f.tracksIndex, f.segmentIndex, f.clipFrameIndex, f.segmentFrameIndex])

/-- Three of twelve frames to the low tier, two to the medium tier. -/
example : (assignTiers exClips 3 2).map (fun t => [exShow t.1, exShow t.2.1, exShow t.2.2]) =
    some [[[0, 0, 1, 1], [1, 0, 1, 1], [0, 1, 6, 1]], [[0, 0, 3, 3], [1, 0, 2, 2]],
      [[1, 0, 0, 0], [1, 0, 3, 3], [0, 0, 2, 2], [0, 1, 5, 0], [0, 1, 7, 2], [0, 0, 0, 0], [0, 0, 4, 4]]] := by
  decide +kernel

end Example

end Acl.C22
