import Verif.Transform.ContributingErrorSpec
import Verif.Core.BitsetLemmas
import Mathlib.Data.List.Perm.Basic
import Mathlib.Data.List.Nodup
import Mathlib.Data.List.Range
namespace Acl
variable {E : Type} [LinearOrder E] [OrderTop E] [Zero E]

/-! The error of a gap -/

theorem bonesError_spec (mt : SegmentMetric E) (s t f k b : Nat) (acc : E × Bool) :
    acc.1 ≤ (bonesError mt s t f k b acc).1 ∧
    (∀ j, b ≤ j → j < b + k → mt.boneError s t f j ≤ (bonesError mt s t f k b acc).1) ∧
    ((bonesError mt s t f k b acc).1 = acc.1 ∨
      ∃ j, b ≤ j ∧ j < b + k ∧ (bonesError mt s t f k b acc).1 = mt.boneError s t f j) ∧
    ((bonesError mt s t f k b acc).2 = true ↔ acc.2 = true ∧
      ∀ j, b ≤ j → j < b + k → mt.boneError s t f j ≤ mt.precision j) := by
  induction k generalizing b acc with
  | zero =>
    refine ⟨le_refl _, fun j h1 h2 => by omega, Or.inl rfl, ?_⟩
    simp only [bonesError]
    exact ⟨fun h => ⟨h, fun j h1 h2 => by omega⟩, fun h => h.1⟩
  | succ k ih =>
    obtain ⟨h1, h2, h3, h4⟩ := ih (b + 1)
      (max acc.1 (mt.boneError s t f b), acc.2 && decide (mt.boneError s t f b ≤ mt.precision b))
    simp only [bonesError]
    refine ⟨le_trans (le_max_left _ _) h1, ?_, ?_, ?_⟩
    · intro j hj1 hj2
      by_cases hj : j = b
      · subst hj; exact le_trans (le_max_right _ _) h1
      · exact h2 j (by omega) (by omega)
    · rcases h3 with h3 | ⟨j, hj1, hj2, hj3⟩
      · rw [h3]
        rcases le_total acc.1 (mt.boneError s t f b) with h | h
        · right; exact ⟨b, le_refl _, by omega, max_eq_right h⟩
        · left; exact max_eq_left h
      · right; exact ⟨j, by omega, by omega, hj3⟩
    · rw [h4, Bool.and_eq_true, decide_eq_true_iff]
      constructor
      · rintro ⟨⟨ha, hb⟩, hc⟩
        refine ⟨ha, fun j hj1 hj2 => ?_⟩
        by_cases hj : j = b
        · subst hj; exact hb
        · exact hc j (by omega) (by omega)
      · rintro ⟨ha, hb⟩
        exact ⟨⟨ha, hb b (le_refl _) (by omega)⟩, fun j hj1 hj2 => hb j (by omega) (by omega)⟩

theorem framesError_spec (mt : SegmentMetric E) (s t k f : Nat) (acc : E × Bool) :
    acc.1 ≤ (framesError mt s t k f acc).1 ∧
    (∀ i j, f ≤ i → i < f + k → j < mt.numBones → mt.boneError s t i j ≤ (framesError mt s t k f acc).1) ∧
    ((framesError mt s t k f acc).1 = acc.1 ∨
      ∃ i j, f ≤ i ∧ i < f + k ∧ j < mt.numBones ∧ (framesError mt s t k f acc).1 = mt.boneError s t i j) ∧
    ((framesError mt s t k f acc).2 = true ↔ acc.2 = true ∧
      ∀ i j, f ≤ i → i < f + k → j < mt.numBones → mt.boneError s t i j ≤ mt.precision j) := by
  induction k generalizing f acc with
  | zero =>
    refine ⟨le_refl _, fun i j h1 h2 => by omega, Or.inl rfl, ?_⟩
    simp only [framesError]
    exact ⟨fun h => ⟨h, fun i j h1 h2 => by omega⟩, fun h => h.1⟩
  | succ k ih =>
    obtain ⟨b1, b2, b3, b4⟩ := bonesError_spec mt s t f mt.numBones 0 acc
    simp only [framesError]
    generalize hacc : bonesError mt s t f mt.numBones 0 acc = acc' at *
    obtain ⟨h1, h2, h3, h4⟩ := ih (f + 1) acc'
    refine ⟨le_trans b1 h1, ?_, ?_, ?_⟩
    · intro i j hi1 hi2 hj
      by_cases hi : i = f
      · subst hi; exact le_trans (b2 j (Nat.zero_le _) (by omega)) h1
      · exact h2 i j (by omega) (by omega) hj
    · rcases h3 with h3 | ⟨i, j, hi1, hi2, hj, he⟩
      · rw [h3]
        rcases b3 with b3 | ⟨j, _, hj, he⟩
        · left; exact b3
        · right; exact ⟨f, j, le_refl _, by omega, by omega, he⟩
      · right; exact ⟨i, j, by omega, by omega, hj, he⟩
    · rw [h4, b4]
      constructor
      · rintro ⟨⟨ha, hb⟩, hc⟩
        refine ⟨ha, fun i j hi1 hi2 hj => ?_⟩
        by_cases hi : i = f
        · subst hi; exact hb j (Nat.zero_le _) (by omega)
        · exact hc i j (by omega) (by omega) hj
      · rintro ⟨ha, hb⟩
        exact ⟨⟨ha, fun j _ hj => hb f j (le_refl _) (by omega) (by omega)⟩,
          fun i j hi1 hi2 hj => hb i j (by omega) (by omega) hj⟩

theorem gapError_worst (mt : SegmentMetric E) (p q : Nat) : IsWorstError mt p q (gapError mt p q).1 := by
  obtain ⟨h1, h2, h3, -⟩ := framesError_spec mt p q (q - (p+1)) (p+1) (0, true)
  refine ⟨h1, fun i j a b c => h2 i j (by omega) (by omega) c, ?_⟩
  rcases h3 with h3 | ⟨i, j, a, b, c, d⟩
  · exact Or.inl h3
  · exact Or.inr ⟨i, j, by omega, by omega, c, d⟩

theorem gapError_trivial (mt : SegmentMetric E) (p q : Nat) :
    (gapError mt p q).2 = true ↔ ∀ frame bone, p < frame → frame < q → bone < mt.numBones →
      mt.boneError p q frame bone ≤ mt.precision bone := by
  obtain ⟨-, -, -, h4⟩ := framesError_spec mt p q (q - (p+1)) (p+1) (0, true)
  unfold gapError
  rw [h4]
  constructor
  · rintro ⟨-, h⟩ i j a b c; exact h i j (by omega) (by omega) c
  · intro h; exact ⟨rfl, fun i j a b c => h i j (by omega) (by omega) c⟩

theorem worst_unique (mt : SegmentMetric E) {p q : Nat} {a b : E}
    (ha : IsWorstError mt p q a) (hb : IsWorstError mt p q b) : a = b := by
  have aux : ∀ x y : E, IsWorstError mt p q x → IsWorstError mt p q y → x ≤ y := by
    rintro x y ⟨-, -, h⟩ ⟨h0, hy, -⟩
    rcases h with h | ⟨i, j, h1, h2, h3, h4⟩
    · rw [h]; exact h0
    · rw [h4]; exact hy i j h1 h2 h3
  exact le_antisymm (aux _ _ ha hb) (aux _ _ hb ha)

theorem gapError_finite (mt : SegmentMetric E) (h0 : (0 : E) < ⊤)
    (hf : ∀ p q i j, mt.boneError p q i j < ⊤) (p q : Nat) : (gapError mt p q).1 < ⊤ := by
  obtain ⟨-, -, h⟩ := gapError_worst mt p q
  rcases h with h | ⟨i, j, -, -, -, h⟩
  · rw [h]; exact h0
  · rw [h]; exact hf _ _ _ _

theorem isPrev_unique {r : List Nat} {k p q : Nat} (hp : IsPrev r k p) (hq : IsPrev r k q) : p = q := by
  rcases Nat.lt_trichotomy p q with h | h | h
  · exact absurd (hp.2.2 q h hq.1) hq.2.1
  · exact h
  · exact absurd (hq.2.2 p h hp.1) hp.2.1

theorem isNext_unique {r : List Nat} {k p q : Nat} (hp : IsNext r k p) (hq : IsNext r k q) : p = q := by
  rcases Nat.lt_trichotomy p q with h | h | h
  · exact absurd (hq.2.2 p hp.1 h) hp.2.1
  · exact h
  · exact absurd (hp.2.2 q hq.1 h) hq.2.1

/-! The searches for the retained neighbours -/

/-- The word of the bit set holds exactly the frames which were not removed. -/
def Retains (m : List (BitVec 32)) (removed : List Nat) : Prop :=
  m.length = 1 ∧ ∀ j, j < 32 → (bsBit m j = true ↔ j ∉ removed)

theorem prevRetained_spec {m : List (BitVec 32)} {r : List Nat} (h : Retains m r) (i : Nat)
    (hi : i < 32) (h0 : 0 ∉ r) : ∃ p, prevRetained m i = some p ∧ IsPrev r (i+1) p := by
  induction i with
  | zero =>
    refine ⟨0, ?_, by omega, h0, fun q h1 h2 => by omega⟩
    unfold prevRetained
    rw [bitsetTest_eq m 0 (by rw [h.1]; omega), (h.2 0 (by omega)).2 h0]
    rfl
  | succ i ih =>
    unfold prevRetained
    rw [bitsetTest_eq m (i+1) (by rw [h.1]; omega)]
    by_cases hb : i + 1 ∈ r
    · have : bsBit m (i+1) = false := by
        cases hx : bsBit m (i+1)
        · rfl
        · exact absurd hb ((h.2 (i+1) hi).1 hx)
      rw [this]
      obtain ⟨p, e, hp⟩ := ih (by omega)
      refine ⟨p, e, by have := hp.1; omega, hp.2.1, fun q h1 h2 => ?_⟩
      by_cases hq : q = i + 1
      · rw [hq]; exact hb
      · exact hp.2.2 q h1 (by omega)
    · rw [(h.2 (i+1) hi).2 hb]
      exact ⟨i+1, rfl, by omega, hb, fun q h1 h2 => by omega⟩

theorem nextRetained_spec {m : List (BitVec 32)} {r : List Nat} (h : Retains m r) (l fuel i : Nat)
    (hl : l < 32) (hr : l ∉ r) (hi : i ≤ l) (hfuel : l < i + fuel) (hi0 : 0 < i) :
    ∃ p, nextRetained m fuel i = some p ∧ IsNext r (i-1) p := by
  induction fuel generalizing i with
  | zero => omega
  | succ fuel ih =>
    unfold nextRetained
    rw [bitsetTest_eq m i (by rw [h.1]; omega)]
    by_cases hb : i ∈ r
    · have : bsBit m i = false := by
        cases hx : bsBit m i
        · rfl
        · exact absurd hb ((h.2 i (by omega)).1 hx)
      rw [this]
      have hne : i ≠ l := by rintro rfl; exact hr hb
      obtain ⟨p, e, hp⟩ := ih (i+1) (by omega) (by omega) (by omega)
      refine ⟨p, e, by have := hp.1; omega, hp.2.1, fun q h1 h2 => ?_⟩
      by_cases hq : q = i
      · rw [hq]; exact hb
      · exact hp.2.2 q (by omega) h2
    · rw [(h.2 i (by omega)).2 hb]
      exact ⟨i, rfl, by omega, hb, fun q h1 h2 => by omega⟩

/-! One iteration -/

theorem considerFrame_spec {m : List (BitVec 32)} {r : List Nat} (mt : SegmentMetric E)
    (segment it n : Nat) (best : KeyframeMeta E) (frame : Nat) (h : Retains m r) (hn : n ≤ 32)
    (h0 : 0 ∉ r) (hl : n - 1 ∉ r) (hmv : Movable n frame) :
    (frame ∈ r ∧ considerFrame mt segment it m best frame = some best) ∨
    (frame ∉ r ∧ ∃ p q, IsPrev r frame p ∧ IsNext r frame q ∧
      considerFrame mt segment it m best frame =
        some (if (gapError mt p q).1 < best.strippingError then
          ⟨frame, segment, it - 1, (gapError mt p q).1, (gapError mt p q).2⟩ else best)) := by
  obtain ⟨hm1, hm2⟩ := hmv
  unfold considerFrame
  rw [bitsetTest_eq m frame (by rw [h.1]; omega)]
  by_cases hb : frame ∈ r
  · left
    have : bsBit m frame = false := by
      cases hx : bsBit m frame
      · rfl
      · exact absurd hb ((h.2 frame (by omega)).1 hx)
    rw [this]
    exact ⟨hb, rfl⟩
  · right
    obtain ⟨p, ep, hp⟩ := prevRetained_spec h (frame - 1) (by omega) h0
    obtain ⟨q, eq, hq⟩ := nextRetained_spec h (n-1) 33 (frame + 1) (by omega) hl (by omega) (by omega) (by omega)
    have e1 : frame - 1 + 1 = frame := by omega
    rw [e1] at hp
    rw [Nat.add_sub_cancel] at hq
    refine ⟨hb, p, q, hp, hq, ?_⟩
    rw [(h.2 frame (by omega)).2 hb]
    simp only [Option.bind_eq_bind, Option.bind_some, Bool.not_true, Bool.false_eq_true, if_false, ep, eq]
    split <;> rfl

theorem considerFrames_spec {m : List (BitVec 32)} {r : List Nat} (mt : SegmentMetric E)
    (segment it n : Nat) (h : Retains m r) (hn : n ≤ 32) (h0 : 0 ∉ r) (hl : n - 1 ∉ r)
    (k f : Nat) (best : KeyframeMeta E) (hf : 0 < f) (hfk : f + k + 1 ≤ n) :
    ∃ b, considerFrames mt segment it m k f best = some b ∧
      b.strippingError ≤ best.strippingError ∧
      (∀ j p q, f ≤ j → j < f + k → j ∉ r → IsPrev r j p → IsNext r j q →
        b.strippingError ≤ (gapError mt p q).1) ∧
      (b = best ∨ ∃ j p q, f ≤ j ∧ j < f + k ∧ j ∉ r ∧ IsPrev r j p ∧ IsNext r j q ∧
        b = ⟨j, segment, it - 1, (gapError mt p q).1, (gapError mt p q).2⟩) := by
  induction k generalizing f best with
  | zero => exact ⟨best, rfl, le_refl _, fun j _ _ h1 h2 => by omega, Or.inl rfl⟩
  | succ k ih =>
    rcases considerFrame_spec mt segment it n best f h hn h0 hl ⟨hf, by omega⟩ with ⟨hb, e⟩ | ⟨hb, p, q, hp, hq, e⟩
    · obtain ⟨b, e2, h1, h2, h3⟩ := ih (f+1) best (by omega) (by omega)
      refine ⟨b, ?_, h1, ?_, ?_⟩
      · simp only [considerFrames, e, Option.bind_eq_bind, Option.bind_some, e2]
      · intro j p q hj1 hj2 hj3 hp hq
        have : j ≠ f := by rintro rfl; exact hj3 hb
        exact h2 j p q (by omega) (by omega) hj3 hp hq
      · rcases h3 with h3 | ⟨j, p, q, a, b', c⟩
        · exact Or.inl h3
        · exact Or.inr ⟨j, p, q, by omega, by omega, c⟩
    · generalize hbest : (if (gapError mt p q).1 < best.strippingError then
          (⟨f, segment, it - 1, (gapError mt p q).1, (gapError mt p q).2⟩ : KeyframeMeta E) else best) = best' at e
      have hle : best'.strippingError ≤ best.strippingError := by
        rw [← hbest]; split
        · rename_i hlt; exact le_of_lt hlt
        · exact le_refl _
      have hle2 : best'.strippingError ≤ (gapError mt p q).1 := by
        rw [← hbest]; split
        · exact le_refl _
        · rename_i hlt; exact le_of_not_gt hlt
      obtain ⟨b, e2, h1, h2, h3⟩ := ih (f+1) best' (by omega) (by omega)
      refine ⟨b, ?_, le_trans h1 hle, ?_, ?_⟩
      · simp only [considerFrames, e, Option.bind_eq_bind, Option.bind_some, e2]
      · intro j p' q' hj1 hj2 hj3 hp' hq'
        by_cases hj : j = f
        · subst hj
          rw [isPrev_unique hp' hp, isNext_unique hq' hq]
          exact le_trans h1 hle2
        · exact h2 j p' q' (by omega) (by omega) hj3 hp' hq'
      · rcases h3 with h3 | ⟨j, p, q, a, b', c⟩
        · by_cases hlt : (gapError mt p q).1 < best.strippingError
          · rw [if_pos hlt] at hbest
            exact Or.inr ⟨f, p, q, le_refl _, by omega, hb, hp, hq, by rw [h3, hbest]⟩
          · rw [if_neg hlt] at hbest
            exact Or.inl (by rw [h3, hbest])
        · exact Or.inr ⟨j, p, q, by omega, by omega, c⟩

/-! The removal loop -/

/-- What an entry says about the frame removed after the frames of `removed`. -/
def EntryGood (mt : SegmentMetric E) (n : Nat) (removed : List Nat) (e : KeyframeMeta E) : Prop :=
  Movable n e.keyframeIndex ∧ e.strippingError < ⊤ ∧
  RemovalCost mt removed e.keyframeIndex e.strippingError ∧
  (e.isTrivial = true ↔ RemovalTrivial mt removed e.keyframeIndex) ∧
  ∀ k cost, Movable n k → k ∉ removed → RemovalCost mt removed k cost → e.strippingError ≤ cost

/-- Invariant of the removal loop: `es` are the entries of the removed frames, in order. -/
structure RemovalInv (mt : SegmentMetric E) (segment n : Nat) (es : List (KeyframeMeta E))
    (st : List (KeyframeMeta E) × List (BitVec 32)) : Prop where
  len : st.1.length = 32
  retains : Retains st.2 (es.map (·.keyframeIndex))
  nodup : (es.map (·.keyframeIndex)).Nodup
  seg : ∀ e ∈ es, e.segmentIndex = segment
  idx : ∀ (i : Nat) (e : KeyframeMeta E), es[i]? = some e → e.strippingIndex = i
  good : ∀ (i : Nat) (e : KeyframeMeta E), es[i]? = some e →
    EntryGood mt n ((es.take i).map (·.keyframeIndex)) e
  stored : ∀ e ∈ es, st.1[e.keyframeIndex]? = some e
  first : st.1[0]? = some ⟨0, segment, u32Max, ⊤, false⟩
  last : st.1[n-1]? = some ⟨n-1, segment, u32Max, ⊤, false⟩

theorem RemovalInv.movable {mt : SegmentMetric E} {segment n : Nat} {es : List (KeyframeMeta E)} {st}
    (h : RemovalInv mt segment n es st) : ∀ k ∈ es.map (·.keyframeIndex), Movable n k := by
  intro k hk
  obtain ⟨e, he, rfl⟩ := List.mem_map.1 hk
  obtain ⟨i, hi⟩ := List.mem_iff_getElem?.1 he
  exact (h.good i e hi).1

theorem nodup_movable_length {n : Nat} {r : List Nat} (hn : r.Nodup) (hm : ∀ k ∈ r, Movable n k)
    (hall : ∀ k, Movable n k → k ∈ r) : r.Perm ((List.range (n-2)).map (· + 1)) := by
  rw [List.perm_ext_iff_of_nodup hn]
  · intro a
    rw [List.mem_map]
    constructor
    · intro h
      have := hm a h
      exact ⟨a - 1, by rw [List.mem_range]; unfold Movable at this; omega, by unfold Movable at this; omega⟩
    · rintro ⟨b, hb, rfl⟩
      rw [List.mem_range] at hb
      exact hall _ ⟨by omega, by omega⟩
  · exact List.Nodup.map (fun a b h => by simpa using h) List.nodup_range

theorem exists_candidate {n : Nat} {r : List Nat} (hl : r.length < n - 2) :
    ∃ k, Movable n k ∧ k ∉ r := by
  by_contra hc
  push Not at hc
  have hsub : ((List.range (n-2)).map (· + 1)) ⊆ r := by
    intro a ha
    obtain ⟨b, hb, rfl⟩ := List.mem_map.1 ha
    rw [List.mem_range] at hb
    exact hc _ ⟨by omega, by omega⟩
  have hnd : ((List.range (n-2)).map (· + 1)).Nodup :=
    List.Nodup.map (fun a b h => by simpa using h) List.nodup_range
  have := (List.subperm_of_subset hnd hsub).length_le
  rw [List.length_map, List.length_range] at this
  omega

theorem exists_neighbours {n : Nat} {r : List Nat} {k : Nat} (hm : ∀ k ∈ r, Movable n k)
    (hk : Movable n k) : ∃ p q, IsPrev r k p ∧ IsNext r k q := by
  obtain ⟨hk1, hk2⟩ := hk
  have h1 : ∀ j, j < k → ∃ p, p ≤ j ∧ p ∉ r ∧ ∀ q, p < q → q ≤ j → q ∈ r := by
    intro j
    induction j with
    | zero =>
      intro _
      exact ⟨0, le_refl _, fun h => by have := (hm 0 h).1; omega, fun q a b => by omega⟩
    | succ j ih =>
      intro hj
      by_cases hb : j + 1 ∈ r
      · obtain ⟨p, a, b, c⟩ := ih (by omega)
        refine ⟨p, by omega, b, fun q h1 h2 => ?_⟩
        by_cases hq : q = j + 1
        · rw [hq]; exact hb
        · exact c q h1 (by omega)
      · exact ⟨j+1, le_refl _, hb, fun q a b => by omega⟩
  have h2 : ∀ d j, j + d = n - 1 → k < j → ∃ p, j ≤ p ∧ p ∉ r ∧ ∀ q, j ≤ q → q < p → q ∈ r := by
    intro d
    induction d with
    | zero =>
      intro j hj hkj
      exact ⟨j, le_refl _, fun h => by have := (hm j h).2; omega, fun q a b => by omega⟩
    | succ d ih =>
      intro j hj hkj
      by_cases hb : j ∈ r
      · obtain ⟨p, a, b, c⟩ := ih (j+1) (by omega) (by omega)
        refine ⟨p, by omega, b, fun q h1 h2 => ?_⟩
        by_cases hq : q = j
        · rw [hq]; exact hb
        · exact c q (by omega) h2
      · exact ⟨j, le_refl _, hb, fun q a b => by omega⟩
  obtain ⟨p, a, b, c⟩ := h1 (k-1) (by omega)
  obtain ⟨q, a', b', c'⟩ := h2 (n-1-(k+1)) (k+1) (by omega) (by omega)
  exact ⟨p, q, ⟨by omega, b, fun x h1 h2 => c x h1 (by omega)⟩, ⟨by omega, b', fun x h1 h2 => c' x (by omega) h2⟩⟩

theorem removeOne_spec (mt : SegmentMetric E) (segment n : Nat) (hn : n ≤ 32)
    (h0 : (0 : E) < ⊤) (hfin : ∀ p q i j, mt.boneError p q i j < ⊤)
    (es : List (KeyframeMeta E)) (st) (h : RemovalInv mt segment n es st) (hl : es.length < n - 2) :
    ∃ e st', removeOne mt segment n (es.length + 1) st = some st' ∧
      RemovalInv mt segment n (es ++ [e]) st' := by
  have hmov := h.movable
  have hz : 0 ∉ es.map (·.keyframeIndex) := fun hx => by have := (hmov 0 hx).1; omega
  have hzl : n - 1 ∉ es.map (·.keyframeIndex) := fun hx => by have := (hmov _ hx).2; omega
  obtain ⟨b, eb, hb1, hb2, hb3⟩ := considerFrames_spec mt segment (es.length + 1) n h.retains hn hz hzl
    (n-2) 1 ⟨u32Max, segment, u32Max, ⊤, false⟩ (by omega) (by omega)
  obtain ⟨c, hc1, hc2⟩ := exists_candidate (n := n) (r := es.map (·.keyframeIndex)) (by rw [List.length_map]; exact hl)
  obtain ⟨pc, qc, hpc, hqc⟩ := exists_neighbours hmov hc1
  have hlt : b.strippingError < ⊤ :=
    lt_of_le_of_lt (hb2 c pc qc (by have := hc1.1; omega) (by have := hc1.2; omega) hc2 hpc hqc) (gapError_finite mt h0 hfin _ _)
  rcases hb3 with hb3 | ⟨j, p, q, hj1, hj2, hj3, hp, hq, hb3⟩
  · rw [hb3] at hlt; exact absurd hlt (lt_irrefl _)
  have hjm : Movable n j := ⟨by omega, by omega⟩
  have hjk : b.keyframeIndex = j := by rw [hb3]
  obtain ⟨m', em, lm, -, bm⟩ := bitsetSet_spec st.2 j false (by rw [h.retains.1]; omega)
  have hj32 : j < 32 := by omega
  refine ⟨b, (st.1.set j b, m'), ?_, ?_⟩
  · unfold removeOne storeEntry
    rw [eb]
    simp only [Option.bind_eq_bind, Option.bind_some, hjk, h.len, hj32, if_true, em]
  · have hkeys : (es ++ [b]).map (·.keyframeIndex) = es.map (·.keyframeIndex) ++ [j] := by
      rw [List.map_append, List.map_singleton, hjk]
    constructor
    · simpa using h.len
    · refine ⟨by rw [lm]; exact h.retains.1, fun x hx => ?_⟩
      rw [hkeys, bm, List.mem_append, List.mem_singleton]
      by_cases hxj : x = j
      · simp [hxj]
      · rw [if_neg hxj, h.retains.2 x hx]; simp [hxj]
    · rw [hkeys, List.nodup_append]
      refine ⟨h.nodup, by simp, ?_⟩
      intro a ha b' hb' hab
      rw [List.mem_singleton] at hb'
      subst hab; subst hb'
      exact hj3 ha
    · intro e he
      rcases List.mem_append.1 he with he | he
      · exact h.seg e he
      · rw [List.mem_singleton] at he; rw [he, hb3]
    · intro i e he
      by_cases hi : i < es.length
      · rw [List.getElem?_append_left hi] at he; exact h.idx i e he
      · rw [List.getElem?_append_right (by omega)] at he
        have hi2 : i = es.length := by
          by_contra hne
          rw [List.getElem?_eq_none (by simp; omega)] at he; simp at he
        subst hi2
        simp at he; rw [← he, hb3]; simp
    · intro i e he
      by_cases hi : i < es.length
      · rw [List.getElem?_append_left hi] at he
        rw [List.take_append_of_le_length (by omega)]
        exact h.good i e he
      · rw [List.getElem?_append_right (by omega)] at he
        have hi2 : i = es.length := by
          by_contra hne
          rw [List.getElem?_eq_none (by simp; omega)] at he; simp at he
        subst hi2
        simp at he; subst he
        rw [List.take_left']
        refine ⟨by rw [hjk]; exact hjm, hlt, ?_, ?_, ?_⟩
        · rw [hb3]; exact ⟨p, q, hp, hq, gapError_worst mt p q⟩
        · rw [hb3]
          show (gapError mt p q).2 = true ↔ _
          rw [gapError_trivial]
          constructor
          · intro hx; exact ⟨p, q, hp, hq, hx⟩
          · rintro ⟨p', q', hp', hq', hx⟩
            rw [isPrev_unique hp' hp, isNext_unique hq' hq] at hx; exact hx
        · rintro k cost hk hkr ⟨p', q', hp', hq', hw⟩
          rw [worst_unique mt hw (gapError_worst mt p' q')]
          exact hb2 k p' q' (by have := hk.1; omega) (by have := hk.2; omega) hkr hp' hq'
        · rfl
    · intro e he
      rcases List.mem_append.1 he with he | he
      · have hne : j ≠ e.keyframeIndex := by
          rintro hx; exact hj3 (hx ▸ List.mem_map_of_mem he)
        rw [List.getElem?_set_ne hne]
        exact h.stored e he
      · rw [List.mem_singleton] at he; rw [he, hjk, List.getElem?_set_self (by rw [h.len]; omega)]
    · show (st.1.set j b)[0]? = _
      rw [List.getElem?_set_ne (by have := hjm.1; omega)]; exact h.first
    · show (st.1.set j b)[n-1]? = _
      rw [List.getElem?_set_ne (by have := hjm.2; omega)]; exact h.last

theorem removeLoop_spec (mt : SegmentMetric E) (segment n : Nat) (hn : n ≤ 32)
    (h0 : (0 : E) < ⊤) (hfin : ∀ p q i j, mt.boneError p q i j < ⊤) (k : Nat)
    (es : List (KeyframeMeta E)) (st) (h : RemovalInv mt segment n es st) (hl : es.length + k = n - 2) :
    ∃ es' st', removeLoop mt segment n k (es.length + 1) st = some st' ∧
      RemovalInv mt segment n es' st' ∧ es'.length = n - 2 := by
  induction k generalizing es st with
  | zero => exact ⟨es, st, rfl, h, by omega⟩
  | succ k ih =>
    obtain ⟨e, st1, e1, h1⟩ := removeOne_spec mt segment n hn h0 hfin es st h (by omega)
    obtain ⟨es', st', e2, h2, h3⟩ := ih (es ++ [e]) st1 h1 (by simp; omega)
    refine ⟨es', st', ?_, h2, h3⟩
    simp only [removeLoop, e1, Option.bind_eq_bind, Option.bind_some]
    rw [← e2]; simp

/-! Sorting -/

theorem sorted_split {A B L : List (KeyframeMeta E)} (hp : L.Perm (A ++ B))
    (hs : L.Pairwise (fun a b => a.strippingIndex ≤ b.strippingIndex))
    (hA : A.Pairwise (fun a b => a.strippingIndex < b.strippingIndex))
    (hB : ∀ a ∈ A, ∀ b ∈ B, a.strippingIndex < b.strippingIndex) :
    ∃ B', L = A ++ B' ∧ B'.Perm B := by
  induction A generalizing L with
  | nil => exact ⟨L, rfl, by simpa using hp⟩
  | cons a A ih =>
    cases L with
    | nil => have := hp.length_eq; simp at this
    | cons x L =>
      rw [List.pairwise_cons] at hs hA
      have hx : x = a := by
        have hxm : x ∈ a :: (A ++ B) := hp.subset List.mem_cons_self
        have ham : a ∈ x :: L := hp.symm.subset (by simp)
        rcases List.mem_cons.1 ham with h | h
        · exact h.symm
        · have hle := hs.1 a h
          rcases List.mem_cons.1 hxm with h2 | h2
          · exact h2
          · have : a.strippingIndex < x.strippingIndex := by
              rcases List.mem_append.1 h2 with h3 | h3
              · exact hA.1 x h3
              · exact hB a List.mem_cons_self x h3
            omega
      subst hx
      obtain ⟨B', e, hp'⟩ := ih (List.Perm.cons_inv hp) hs.2 hA.2
        (fun a ha b hb => hB a (List.mem_cons_of_mem _ ha) b hb)
      exact ⟨B', by rw [e]; rfl, hp'⟩

end Acl
