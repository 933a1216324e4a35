import Verif.Transform.ContributingErrorLemmas
namespace Acl
variable {E : Type} [LinearOrder E] [OrderTop E] [Zero E]

/-- The boundary entries of a segment. -/
def boundaryEntries (segment n : Nat) : List (KeyframeMeta E) :=
  if n = 1 then [⟨0, segment, u32Max, ⊤, false⟩]
  else [⟨0, segment, u32Max, ⊤, false⟩, ⟨n-1, segment, u32Max, ⊤, false⟩]

theorem retains_init : Retains [0xFFFFFFFF#32] [] := by
  refine ⟨rfl, fun j hj => ?_⟩
  simp only [List.not_mem_nil, not_false_eq_true, iff_true]
  unfold bsBit
  have : j / 32 = 0 := by omega
  rw [this]
  show (4294967295#32 : BitVec 32).getLsbD (31 - j % 32) = true
  have h2 : (4294967295#32 : BitVec 32) = BitVec.allOnes 32 := by decide
  rw [h2, BitVec.getLsbD_allOnes]
  simp; omega

theorem unsorted_spec (mt : SegmentMetric E) (segment n : Nat) (hn1 : 1 ≤ n) (hn : n ≤ 32)
    (h0 : (0 : E) < ⊤) (hfin : ∀ p q i j, mt.boneError p q i j < ⊤)
    (garbage : List (KeyframeMeta E)) (hg : garbage.length = 32) :
    ∃ a es, contributingErrorUnsorted mt segment n garbage = some a ∧
      a.Perm (es ++ boundaryEntries segment n) ∧ es.length = n - 2 ∧
      (es.map (·.keyframeIndex)).Perm ((List.range (n-2)).map (· + 1)) ∧
      (∀ e ∈ es, e.segmentIndex = segment) ∧
      (∀ (i : Nat) (e : KeyframeMeta E), es[i]? = some e → e.strippingIndex = i) ∧
      (∀ (i : Nat) (e : KeyframeMeta E), es[i]? = some e →
        EntryGood mt n ((es.take i).map (·.keyframeIndex)) e) := by
  have hinit : RemovalInv mt segment n []
      (((garbage.set 0 ⟨0, segment, u32Max, ⊤, false⟩).set (n-1) ⟨n-1, segment, u32Max, ⊤, false⟩),
        [0xFFFFFFFF#32]) := by
    constructor
    · simpa using hg
    · exact retains_init
    · simp
    · simp
    · simp
    · simp
    · simp
    · show (List.set _ (n-1) _)[0]? = _
      by_cases h : n - 1 = 0
      · rw [h]; rw [List.getElem?_set_self (by simp; omega)]
      · rw [List.getElem?_set_ne h, List.getElem?_set_self (by omega)]
    · show (List.set _ (n-1) _)[n-1]? = _
      rw [List.getElem?_set_self (by simp; omega)]
  obtain ⟨es, st, e, hI, hl⟩ := removeLoop_spec mt segment n hn h0 hfin (n-2) [] _ hinit (by simp)
  have hkp : (es.map (·.keyframeIndex)).Perm ((List.range (n-2)).map (· + 1)) := by
    apply nodup_movable_length hI.nodup hI.movable
    have hsub : es.map (·.keyframeIndex) ⊆ (List.range (n-2)).map (· + 1) := by
      intro k hk
      have := hI.movable k hk
      exact List.mem_map.2 ⟨k - 1, by rw [List.mem_range]; unfold Movable at this; omega,
        by unfold Movable at this; omega⟩
    have hperm : (es.map (·.keyframeIndex)).Perm ((List.range (n-2)).map (· + 1)) :=
      (List.subperm_of_subset hI.nodup hsub).perm_of_length_le (by simp [hl])
    intro k hk
    apply hperm.symm.subset
    exact List.mem_map.2 ⟨k - 1, by rw [List.mem_range]; unfold Movable at hk; omega,
        by unfold Movable at hk; omega⟩
  refine ⟨st.1.take n, es, ?_, ?_, hl, hkp, hI.seg, hI.idx, hI.good⟩
  · unfold contributingErrorUnsorted storeEntry
    rw [if_neg (by omega), if_pos (by omega)]
    simp only [Option.bind_eq_bind, Option.bind_some]
    rw [if_pos (by simp; omega)]
    simp only [Option.bind_some]
    simp only [List.length_nil, Nat.zero_add] at e
    rw [e, Option.bind_some]
  · -- the array, indexed by key frame, is a permutation of the entries
    let f : Nat → KeyframeMeta E := fun i => st.1.getD i ⟨0, 0, 0, ⊤, false⟩
    have hlen := hI.len
    have htake : st.1.take n = (List.range n).map f := by
      apply List.ext_getElem?
      intro i
      rw [List.getElem?_take, List.getElem?_map]
      by_cases hi : i < n
      · rw [if_pos hi, List.getElem?_range hi, Option.map_some]
        show _ = some (st.1.getD i _)
        rw [List.getD_eq_getElem?_getD, List.getElem?_eq_getElem (by omega)]; simp
      · rw [if_neg hi, List.getElem?_eq_none (by simp; omega)]; rfl
    have hes : es = (es.map (·.keyframeIndex)).map f := by
      rw [List.map_map]
      conv_lhs => rw [← List.map_id es]
      apply List.map_congr_left
      intro x hx
      show x = st.1.getD x.keyframeIndex _
      rw [List.getD_eq_getElem?_getD, hI.stored x hx]; rfl
    have hf0 : f 0 = ⟨0, segment, u32Max, ⊤, false⟩ := by
      show st.1.getD 0 _ = _
      rw [List.getD_eq_getElem?_getD, hI.first]; rfl
    have hfl : f (n-1) = ⟨n-1, segment, u32Max, ⊤, false⟩ := by
      show st.1.getD (n-1) _ = _
      rw [List.getD_eq_getElem?_getD, hI.last]; rfl
    have hbound : boundaryEntries segment n = (if n = 1 then [0] else [0, n-1]).map f := by
      unfold boundaryEntries
      split
      · simp [hf0]
      · simp [hf0, hfl]
    rw [htake, hbound]
    rw [hes, ← List.map_append]
    apply List.Perm.map
    refine List.Perm.trans ?_ (List.Perm.append_right _ hkp.symm)
    rw [List.perm_ext_iff_of_nodup List.nodup_range]
    · intro a
      rw [List.mem_range, List.mem_append, List.mem_map]
      constructor
      · intro ha
        by_cases hm : 0 < a ∧ a < n - 1
        · left; exact ⟨a - 1, by rw [List.mem_range]; omega, by omega⟩
        · right; split
          · simp; omega
          · simp; omega
      · rintro (⟨b, hb, rfl⟩ | hb)
        · rw [List.mem_range] at hb; omega
        · split at hb
          · simp at hb; omega
          · simp at hb; omega
    · rw [List.nodup_append]
      refine ⟨List.Nodup.map (fun a b h => by simpa using h) List.nodup_range, ?_, ?_⟩
      · split
        · simp
        · simp; omega
      · intro a ha b hb hab
        subst hab
        obtain ⟨c, hc, rfl⟩ := List.mem_map.1 ha
        rw [List.mem_range] at hc
        split at hb
        · simp at hb
        · simp at hb; omega

theorem boundaryEntries_length (segment n : Nat) (hn : 1 ≤ n) :
    (boundaryEntries (E := E) segment n).length = n - (n-2) := by
  unfold boundaryEntries; split <;> simp <;> omega

theorem segmentOrder_spec (mt : SegmentMetric E) (segment n : Nat) (hn1 : 1 ≤ n) (hn : n ≤ 32)
    (h0 : (0 : E) < ⊤) (hfin : ∀ p q i j, mt.boneError p q i j < ⊤)
    (garbage : List (KeyframeMeta E)) (hg : garbage.length = 32) :
    ∃ a, contributingErrorUnsorted mt segment n garbage = some a ∧
      ∀ L, SortedByStripping a L → IsSegmentOrder mt segment n L := by
  obtain ⟨a, es, e, hp, hl, hk, hseg, hidx, hgood⟩ :=
    unsorted_spec mt segment n hn1 hn h0 hfin garbage hg
  refine ⟨a, e, ?_⟩
  rintro L ⟨hLp, hLs⟩
  have hBm : ∀ b ∈ boundaryEntries (E := E) segment n, b.strippingIndex = u32Max ∧ b.strippingError = ⊤ ∧
      b.isTrivial = false ∧ b.segmentIndex = segment ∧ ¬ Movable n b.keyframeIndex := by
    intro b hb
    unfold boundaryEntries at hb
    split at hb
    · rw [List.mem_singleton] at hb; subst hb
      exact ⟨rfl, rfl, rfl, rfl, fun h => by have := h.1; simp at this⟩
    · rw [List.mem_cons, List.mem_singleton] at hb
      rcases hb with rfl | rfl
      · exact ⟨rfl, rfl, rfl, rfl, fun h => by have := h.1; simp at this⟩
      · exact ⟨rfl, rfl, rfl, rfl, fun h => by have := h.2; simp at this; omega⟩
  have hAidx : ∀ x ∈ es, x.strippingIndex < u32Max := by
    intro x hx
    obtain ⟨i, hi⟩ := List.mem_iff_getElem?.1 hx
    rw [hidx i x hi]
    have : i < es.length := by
      by_contra hc; rw [List.getElem?_eq_none (by omega)] at hi; simp at hi
    unfold u32Max; omega
  obtain ⟨B', rfl, hB'⟩ := sorted_split (hLp.trans hp) hLs
    (by
      rw [List.pairwise_iff_getElem]
      intro i j hi hj hij
      rw [hidx i _ (List.getElem?_eq_getElem hi), hidx j _ (List.getElem?_eq_getElem hj)]; exact hij)
    (fun x hx b hb => by rw [(hBm b hb).1]; exact hAidx x hx)
  constructor
  · rw [List.map_append]
    refine List.Perm.trans (List.Perm.append hk (hB'.map _)) ?_
    refine List.Perm.symm ?_
    rw [List.perm_ext_iff_of_nodup List.nodup_range]
    · intro x
      rw [List.mem_range, List.mem_append, List.mem_map, List.mem_map]
      unfold boundaryEntries
      constructor
      · intro ha
        by_cases hm : 0 < x ∧ x < n - 1
        · left; exact ⟨x - 1, by rw [List.mem_range]; omega, by omega⟩
        · right; split
          · exact ⟨_, List.mem_singleton.2 rfl, by simp; omega⟩
          · by_cases hx0 : x = 0
            · exact ⟨_, List.mem_cons_self, hx0.symm⟩
            · exact ⟨_, List.mem_cons_of_mem _ (List.mem_singleton.2 rfl), by simp; omega⟩
      · rintro (⟨b, hb, rfl⟩ | ⟨b, hb, rfl⟩)
        · rw [List.mem_range] at hb; omega
        · split at hb
          · rw [List.mem_singleton] at hb; subst hb; simp; omega
          · rw [List.mem_cons, List.mem_singleton] at hb
            rcases hb with rfl | rfl
            · simp; omega
            · simp; omega
    · rw [List.nodup_append]
      refine ⟨List.Nodup.map (fun a b h => by simpa using h) List.nodup_range, ?_, ?_⟩
      · unfold boundaryEntries; split
        · simp
        · simp; omega
      · intro a ha b hb hab
        subst hab
        obtain ⟨c, hc, rfl⟩ := List.mem_map.1 ha
        rw [List.mem_range] at hc
        obtain ⟨x, hx, hxe⟩ := List.mem_map.1 hb
        exact (hBm x hx).2.2.2.2 (by rw [hxe]; exact ⟨by omega, by omega⟩)
  · intro x hx
    rcases List.mem_append.1 hx with h | h
    · exact hseg x h
    · exact (hBm x (hB'.subset h)).2.2.2.1
  · intro i x hi hx
    rw [List.getElem?_append_left (by omega)] at hx
    rw [List.take_append_of_le_length (by omega)]
    obtain ⟨g1, g2, g3, g4, g5⟩ := hgood i x hx
    exact ⟨g1, hidx i x hx, g2, g3, g4, g5⟩
  · intro i x hi hx
    rw [List.getElem?_append_right (by omega)] at hx
    have := hBm x (hB'.subset (List.mem_iff_getElem?.2 ⟨_, hx⟩))
    exact ⟨this.2.2.2.2, this.2.1, this.2.2.1⟩

/-! The merge of the segments -/

/-- Number of entries of `out` which come from segment `s`. -/
def countSeg (out : List (KeyframeMeta E)) (s : Nat) : Nat := (out.filter (fun e => e.segmentIndex == s)).length

/-- An entry of the clip order made from the entry of a segment order. -/
def relocate (offset strippingIndex : Nat) (e : KeyframeMeta E) : KeyframeMeta E :=
  ⟨e.keyframeIndex + offset, e.segmentIndex, strippingIndex, e.strippingError, e.isTrivial⟩

/-- Preconditions of the merge: what `find_contributing_error` established in every segment. -/
def SegmentsReady (segments : List (SegmentOrder E)) : Prop :=
  ∀ (s : Nat) (seg : SegmentOrder E), segments[s]? = some seg → seg.contributingError.length = seg.numSamples ∧
    ∀ e ∈ seg.contributingError, e.segmentIndex = s

theorem pickSegment_spec (segments : List (SegmentOrder E)) (hr : SegmentsReady segments)
    (counts : List Nat) (hc : counts.length = segments.length) (k s : Nat) (best : KeyframeMeta E)
    (hk : s + k ≤ segments.length) :
    ∃ b, pickSegment segments counts k s best = some b ∧
      b.strippingError ≤ best.strippingError ∧
      (∀ (t : Nat) seg e i, s ≤ t → t < s + k → segments[t]? = some seg → counts[t]? = some i →
        i < seg.numSamples → seg.contributingError[i]? = some e → b.strippingError ≤ e.strippingError) ∧
      ((b = best ∧ ∀ (t : Nat) seg i, s ≤ t → t < s + k → segments[t]? = some seg → counts[t]? = some i →
          i < seg.numSamples → best.strippingError < ⊤) ∨
        ∃ (t : Nat) (seg : SegmentOrder E) (i : Nat), s ≤ t ∧ t < s + k ∧ segments[t]? = some seg ∧ counts[t]? = some i ∧
          i < seg.numSamples ∧ seg.contributingError[i]? = some b) := by
  induction k generalizing s best with
  | zero => exact ⟨best, rfl, le_refl _, fun t _ _ _ h1 h2 => by omega, Or.inl ⟨rfl, fun t _ _ h1 h2 => by omega⟩⟩
  | succ k ih =>
    have hs : s < segments.length := by omega
    have e1 : segments[s]? = some segments[s] := List.getElem?_eq_getElem hs
    have e2 : counts[s]? = some counts[s] := List.getElem?_eq_getElem (by omega)
    unfold pickSegment
    rw [e1, Option.bind_eq_bind, Option.bind_some, e2, Option.bind_eq_bind, Option.bind_some]
    generalize hseg : segments[s] = seg at *
    generalize hcount : counts[s] = i at *
    by_cases hle : seg.numSamples ≤ i
    · rw [if_pos hle]
      obtain ⟨b, e, h1, h2, h3⟩ := ih (s+1) best (by omega)
      refine ⟨b, e, h1, ?_, ?_⟩
      · intro t seg' e' i' a1 a2 a3 a4 a5 a6
        by_cases ht : t = s
        · subst ht; rw [e1] at a3; rw [e2] at a4
          simp only [Option.some.injEq] at a3 a4; subst a3; subst a4; omega
        · exact h2 t seg' e' i' (by omega) (by omega) a3 a4 a5 a6
      · rcases h3 with ⟨h3, h4⟩ | ⟨t, seg', i', a1, a2, a3⟩
        · left; refine ⟨h3, fun t seg' i' a1 a2 a3 a4 a5 => ?_⟩
          by_cases ht : t = s
          · subst ht; rw [e1] at a3; rw [e2] at a4
            simp only [Option.some.injEq] at a3 a4; subst a3; subst a4; omega
          · exact h4 t seg' i' (by omega) (by omega) a3 a4 a5
        · right; exact ⟨t, seg', i', by omega, by omega, a3⟩
    · rw [if_neg hle]
      have hlen := (hr s seg e1).1
      have e3 : seg.contributingError[i]? = some seg.contributingError[i] := List.getElem?_eq_getElem (by omega)
      rw [e3, Option.bind_eq_bind, Option.bind_some]
      generalize hent : seg.contributingError[i] = ent at *
      by_cases hlt : ent.strippingError ≤ best.strippingError
      · rw [if_pos hlt]
        obtain ⟨b, e, h1, h2, h3⟩ := ih (s+1) ent (by omega)
        refine ⟨b, e, le_trans h1 hlt, ?_, ?_⟩
        · intro t seg' e' i' a1 a2 a3 a4 a5 a6
          by_cases ht : t = s
          · subst ht; rw [e1] at a3; rw [e2] at a4
            simp only [Option.some.injEq] at a3 a4; subst a3; subst a4
            rw [e3] at a6; simp only [Option.some.injEq] at a6; rw [← a6]; exact h1
          · exact h2 t seg' e' i' (by omega) (by omega) a3 a4 a5 a6
        · right
          rcases h3 with ⟨h3, h4⟩ | ⟨t, seg', i', a1, a2, a3⟩
          · exact ⟨s, seg, i, le_refl _, by omega, e1, e2, by omega, by rw [h3]; exact e3⟩
          · exact ⟨t, seg', i', by omega, by omega, a3⟩
      · rw [if_neg hlt]
        obtain ⟨b, e, h1, h2, h3⟩ := ih (s+1) best (by omega)
        have hbt : best.strippingError < ⊤ := by
          apply lt_of_le_of_ne le_top
          intro h; rw [h] at hlt; exact hlt le_top
        refine ⟨b, e, h1, ?_, ?_⟩
        · intro t seg' e' i' a1 a2 a3 a4 a5 a6
          by_cases ht : t = s
          · subst ht; rw [e1] at a3; rw [e2] at a4
            simp only [Option.some.injEq] at a3 a4; subst a3; subst a4
            rw [e3] at a6; simp only [Option.some.injEq] at a6; rw [← a6]
            exact le_trans h1 (le_of_not_ge hlt)
          · exact h2 t seg' e' i' (by omega) (by omega) a3 a4 a5 a6
        · rcases h3 with ⟨h3, h4⟩ | ⟨t, seg', i', a1, a2, a3⟩
          · left; exact ⟨h3, fun _ _ _ _ _ _ _ _ => hbt⟩
          · right; exact ⟨t, seg', i', by omega, by omega, a3⟩

/-- Invariant of the merge: the entries emitted from segment `s` are the first `counts[s]` ones of
its order, in order. -/
structure MergeInv (segments : List (SegmentOrder E)) (st : List Nat × List (KeyframeMeta E)) : Prop where
  len : st.1.length = segments.length
  counts : ∀ (s : Nat), s < segments.length → st.1[s]? = some (countSeg st.2 s)
  le : ∀ (s : Nat) seg, segments[s]? = some seg → countSeg st.2 s ≤ seg.numSamples
  seg : ∀ e ∈ st.2, e.segmentIndex < segments.length
  entry : ∀ (i : Nat) (e : KeyframeMeta E), st.2[i]? = some e → ∃ seg src, segments[e.segmentIndex]? = some seg ∧
    seg.contributingError[countSeg (st.2.take i) e.segmentIndex]? = some src ∧ e = relocate seg.clipSampleOffset i src
  greedy : ∀ (i : Nat) (e : KeyframeMeta E), st.2[i]? = some e → ∀ (t : Nat) seg x, segments[t]? = some seg →
    countSeg (st.2.take i) t < seg.numSamples → seg.contributingError[countSeg (st.2.take i) t]? = some x →
    e.strippingError ≤ x.strippingError

theorem countSeg_append (a b : List (KeyframeMeta E)) (s : Nat) :
    countSeg (a ++ b) s = countSeg a s + countSeg b s := by
  unfold countSeg; rw [List.filter_append, List.length_append]

theorem countSeg_sum (out : List (KeyframeMeta E)) (n : Nat) (h : ∀ e ∈ out, e.segmentIndex < n) :
    ((List.range n).map (countSeg out)).sum = out.length := by
  induction out with
  | nil =>
    have : ((List.range n).map (countSeg ([] : List (KeyframeMeta E)))).sum = 0 := by
      clear h
      induction n with
      | zero => rfl
      | succ n ih => rw [List.range_succ, List.map_append, List.sum_append, ih]; rfl
    rw [this]; rfl
  | cons e out ih =>
    have ih' := ih (fun x hx => h x (List.mem_cons_of_mem _ hx))
    have hstep : ∀ s, countSeg (e :: out) s = countSeg out s + (if s = e.segmentIndex then 1 else 0) := by
      intro s
      unfold countSeg
      rw [List.filter_cons]
      by_cases hs : s = e.segmentIndex
      · subst hs; simp
      · have : (e.segmentIndex == s) = false := by simpa using Ne.symm hs
        rw [this]; simp [hs]
    have : ∀ m, ((List.range m).map (countSeg (e :: out))).sum
        = ((List.range m).map (countSeg out)).sum + (if e.segmentIndex < m then 1 else 0) := by
      intro m
      induction m with
      | zero => simp
      | succ m ihm =>
        rw [List.range_succ, List.map_append, List.map_append, List.sum_append, List.sum_append, ihm]
        simp only [List.map_singleton, List.sum_singleton, hstep]
        split <;> split <;> split <;> omega
    rw [this n, ih', if_pos (h e List.mem_cons_self), List.length_cons]

theorem sum_lt_exists (n : Nat) (f g : Nat → Nat)
    (h : ((List.range n).map f).sum < ((List.range n).map g).sum) : ∃ s, s < n ∧ f s < g s := by
  induction n with
  | zero => simp at h
  | succ n ih =>
    rw [List.range_succ, List.map_append, List.map_append, List.sum_append, List.sum_append] at h
    simp only [List.map_singleton, List.sum_singleton] at h
    by_cases hc : f n < g n
    · exact ⟨n, by omega, hc⟩
    · obtain ⟨s, a, b⟩ := ih (by omega)
      exact ⟨s, by omega, b⟩

theorem mergeOne_spec (segments : List (SegmentOrder E)) (hr : SegmentsReady segments)
    (st : List Nat × List (KeyframeMeta E)) (h : MergeInv segments st)
    (hl : st.2.length < (segments.map (·.numSamples)).sum) :
    ∃ st', mergeOne segments st.2.length st = some st' ∧ MergeInv segments st' ∧
      ∃ e, st'.2 = st.2 ++ [e] := by
  obtain ⟨b, eb, -, hb2, hb3⟩ := pickSegment_spec segments hr st.1 h.len segments.length 0
    ⟨u32Max, 0, u32Max, ⊤, false⟩ (by omega)
  -- some segment has key frames left
  have hex : ∃ s, s < segments.length ∧ countSeg st.2 s < (segments.map (·.numSamples)).getD s 0 := by
    apply sum_lt_exists
    rw [countSeg_sum _ _ h.seg]
    have : (List.range segments.length).map (fun s => (segments.map (·.numSamples)).getD s 0) = segments.map (·.numSamples) := by
      apply List.ext_getElem?
      intro i
      rw [List.getElem?_map]
      by_cases hi : i < segments.length
      · rw [List.getElem?_range hi]; simp [hi]
      · rw [List.getElem?_eq_none (by simp; omega), List.getElem?_eq_none (by simp; omega)]; rfl
    rw [this]; exact hl
  rcases hb3 with ⟨hb3, hb4⟩ | ⟨t, seg, i, -, ht, hseg, hcnt, hi, hent⟩
  · obtain ⟨s, hs1, hs2⟩ := hex
    have := hb4 s segments[s] (countSeg st.2 s) (by omega) (by omega) (List.getElem?_eq_getElem hs1)
      (h.counts s hs1) (by simpa [hs1] using hs2)
    exact absurd this (lt_irrefl _)
  · have hbs : b.segmentIndex = t := (hr t seg hseg).2 b (List.mem_iff_getElem?.2 ⟨_, hent⟩)
    have ht' : t < segments.length := by omega
    have hi' : i = countSeg st.2 t := by
      have := h.counts t ht'; rw [hcnt] at this; simpa using this
    have hinit : MergeInv segments (st.1.set t (i + 1), st.2 ++ [relocate seg.clipSampleOffset st.2.length b]) := by
      have hcs : ∀ s, countSeg (st.2 ++ [relocate seg.clipSampleOffset st.2.length b]) s
          = countSeg st.2 s + (if s = t then 1 else 0) := by
        intro s
        rw [countSeg_append]
        congr 1
        unfold countSeg relocate
        rw [hbs]
        by_cases hst : s = t
        · subst hst; simp
        · have : (t == s) = false := by simpa using Ne.symm hst
          simp [this, hst]
      constructor
      · simpa using h.len
      · intro s hs
        show (st.1.set t (i+1))[s]? = some (countSeg (st.2 ++ _) s)
        rw [hcs]
        by_cases hst : s = t
        · subst hst; rw [List.getElem?_set_self (by rw [h.len]; exact hs), if_pos rfl, hi']
        · rw [List.getElem?_set_ne (Ne.symm hst), if_neg hst, Nat.add_zero]; exact h.counts s hs
      · intro s seg' hs
        show countSeg (st.2 ++ _) s ≤ _
        rw [hcs]
        by_cases hst : s = t
        · subst hst; rw [hseg] at hs; simp only [Option.some.injEq] at hs; subst hs; rw [if_pos rfl]; omega
        · rw [if_neg hst]; exact h.le s seg' hs
      · intro e he
        rcases List.mem_append.1 he with he | he
        · exact h.seg e he
        · rw [List.mem_singleton] at he; rw [he]; show b.segmentIndex < _; omega
      · intro j e he
        show ∃ (seg' : SegmentOrder E) (src : KeyframeMeta E), _ ∧ seg'.contributingError[countSeg ((st.2 ++ _).take j) _]? = _ ∧ _
        by_cases hj : j < st.2.length
        · change (st.2 ++ _)[j]? = _ at he
          rw [List.getElem?_append_left hj] at he
          rw [List.take_append_of_le_length (by omega)]
          exact h.entry j e he
        · change (st.2 ++ _)[j]? = _ at he
          rw [List.getElem?_append_right (by omega)] at he
          have hj2 : j = st.2.length := by
            by_contra hne
            rw [List.getElem?_eq_none (by simp; omega)] at he; simp at he
          subst hj2
          simp at he; subst he
          rw [List.take_left']
          · refine ⟨seg, b, ?_, ?_, rfl⟩
            · show segments[b.segmentIndex]? = _; rw [hbs]; exact hseg
            · show seg.contributingError[countSeg st.2 b.segmentIndex]? = _; rw [hbs, ← hi']; exact hent
          · rfl
      · intro j e he
        change (st.2 ++ _)[j]? = _ at he
        intro t' seg' x
        show segments[t']? = some seg' → countSeg ((st.2 ++ _).take j) t' < _ →
          seg'.contributingError[countSeg ((st.2 ++ _).take j) t']? = some x → _
        by_cases hj : j < st.2.length
        · rw [List.getElem?_append_left hj] at he
          rw [List.take_append_of_le_length (by omega)]
          exact h.greedy j e he t' seg' x
        · rw [List.getElem?_append_right (by omega)] at he
          have hj2 : j = st.2.length := by
            by_contra hne
            rw [List.getElem?_eq_none (by simp; omega)] at he; simp at he
          subst hj2
          simp at he; subst he
          rw [List.take_left']
          · intro a1 a2 a3
            have ht'' : t' < segments.length := by
              by_contra hc; rw [List.getElem?_eq_none (by omega)] at a1; simp at a1
            exact hb2 t' seg' x (countSeg st.2 t') (by omega) (by omega) a1 (h.counts t' ht'') a2 a3
          · rfl
    refine ⟨_, ?_, hinit, _, rfl⟩
    unfold mergeOne
    rw [eb, Option.bind_eq_bind, Option.bind_some, hbs, hseg, Option.bind_eq_bind, Option.bind_some, hcnt,
      Option.bind_eq_bind, Option.bind_some]
    unfold relocate; rw [hbs]

theorem mergeLoop_spec (segments : List (SegmentOrder E)) (hr : SegmentsReady segments) (k : Nat)
    (st : List Nat × List (KeyframeMeta E)) (h : MergeInv segments st)
    (hl : st.2.length + k ≤ (segments.map (·.numSamples)).sum) :
    ∃ st', mergeLoop segments k st.2.length st = some st' ∧ MergeInv segments st' ∧
      st'.2.length = st.2.length + k := by
  induction k generalizing st with
  | zero => exact ⟨st, rfl, h, rfl⟩
  | succ k ih =>
    obtain ⟨st1, e1, h1, e, he⟩ := mergeOne_spec segments hr st h (by omega)
    have hlen : st1.2.length = st.2.length + 1 := by rw [he]; simp
    obtain ⟨st2, e2, h2, h3⟩ := ih st1 h1 (by omega)
    refine ⟨st2, ?_, h2, by omega⟩
    simp only [mergeLoop, e1, Option.bind_eq_bind, Option.bind_some]
    rw [← hlen]; exact e2

theorem sortContributingError_spec (segments : List (SegmentOrder E)) (hr : SegmentsReady segments)
    (n : Nat) (hn : n = (segments.map (·.numSamples)).sum) :
    ∃ out counts, sortContributingError segments n = some out ∧ MergeInv segments (counts, out) ∧ out.length = n := by
  have hinit : MergeInv segments (segments.map (fun _ => 0), []) := by
    constructor
    · simp
    · intro s hs; simp [hs, countSeg]
    · intro s seg _; simp [countSeg]
    · simp
    · simp
    · simp
  obtain ⟨st, e, h, hl⟩ := mergeLoop_spec segments hr n _ hinit (by simp [hn])
  refine ⟨st.2, st.1, ?_, h, by simpa using hl⟩
  unfold sortContributingError
  change mergeLoop segments n 0 _ = _ at e
  rw [e]; rfl

end Acl
