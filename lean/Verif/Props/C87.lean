import Verif.Memory.CompressScalar
/-!
# C87: what compressing scalar tracks does with the memory of the allocator

Model: Verif/Memory/CompressScalar.lean. The allocator is the contract of iallocator.h (Verif/Memory/Heap.lean): a block is given back with the size it
was asked for; `live` are the blocks not given back, `wrong` the calls that give back something that is not a live block of that size.
-/
namespace Acl.C87
open Acl.Mem

/-- Specification: a clip that loops is stored without its last sample. -/
def Looped (optimizeLoops : Bool) (x : ScalarList) : Prop :=
  optimizeLoops = true ∧ x.wraps = false ∧ 2 ≤ x.numSamples ∧ x.outputs ≠ [] ∧ x.lastIsFirst = true

instance (o : Bool) (x : ScalarList) : Decidable (Looped o x) := by unfold Looped; infer_instance

def footTrack (t : OwnedTrack) : Blocks := optBlock t.data t.dataSize

def footArray (sz : ScalarSizes) (a : OwnedArray) : Blocks :=
  match a.ptr with
  | none => 0
  | some p => {(p, sz.track * a.tracks.length)} + (a.tracks.map footTrack).sum

/-- What the context owns besides its tracks. -/
def footRest (sz : ScalarSizes) (c : ScalarContext) : Blocks :=
  optBlock c.ranges (sz.range * c.numTracks) + optBlock c.constant (4 * Acl.bitsetSize c.numTracks) +
    optBlock c.bitRates (sz.bitRate * c.numTracks) + optBlock c.outputs (4 * c.numOutputs)

theorem own_fill (sz : ScalarSizes) (n samples : Nat) : Own 0 (fillArray sz n samples) (fun a F => F = footArray sz a) := by
  unfold fillArray newArray
  simp only [bind_assoc, pure_bind]
  refine own_step 0 (own_alloc (sz.track * n)) (by simp) ?_
  rintro p G rfl
  refine own_step {(p, sz.track * n)} (P1 := ((List.replicate n OwnedTrack.empty).map footTrack).sum)
    (own_mapM (pre := footTrack) (post := footTrack) (Q := fun _ _ => True) _ ?_) ?_ ?_
  · intro t ht
    rw [List.mem_replicate] at ht
    obtain ⟨-, rfl⟩ := ht
    unfold assignTrack newTrack
    simp only [bind_assoc, pure_bind]
    refine own_step 0 (own_alloc (samples * sz.vector)) (by simp [footTrack, OwnedTrack.empty, optBlock]) ?_
    rintro q G rfl
    refine own_step {(q, samples * sz.vector)} (own_freeArray none 0) (by simp [optBlock]) ?_
    rintro _ G rfl
    exact own_pure (by simp [footTrack, optBlock])
  · have : ∀ k, ((List.replicate k OwnedTrack.empty).map footTrack).sum = 0 := by
      intro k
      induction k with
      | zero => rfl
      | succ k ih => rw [List.replicate_succ, List.map_cons, List.sum_cons, ih]; rfl
    rw [this]
    simp
  · rintro ts G ⟨rfl, hl⟩
    refine own_pure ?_
    have hlen := hl.length_eq
    rw [List.length_replicate] at hlen
    simp only [footArray]
    rw [← hlen, add_comm]

theorem own_destroyArray (sz : ScalarSizes) (a : OwnedArray) : Own (footArray sz a) (a.destroy sz) (fun _ F => F = 0) := by
  obtain ⟨p, tracks⟩ := a
  cases p with
  | none => exact own_pure rfl
  | some p =>
    unfold OwnedArray.destroy footArray
    dsimp only
    refine own_step {(p, sz.track * tracks.length)}
      (own_mapM (pre := footTrack) (post := fun _ => 0) (Q := fun _ _ => True) tracks
        (fun t _ => own_weaken (own_freeArray t.data t.dataSize) (by rintro _ F rfl; exact ⟨rfl, trivial⟩)))
      (add_comm _ _) ?_
    rintro us G ⟨rfl, -⟩
    have : ∀ us : List Unit, (us.map fun _ => (0 : Blocks)).sum = 0 := by
      intro us
      induction us with
      | nil => rfl
      | cons u us ih => rw [List.map_cons, List.sum_cons, ih]; rfl
    rw [this, zero_add]
    exact own_free p _

theorem own_destroy (sz : ScalarSizes) (c : ScalarContext) :
    Own (footRest sz c + footArray sz c.tracks) (c.destroy sz) (fun _ F => F = 0) := by
  unfold ScalarContext.destroy footRest
  refine own_step _ (own_freeArray c.ranges _) (by rw [add_assoc, add_assoc, add_assoc]) ?_
  rintro _ G rfl
  refine own_step _ (own_freeArray c.constant _) (by rw [zero_add]) ?_
  rintro _ G rfl
  refine own_step _ (own_freeArray c.bitRates _) (by rw [zero_add]) ?_
  rintro _ G rfl
  refine own_step _ (own_freeArray c.outputs _) (by rw [zero_add]) ?_
  rintro _ G rfl
  exact own_cast (own_destroyArray sz c.tracks) (by rw [zero_add])

/-- What looping leaves: the same context, with a sample less when the clip loops. -/
def LoopSpec (o l : Bool) (c d : ScalarContext) : Prop :=
  d.ranges = c.ranges ∧ d.constant = c.constant ∧ d.bitRates = c.bitRates ∧ d.outputs = c.outputs ∧ d.numTracks = c.numTracks ∧
    d.numOutputs = c.numOutputs ∧
    (if o = true ∧ c.wraps = false ∧ 2 ≤ c.numSamples ∧ c.numTracks ≠ 0 ∧ l = true then d.numSamples = c.numSamples - 1 ∧ d.wraps = true
      else d.numSamples = c.numSamples ∧ d.wraps = c.wraps)

theorem own_loop (sz : ScalarSizes) (o l : Bool) (c : ScalarContext) :
    Own (footArray sz c.tracks) (loopScalar sz o l c) (fun d F => F = footArray sz d.tracks ∧ LoopSpec o l c d) := by
  unfold loopScalar LoopSpec
  split
  · rename_i h
    refine own_pure ⟨rfl, rfl, rfl, rfl, rfl, rfl, rfl, ?_⟩
    rw [if_neg (by simp at h; simp [h])]
    exact ⟨rfl, rfl⟩
  · rename_i h
    split
    · rename_i h1
      refine own_pure ⟨rfl, rfl, rfl, rfl, rfl, rfl, rfl, ?_⟩
      rw [if_neg (by simp [h1])]
      exact ⟨rfl, rfl⟩
    · rename_i h1
      split
      · rename_i h2
        refine own_pure ⟨rfl, rfl, rfl, rfl, rfl, rfl, rfl, ?_⟩
        rw [if_neg (by omega)]
        exact ⟨rfl, rfl⟩
      · rename_i h2
        split
        · rename_i h3
          refine own_pure ⟨rfl, rfl, rfl, rfl, rfl, rfl, rfl, ?_⟩
          rw [if_neg (by simp [h3])]
          exact ⟨rfl, rfl⟩
        · rename_i h3
          split
          · rename_i h4
            refine own_pure ⟨rfl, rfl, rfl, rfl, rfl, rfl, rfl, ?_⟩
            rw [if_neg (by simp at h4; simp [h4])]
            exact ⟨rfl, rfl⟩
          · rename_i h4
            refine own_step _ (own_fill sz c.numTracks (c.numSamples - 1)) (zero_add _).symm ?_
            rintro w G rfl
            refine own_step _ (own_destroyArray sz c.tracks) (add_comm _ _) ?_
            rintro _ G rfl
            refine own_pure ⟨zero_add _, rfl, rfl, rfl, rfl, rfl, rfl, ?_⟩
            rw [if_pos (by simp at h h1 h4; exact ⟨h, h1, by omega, h3, h4⟩)]
            exact ⟨rfl, rfl⟩

theorem own_compress (sz : ScalarSizes) (o : Bool) (x : ScalarList) (hv : x.valid = true) :
    Own 0 (compressScalar sz o x) (fun r F =>
      if x.finite then
        ∃ p, F = {(p, x.bufferSize)} ∧
          r = .done p (if x.numOutputs = 0 then 0 else if Looped o x then x.numSamples - 1 else x.numSamples) (x.wraps || decide (Looped o x))
      else F = 0 ∧ r = .notFinite) := by
  unfold compressScalar initScalar
  rw [hv]
  simp only [Bool.not_true, Bool.false_eq_true, if_false, bind_assoc, pure_bind]
  refine own_step 0 (own_fill sz x.outputs.length x.numSamples) (by simp) ?_
  rintro a G rfl
  rw [add_zero]
  refine own_step (footArray sz a) (own_alloc (4 * x.numOutputs)) (zero_add _).symm ?_
  rintro q G rfl
  generalize hc : (⟨a, none, none, none, some q, x.outputs.length, x.numOutputs, x.numSamples, x.wraps⟩ : ScalarContext) = c
  have hrest : ({(q, 4 * x.numOutputs)} : Blocks) = footRest sz c := by subst hc; simp [footRest, optBlock]
  have htr : footArray sz a = footArray sz c.tracks := by subst hc; rfl
  rw [hrest, htr]
  cases hf : x.finite with
  | false =>
    simp only [Bool.not_false, if_true, Bool.false_eq_true, if_false]
    refine own_step 0 (own_destroy sz c) (by simp) ?_
    rintro _ G rfl
    exact own_pure ⟨by simp, rfl⟩
  | true =>
    simp only [Bool.not_true, Bool.false_eq_true, if_false, if_true]
    refine own_step (footRest sz c) (own_loop sz o x.lastIsFirst c) (add_comm _ _) ?_
    rintro d G ⟨rfl, h1, h2, h3, h4, h5, h6, h7⟩
    unfold extractRanges extractConstant quantizeTracks
    simp only [bind_assoc, pure_bind]
    refine own_step (footArray sz d.tracks + footRest sz c) (own_alloc (sz.range * d.numTracks)) (zero_add _).symm ?_
    rintro p1 G rfl
    refine own_step _ (own_alloc (4 * Acl.bitsetSize d.numTracks)) (zero_add _).symm ?_
    rintro p2 G rfl
    refine own_step _ (own_alloc (sz.bitRate * d.numTracks)) (zero_add _).symm ?_
    rintro p3 G rfl
    refine own_step _ (own_alloc x.bufferSize) (zero_add _).symm ?_
    rintro p G rfl
    generalize he : (⟨d.tracks, some p1, some p2, some p3, d.outputs, d.numTracks, d.numOutputs, d.numSamples, d.wraps⟩ : ScalarContext) = e
    refine own_step {(p, x.bufferSize)} (own_destroy sz e) ?_ ?_
    · subst he hc
      simp only [footRest, optBlock] at *
      rw [h4, h6]
      simp only [zero_add]
      abel
    · rintro _ G rfl
      refine own_pure ⟨p, by simp, ?_⟩
      subst he hc
      dsimp only at *
      rw [h6]
      by_cases hL : Looped o x
      · have hL' := hL
        unfold Looped at hL'
        rw [if_pos (by simpa using hL')] at h7
        simp [h7.1, h7.2, hL]
      · have hL' := hL
        unfold Looped at hL'
        rw [if_neg (by simpa using hL')] at h7
        simp [h7.1, h7.2, hL]

/-- When the track list is not valid, nothing is allocated. -/
theorem C87_invalid (sz : ScalarSizes) (o : Bool) (x : ScalarList) (hv : x.valid = false) (h : Heap) :
    compressScalar sz o x h = (.invalid, h) := by
  unfold compressScalar
  rw [hv]
  rfl

/-- When samples are not finite there is no result, and everything that was allocated was given back, with the size it was asked for. -/
theorem C87_not_finite (sz : ScalarSizes) (o : Bool) (x : ScalarList) (hv : x.valid = true) (hf : x.finite = false) (h : Heap) (ok : h.Ok) :
    (compressScalar sz o x h).1 = .notFinite ∧ (compressScalar sz o x h).2.live = h.live ∧ (compressScalar sz o x h).2.wrong = h.wrong := by
  obtain ⟨F, q, l, w, -⟩ := own_compress sz o x hv h h.live ok (zero_add _).symm
  rw [hf] at q
  obtain ⟨rfl, hr⟩ := q
  exact ⟨hr, by rw [l, zero_add], w⟩

/-- Otherwise there is a result, and it is all that is left of the memory that was used. Its header has a sample less, and the wrap flag, when the clip
loops and loops are to be optimized; no sample when every track is stripped. -/
theorem C87_done (sz : ScalarSizes) (o : Bool) (x : ScalarList) (hv : x.valid = true) (hf : x.finite = true) (h : Heap) (ok : h.Ok) :
    ∃ p, (compressScalar sz o x h).1 =
        .done p (if x.numOutputs = 0 then 0 else if Looped o x then x.numSamples - 1 else x.numSamples) (x.wraps || decide (Looped o x)) ∧
      (compressScalar sz o x h).2.live = (p, x.bufferSize) ::ₘ h.live ∧ (compressScalar sz o x h).2.wrong = h.wrong := by
  obtain ⟨F, q, l, w, -⟩ := own_compress sz o x hv h h.live ok (zero_add _).symm
  rw [hf, if_pos rfl] at q
  obtain ⟨p, rfl, hr⟩ := q
  exact ⟨p, hr, by rw [l, Multiset.singleton_add], w⟩

/-- The number of tracks in the result is the number of tracks with an output index. -/
theorem C87_outputs (x : ScalarList) : x.numOutputs = (x.outputs.filter (·.isSome)).length := by
  unfold ScalarList.numOutputs
  rw [← List.countP_eq_length_filter]
  have := List.length_eq_countP_add_countP (fun o : Option Nat => o.isNone) (l := x.outputs)
  have e : x.outputs.countP (fun o => !o.isNone) = x.outputs.countP (·.isSome) := by congr 1; funext o; cases o <;> rfl
  simp only [Bool.not_eq_true, Bool.decide_eq_false] at this
  rw [e] at this
  omega

/-- A concrete case: three tracks of which one is stripped, five samples, the last like the first. -/
example : (compressScalar ⟨64, 16, 32, 3⟩ true ⟨true, [some 1, none, some 0], 5, true, false, true, 200⟩ ⟨0, 0, 0⟩).1 = .done 12 4 true := by
  decide +kernel
example : Heap.Ok ⟨0, 0, 0⟩ ∧ Looped true ⟨true, [some 1, none, some 0], 5, true, false, true, 200⟩ := by
  refine ⟨⟨by simp, by simp⟩, by decide⟩

end Acl.C87
