import Verif.Props.C23
import Verif.Transform.ClipContext
/-
The frames of a segment in a tier, and the bit set that says which they are.
-/
namespace Acl.Rewrite
open Acl.Tiers Acl.Chunks Acl.C22 Acl.Transform

variable {E : Type}

theorem frames_sorted {tier : List (Frame E)} (hs : tier.Pairwise Before) (k g : Nat) :
    (tier.filter (isFrameOf k g)).Pairwise fun a b => a.segmentFrameIndex < b.segmentFrameIndex := by
  have h := hs.filter (isFrameOf k g)
  refine h.imp_of_mem ?_
  intro a b ha hb hab
  have e1 := (List.mem_filter.1 ha).2
  have e2 := (List.mem_filter.1 hb).2
  unfold isFrameOf at e1 e2
  simp only [Bool.and_eq_true, beq_iff_eq] at e1 e2
  unfold Before at hab
  omega

/-- The bit set of the frames. -/
structure IsMask (frames : List (Frame E)) (w : BitVec 32) : Prop where
  sorted : frames.Pairwise fun a b => a.segmentFrameIndex < b.segmentFrameIndex
  small : ∀ f ∈ frames, f.segmentFrameIndex < 32
  bits : ∀ i, i < 32 → (w.getMsbD i = true ↔ ∃ f ∈ frames, f.segmentFrameIndex = i)

theorem mask_exists (frames : List (Frame E)) (hs : frames.Pairwise fun a b => a.segmentFrameIndex < b.segmentFrameIndex)
    (h32 : ∀ f ∈ frames, f.segmentFrameIndex < 32) : ∃ w, sampleIndices frames [0#32] = some [w] ∧ IsMask frames w := by
  obtain ⟨r, e, hl, hr⟩ := C23.sampleIndices_spec frames [0#32] rfl h32
  obtain ⟨w, rfl⟩ : ∃ w, r = [w] := by
    cases r with
    | nil => simp at hl
    | cons w rest =>
      cases rest with
      | nil => exact ⟨w, rfl⟩
      | cons _ _ => simp at hl
  refine ⟨w, e, hs, h32, ?_⟩
  intro i hi
  obtain ⟨b, b0, h1, h2, h3⟩ := hr i hi
  rw [bitsetTest_eq _ _ (by simp; omega)] at h1 h2
  injection h1 with h1
  injection h2 with h2
  unfold bsBit at h1 h2
  rw [Nat.div_eq_of_lt hi, Nat.mod_eq_of_lt hi] at h1 h2
  have h1' : w.getMsbD i = b := by rw [Seek.msb_eq _ _ hi]; exact h1
  have h2' : b0 = false := by rw [← h2]; simp
  rw [h1', h3, h2']
  simp

theorem IsMask.list {frames : List (Frame E)} {w : BitVec 32} (h : IsMask frames w) :
    frames.map (·.segmentFrameIndex) = (List.range 32).filter fun i => w.getMsbD i := by
  have p1 : (frames.map (·.segmentFrameIndex)).Pairwise (· < ·) := List.pairwise_map.2 h.sorted
  have p2 : ((List.range 32).filter fun i => w.getMsbD i).Pairwise (· < ·) := List.pairwise_lt_range.filter _
  refine List.Perm.eq_of_pairwise (le := (· < ·)) (fun a b _ _ h1 h2 => by omega) p1 p2 ?_
  refine (List.perm_ext_iff_of_nodup (p1.imp fun h => by omega) (p2.imp fun h => by omega)).2 ?_
  intro i
  rw [List.mem_map, List.mem_filter, List.mem_range]
  constructor
  · rintro ⟨f, hf, rfl⟩
    exact ⟨h.small f hf, (h.bits _ (h.small f hf)).2 ⟨f, hf, rfl⟩⟩
  · rintro ⟨h1, h2⟩
    exact (h.bits i h1).1 h2

theorem IsMask.length {frames : List (Frame E)} {w : BitVec 32} (h : IsMask frames w) : frames.length = (countSetBits32 w).toNat := by
  have := congrArg List.length h.list
  rw [List.length_map] at this
  rw [this, popCount_prefix w 32 (by omega) fun k hk => by simp [BitVec.getMsbD]; omega]

/-- Frame `i` is at the number of frames before it. -/
theorem IsMask.position {frames : List (Frame E)} {w : BitVec 32} (h : IsMask frames w) {i : Nat} (hi : w.getMsbD i = true) :
    ∃ f, frames[(List.range i).countP fun j => w.getMsbD j]? = some f ∧ f.segmentFrameIndex = i := by
  have h32 : i < 32 := by
    by_contra hn
    simp [BitVec.getMsbD, hn] at hi
  have := filter_get (fun i => w.getMsbD i) (List.range 32) i i (List.getElem?_range h32) hi
  rw [List.take_range, Nat.min_eq_left (by omega), ← h.list, List.getElem?_map, Option.map_eq_some_iff, ← List.countP_eq_length_filter] at this
  exact this

end Acl.Rewrite
