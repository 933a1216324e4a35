import Verif.Layout.Clip
import Verif.Layout.MetadataReads
/-
The bytes a clip is made of, piece by piece (for Props/C32.lean).
-/
namespace Acl.Clip
open Acl.Headers
open Acl.DbBuffer (store_flatten)
open Acl.Meta (pad4 pad4_length alignUp4 flatten_split zeros_flatten words_length rawBuffer load32_words)

/-- The writers agree on the sizes: formats take one byte per variable sub-track, ranges six bytes when there are several
segments (normalize.transform.h:411-439). -/
structure Consistent (x : Input) : Prop where
  formats : ∀ s ∈ x.segments, s.formats.length = x.numVariable
  ranges : ∀ s ∈ x.segments, s.ranges.length = if x.segments.length > 1 then 6 * x.numVariable else 0
  clipRanges : x.clipRanges.length ≤ x.clipRangeSize

/-- Zeros up to a multiple of two. -/
def pad2 (n : Nat) : Bytes := List.replicate (n % 2) 0#8

theorem alignUp2 (n : Nat) : alignUp n 2 = n + n % 2 := by unfold alignUp; omega

theorem pad2_length (n : Nat) : (pad2 n).length = n % 2 := by unfold pad2; rw [List.length_replicate]

theorem alignUp4_base (n : Nat) : alignUp (base + n) 4 = base + alignUp n 4 := by
  unfold base; simp only [alignUp4]; omega

theorem segmentEnd_base (x : Input) (n : Nat) (s : Segment) : segmentEnd x (base + n) s = base + segmentEnd x n s := by
  unfold segmentEnd base; simp only [alignUp4, alignUp2]; omega

theorem foldl_base (x : Input) (segs : List Segment) (n : Nat) :
    segs.foldl (segmentEnd x) (base + n) = base + segs.foldl (segmentEnd x) n := by
  induction segs generalizing n with
  | nil => rfl
  | cons s rest ih => rw [List.foldl_cons, List.foldl_cons, segmentEnd_base, ih]

theorem dataEnd_eq (x : Input) :
    dataEnd x = base + x.segments.foldl (segmentEnd x) ((offsetsOf x).clipRanges + x.clipRangeSize) := by
  unfold dataEnd offsetsOf
  simp only []
  rw [← foldl_base]
  congr 1
  simp only [alignUp4_base, Nat.add_assoc]

/-- The bytes of a segment whose data is at `n`. -/
def segmentPieces (x : Input) (n : Nat) (s : Segment) : List Bytes :=
  [s.formats, pad2 (n + x.numVariable), s.ranges, pad4 (alignUp (n + x.numVariable) 2 + s.ranges.length), s.animated]

theorem segmentPieces_length (x : Input) (n : Nat) (s : Segment) (hf : s.formats.length = x.numVariable) :
    n + (segmentPieces x n s).flatten.length = segmentEnd x n s := by
  unfold segmentPieces segmentEnd
  simp [pad4_length, pad2_length, hf]
  rw [alignUp4, alignUp2]; omega

/-- The bytes of the segments from `n`. -/
def segmentsBytes (x : Input) : List Segment → Nat → Bytes
  | [], _ => []
  | s :: rest, n => (segmentPieces x n s).flatten ++ segmentsBytes x rest (segmentEnd x n s)

theorem segmentsBytes_length (x : Input) (segs : List Segment) (n : Nat) (hf : ∀ s ∈ segs, s.formats.length = x.numVariable) :
    n + (segmentsBytes x segs n).length = segs.foldl (segmentEnd x) n := by
  induction segs generalizing n with
  | nil => rfl
  | cons s rest ih =>
    rw [segmentsBytes, List.foldl_cons, List.length_append, ← ih _ (fun t ht => hf t (List.mem_cons_of_mem _ ht)),
      ← Nat.add_assoc, segmentPieces_length x n s (hf s (List.mem_cons_self ..))]

/-- The bytes of the segment headers. -/
def segmentHeadersBytes (x : Input) : List Segment → Nat → Bytes
  | [], _ => []
  | s :: rest, n => segmentHeaderBytes x.stripped s n ++ segmentHeadersBytes x rest (segmentEnd x n s)

theorem segmentHeaderBytes_length (b : Bool) (s : Segment) (n : Nat) : (segmentHeaderBytes b s n).length = segmentHeaderSize b := by
  unfold segmentHeaderBytes segmentHeaderSize
  cases b <;> simp [bytesLE_length]

theorem segmentHeadersBytes_length (x : Input) (segs : List Segment) (n : Nat) :
    (segmentHeadersBytes x segs n).length = segmentHeaderSize x.stripped * segs.length := by
  induction segs generalizing n with
  | nil => rfl
  | cons s rest ih => rw [segmentHeadersBytes, List.length_append, segmentHeaderBytes_length, ih, List.length_cons, Nat.mul_add]; omega

theorem storeNonEmpty_append (A B C X : Bytes) (p : Nat) (hp : p = A.length) (hl : X.length = B.length) :
    storeNonEmpty (A ++ (B ++ C)) p X = some (A ++ (X ++ C)) := by
  unfold storeNonEmpty
  by_cases hX : X.length ≠ 0
  · rw [if_pos hX, store_append A B C X p hp hl]
  · rw [if_neg hX]
    have h0 : X.length = 0 := by omega
    have h1 : B.length = 0 := by omega
    rw [List.length_eq_zero_iff] at h0 h1
    subst h0; subst h1; rfl

theorem writeSegmentHeaders_eq (x : Input) (segs : List Segment) (A C : Bytes) (p n : Nat) (hp : p = A.length) :
    writeSegmentHeaders x segs (A ++ (List.replicate (segmentHeaderSize x.stripped * segs.length) 0#8 ++ C)) p n =
      some (A ++ (segmentHeadersBytes x segs n ++ C)) := by
  induction segs generalizing A p n with
  | nil => rfl
  | cons s rest ih =>
    rw [writeSegmentHeaders, List.length_cons, Nat.mul_add, Nat.mul_one, Nat.add_comm, ← List.replicate_append_replicate,
      List.append_assoc]
    rw [store_append A _ _ _ p hp (by rw [segmentHeaderBytes_length, List.length_replicate])]
    simp only [Option.bind_eq_bind, Option.bind_some]
    rw [← List.append_assoc A, ih (A ++ segmentHeaderBytes x.stripped s n) _ _ (by rw [List.length_append, segmentHeaderBytes_length, hp])]
    rw [segmentHeadersBytes, List.append_assoc, List.append_assoc]

theorem writeSegments_eq (x : Input) (segs : List Segment) (A : Bytes) (n : Nat) (hA : A.length = base + n)
    (hf : ∀ s ∈ segs, s.formats.length = x.numVariable)
    (hr : ∀ s ∈ segs, s.ranges.length = if x.segments.length > 1 then 6 * x.numVariable else 0) :
    writeSegments x segs (A ++ List.replicate (segmentsBytes x segs n).length 0#8) n = some (A ++ segmentsBytes x segs n) := by
  induction segs generalizing A n with
  | nil => rfl
  | cons s rest ih =>
    have hf0 := hf s (List.mem_cons_self ..)
    have hr0 := hr s (List.mem_cons_self ..)
    rw [writeSegments, segmentsBytes]
    simp only [Option.bind_eq_bind]
    have hsd : segmentData x.segments.length x.numVariable (base + n) =
        (base + n, base + n + s.formats.length + (pad2 (n + x.numVariable)).length,
          base + n + s.formats.length + (pad2 (n + x.numVariable)).length + s.ranges.length +
            (pad4 (alignUp (n + x.numVariable) 2 + s.ranges.length)).length) := by
      unfold segmentData base
      rw [hr0, hf0, pad2_length, pad4_length]
      simp only [alignUp4, alignUp2, Prod.mk.injEq]
      refine ⟨trivial, by omega, ?_⟩
      split <;> omega
    rw [hsd]
    have hlen : (segmentPieces x n s).flatten.length = s.formats.length + (pad2 (n + x.numVariable)).length + s.ranges.length +
        (pad4 (alignUp (n + x.numVariable) 2 + s.ranges.length)).length + s.animated.length := by
      unfold segmentPieces; simp; omega
    have hend := segmentPieces_length x n s hf0
    rw [List.length_append, hlen]
    rw [hlen] at hend
    have hz2 : pad2 (n + x.numVariable) = List.replicate (pad2 (n + x.numVariable)).length 0#8 := by
      rw [pad2_length]; rfl
    have hz4 : pad4 (alignUp (n + x.numVariable) 2 + s.ranges.length) =
        List.replicate (pad4 (alignUp (n + x.numVariable) 2 + s.ranges.length)).length 0#8 := by
      rw [pad4_length]; rfl
    have hsp : (segmentPieces x n s).flatten = s.formats ++ (pad2 (n + x.numVariable) ++ (s.ranges ++
        (pad4 (alignUp (n + x.numVariable) 2 + s.ranges.length) ++ s.animated))) := by
      unfold segmentPieces; simp
    rw [hsp]
    have hih := ih (A ++ (s.formats ++ (pad2 (n + x.numVariable) ++ (s.ranges ++
        (pad4 (alignUp (n + x.numVariable) 2 + s.ranges.length) ++ s.animated))))) (segmentEnd x n s)
      (by rw [← hend]; simp only [List.length_append]; omega)
      (fun t ht => hf t (List.mem_cons_of_mem _ ht)) (fun t ht => hr t (List.mem_cons_of_mem _ ht))
    generalize segmentsBytes x rest (segmentEnd x n s) = R at *
    generalize pad2 (n + x.numVariable) = Z2 at *
    generalize pad4 (alignUp (n + x.numVariable) 2 + s.ranges.length) = Z4 at *
    simp only [← List.replicate_append_replicate, List.append_assoc]
    rw [← hz2, ← hz4]
    rw [storeNonEmpty_append A _ _ s.formats _ hA.symm (by rw [List.length_replicate])]
    simp only [Option.bind_some]
    rw [show A ++ (s.formats ++ (Z2 ++ (List.replicate s.ranges.length 0#8 ++ (Z4 ++ (List.replicate s.animated.length 0#8 ++ List.replicate R.length 0#8))))) =
      (A ++ (s.formats ++ Z2)) ++ (List.replicate s.ranges.length 0#8 ++ (Z4 ++ (List.replicate s.animated.length 0#8 ++ List.replicate R.length 0#8))) by
        simp only [List.append_assoc]]
    rw [storeNonEmpty_append _ _ _ s.ranges _ (by simp only [List.length_append]; omega) (by rw [List.length_replicate])]
    simp only [Option.bind_some]
    rw [show (A ++ (s.formats ++ Z2)) ++ (s.ranges ++ (Z4 ++ (List.replicate s.animated.length 0#8 ++ List.replicate R.length 0#8))) =
      (A ++ (s.formats ++ (Z2 ++ (s.ranges ++ Z4)))) ++ (List.replicate s.animated.length 0#8 ++ List.replicate R.length 0#8) by
        simp only [List.append_assoc]]
    rw [storeNonEmpty_append _ _ _ s.animated _ (by simp only [List.length_append]; omega) (by rw [List.length_replicate])]
    simp only [Option.bind_some]
    rw [show (A ++ (s.formats ++ (Z2 ++ (s.ranges ++ Z4)))) ++ (s.animated ++ List.replicate R.length 0#8) =
      (A ++ (s.formats ++ (Z2 ++ (s.ranges ++ (Z4 ++ s.animated))))) ++ List.replicate R.length 0#8 by simp only [List.append_assoc]]
    rw [hih]
    simp only [List.append_assoc]

/-- The pieces of the data of a clip, after the first two headers. -/
def pieces (x : Input) : List Bytes :=
  [((headerWords x).map bytesLE).flatten,
    if x.segments.length > 1 then ((startIndexWords x.segments).map bytesLE).flatten else [],
    segmentHeadersBytes x x.segments ((offsetsOf x).clipRanges + x.clipRangeSize),
    (x.types.map bytesLE).flatten, x.constants, pad4 x.constants.length, x.clipRanges,
    List.replicate (x.clipRangeSize - x.clipRanges.length) 0#8,
    segmentsBytes x x.segments ((offsetsOf x).clipRanges + x.clipRangeSize)]

theorem startIndexWords_length (segs : List Segment) : ((startIndexWords segs).map bytesLE).flatten.length = 4 * (segs.length + 1) := by
  rw [words_length]; simp [startIndexWords]

theorem headerWords_length (x : Input) : ((headerWords x).map bytesLE).flatten.length = headerSize := by
  rw [words_length]; rfl

theorem headerSize4 : segmentHeaderSize b * n % 4 = 0 := by
  unfold segmentHeaderSize; cases b
  · rw [if_neg (by decide)]; omega
  · rw [if_pos rfl]; omega

/-- The offsets of the header without the alignment that has no effect. -/
theorem offsets_eq (x : Input) :
    (offsetsOf x).segmentHeaders = headerSize + startIndicesSize x ∧
    (offsetsOf x).types = headerSize + startIndicesSize x + segmentHeaderSize x.stripped * x.segments.length ∧
    (offsetsOf x).constants = headerSize + startIndicesSize x + segmentHeaderSize x.stripped * x.segments.length + 4 * x.types.length ∧
    (offsetsOf x).clipRanges = headerSize + startIndicesSize x + segmentHeaderSize x.stripped * x.segments.length + 4 * x.types.length +
      x.constants.length + (pad4 x.constants.length).length := by
  have hs : startIndicesSize x % 4 = 0 := by unfold startIndicesSize; split <;> omega
  have hh : segmentHeaderSize x.stripped * x.segments.length % 4 = 0 := headerSize4
  unfold offsetsOf headerSize
  simp only []
  rw [pad4_length]
  generalize segmentHeaderSize x.stripped * x.segments.length = H at *
  generalize startIndicesSize x = S at *
  simp only [alignUp4]
  refine ⟨by omega, by omega, by omega, by omega⟩

theorem storeNonEmpty_flatten (L : List Bytes) (k : Nat) (B X : Bytes) (p : Nat) (hk : L[k]? = some B) (hl : X.length = B.length)
    (hp : p = (L.take k).flatten.length) : storeNonEmpty L.flatten p X = some (L.set k X).flatten := by
  have hlt : k < L.length := (List.getElem?_eq_some_iff.1 hk).1
  rw [Meta.set_flatten L k X hlt, flatten_split L k B hk]
  exact storeNonEmpty_append _ _ _ _ _ hp hl

theorem writeClip_eq (x : Input) (h : Consistent x) :
    writeClip x = some (List.replicate base 0#8 ++ (pieces x).flatten) := by
  obtain ⟨o1, o2, o3, o4⟩ := offsets_eq x
  have hsl := segmentsBytes_length x x.segments ((offsetsOf x).clipRanges + x.clipRangeSize) h.formats
  have hde := dataEnd_eq x
  rw [← hsl] at hde
  have hseg := fun A hA => writeSegments_eq x x.segments A ((offsetsOf x).clipRanges + x.clipRangeSize) hA h.formats h.ranges
  have hhdr := fun A C p hp => writeSegmentHeaders_eq x x.segments A C p ((offsetsOf x).clipRanges + x.clipRangeSize) hp
  have hhl := segmentHeadersBytes_length x x.segments ((offsetsOf x).clipRanges + x.clipRangeSize)
  have hz4 : pad4 x.constants.length = List.replicate (pad4 x.constants.length).length 0#8 := by rw [pad4_length]; rfl
  have hst : (if x.segments.length > 1 then ((startIndexWords x.segments).map bytesLE).flatten else []).length = startIndicesSize x := by
    unfold startIndicesSize
    split
    · rw [startIndexWords_length]
    · rfl
  have hhw := headerWords_length x
  have hal : alignUp headerSize 4 = headerSize := rfl
  have hcr := h.clipRanges
  have hty : (x.types.map bytesLE).flatten.length = 4 * x.types.length := words_length _
  unfold writeClip pieces
  simp only [Option.bind_eq_bind]
  rw [o1, o2, o3]
  generalize hN : (offsetsOf x).clipRanges + x.clipRangeSize = N at *
  generalize segmentsBytes x x.segments N = G at *
  generalize segmentHeadersBytes x x.segments N = HH at *
  generalize ((headerWords x).map bytesLE).flatten = W at *
  generalize (x.types.map bytesLE).flatten = T at *
  generalize pad4 x.constants.length = Z at *
  generalize segmentHeaderSize x.stripped * x.segments.length = S at *
  have hinit : List.replicate (dataEnd x) 0#8 = [List.replicate base 0#8, List.replicate headerSize 0#8, List.replicate (startIndicesSize x) 0#8,
      List.replicate S 0#8, List.replicate (4 * x.types.length) 0#8, List.replicate x.constants.length 0#8, Z,
      List.replicate x.clipRanges.length 0#8, List.replicate (x.clipRangeSize - x.clipRanges.length) 0#8, List.replicate G.length 0#8].flatten := by
    conv_rhs => rw [hz4]
    rw [show dataEnd x = [base, headerSize, startIndicesSize x, S, 4 * x.types.length, x.constants.length, Z.length, x.clipRanges.length,
      x.clipRangeSize - x.clipRanges.length, G.length].sum by
        rw [hde]; simp only [List.sum_cons, List.sum_nil]; omega, zeros_flatten]
    rfl
  rw [hinit]
  rw [store_flatten _ 1 (List.replicate headerSize 0#8) W base rfl (by rw [hhw, List.length_replicate]) (by simp)]
  simp only [Option.bind_some, List.set_cons_succ, List.set_cons_zero]
  have hstart : writeStartIndices x [List.replicate base 0#8, W, List.replicate (startIndicesSize x) 0#8,
      List.replicate S 0#8, List.replicate (4 * x.types.length) 0#8, List.replicate x.constants.length 0#8, Z,
      List.replicate x.clipRanges.length 0#8, List.replicate (x.clipRangeSize - x.clipRanges.length) 0#8, List.replicate G.length 0#8].flatten =
      some [List.replicate base 0#8, W, (if x.segments.length > 1 then ((startIndexWords x.segments).map bytesLE).flatten else []),
      List.replicate S 0#8, List.replicate (4 * x.types.length) 0#8, List.replicate x.constants.length 0#8, Z,
      List.replicate x.clipRanges.length 0#8, List.replicate (x.clipRangeSize - x.clipRanges.length) 0#8, List.replicate G.length 0#8].flatten := by
    unfold writeStartIndices
    rw [hal]
    by_cases h1 : x.segments.length > 1
    · rw [if_pos h1] at hst ⊢
      rw [store_flatten _ 2 (List.replicate (startIndicesSize x) 0#8) _ (base + headerSize) rfl (by rw [hst, List.length_replicate]) (by simp [hhw])]
      simp only [List.set_cons_succ, List.set_cons_zero, if_pos h1]
    · rw [if_neg h1, if_neg h1]
      have : startIndicesSize x = 0 := by unfold startIndicesSize; rw [if_neg h1]
      rw [this]; rfl
  rw [hstart]
  simp only [Option.bind_some]
  generalize (if x.segments.length > 1 then ((startIndexWords x.segments).map bytesLE).flatten else []) = B at *
  -- segment headers
  have hsplit := flatten_split [List.replicate base 0#8, W, B, List.replicate S 0#8, List.replicate (4 * x.types.length) 0#8,
      List.replicate x.constants.length 0#8, Z, List.replicate x.clipRanges.length 0#8,
      List.replicate (x.clipRangeSize - x.clipRanges.length) 0#8, List.replicate G.length 0#8] 3 (List.replicate S 0#8) rfl
  rw [hsplit, hhdr _ _ _ (by simp [hhw, hst])]
  simp only [Option.bind_some]
  have hre : (List.take 3 [List.replicate base 0#8, W, B, List.replicate S 0#8, List.replicate (4 * x.types.length) 0#8,
      List.replicate x.constants.length 0#8, Z, List.replicate x.clipRanges.length 0#8,
      List.replicate (x.clipRangeSize - x.clipRanges.length) 0#8, List.replicate G.length 0#8]).flatten ++ (HH ++
      (List.drop (3 + 1) [List.replicate base 0#8, W, B, List.replicate S 0#8, List.replicate (4 * x.types.length) 0#8,
      List.replicate x.constants.length 0#8, Z, List.replicate x.clipRanges.length 0#8,
      List.replicate (x.clipRangeSize - x.clipRanges.length) 0#8, List.replicate G.length 0#8]).flatten) =
      [List.replicate base 0#8, W, B, HH, List.replicate (4 * x.types.length) 0#8,
      List.replicate x.constants.length 0#8, Z, List.replicate x.clipRanges.length 0#8,
      List.replicate (x.clipRangeSize - x.clipRanges.length) 0#8, List.replicate G.length 0#8].flatten := by simp
  rw [hre]
  rw [store_flatten _ 4 (List.replicate (4 * x.types.length) 0#8) T _ rfl (by rw [hty, List.length_replicate])
    (by simp [hhw, hst, hhl]; omega)]
  simp only [Option.bind_some, List.set_cons_succ, List.set_cons_zero]
  rw [storeNonEmpty_flatten _ 5 (List.replicate x.constants.length 0#8) x.constants _ rfl (by simp)
    (by simp [hhw, hst, hhl, hty]; omega)]
  simp only [Option.bind_some, List.set_cons_succ, List.set_cons_zero]
  rw [storeNonEmpty_flatten _ 7 (List.replicate x.clipRanges.length 0#8) x.clipRanges _ rfl (by simp)
    (by rw [o4]; simp [hhw, hst, hhl, hty]; omega)]
  simp only [Option.bind_some, List.set_cons_succ, List.set_cons_zero]
  have hlast : ∀ Q : Bytes, [List.replicate base 0#8, W, B, HH, T, x.constants, Z, x.clipRanges,
      List.replicate (x.clipRangeSize - x.clipRanges.length) 0#8, Q].flatten =
      [List.replicate base 0#8, W, B, HH, T, x.constants, Z, x.clipRanges,
      List.replicate (x.clipRangeSize - x.clipRanges.length) 0#8].flatten ++ Q := by
    intro Q; simp
  rw [hlast, hseg _ (by rw [← hN, o4]; simp [hhw, hst, hhl, hty]; omega)]
  simp

end Acl.Clip
