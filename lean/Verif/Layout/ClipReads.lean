import Verif.Layout.ClipLemmas
import Verif.Props.C29
/-
Reading the pieces of a clip back (for Props/C32.lean).
-/
namespace Acl.Clip
open Acl.Headers
open Acl.Meta (pad4 pad4_length alignUp4 flatten_split words_length rawBuffer load32_words)

/-- A buffer is its first two headers, the data of the clip and the rest. -/
theorem build_shape (e : Meta.Extra) (s : Meta.Settings) (src : Meta.Source) (h : Meta.Header) (data : Bytes) (hv : C29.Valid src) :
    ∃ b T, Meta.compress e s src h data = some (rawBuffer ((Meta.headerOf src h b).bytes :: data :: T)) ∧ 15 ≤ T.flatten.length := by
  obtain ⟨tracks, ht, -, -⟩ := C29.tracks_some src hv
  unfold Meta.compress
  have hs := C29.supported e s src
  generalize Meta.effective src.isTransform e s = E at *
  by_cases hz : Meta.metadataSize src.isTransform (Meta.sizesOf E src tracks) = 0
  · exact ⟨_, _, Meta.build_bare E src tracks h data ht hz, by simp⟩
  · exact ⟨_, _, Meta.build_meta E src tracks h data hs ht hz, by simp [bytesLE_length]; omega⟩

/-- The bytes of a compressed clip. -/
theorem compress_eq (e : Meta.Extra) (s : Meta.Settings) (src : Meta.Source) (h : Meta.Header) (x : Input) (hv : C29.Valid src)
    (hx : Consistent x) :
    ∃ b T, compress e s src h x = some (rawBuffer ((Meta.headerOf src h b).bytes :: (pieces x).flatten :: T)) ∧ 15 ≤ T.flatten.length := by
  unfold compress
  rw [writeClip_eq x hx]
  simp only [Option.bind_eq_bind, Option.bind_some]
  rw [List.drop_left' (by rw [List.length_replicate])]
  exact build_shape e s src h _ hv

/-- What the accessors see: 32 bytes, the pieces and the rest. -/
structure View (x : Input) (m : Bytes) : Prop where
  shape : ∃ A T, m = A ++ ((pieces x).flatten ++ T) ∧ A.length = base ∧ 15 ≤ T.length
  size : load32 m 0 = some (BitVec.ofNat 32 m.length)
  stripped : ∃ h, Meta.loadTracksHeader m = some h ∧ hasSampleIndices h.misc = x.stripped

theorem stripped_kept (m : BitVec 32) (b : Bool) : getHasStrippedKeyframes (setHasMetadata m b) = getHasStrippedKeyframes m := by
  have := C28.C28_read_other m .hasMetadata .strippedKeyframes (by decide) (if b then 1 else 0) (by cases b <;> decide)
  have e : C28.write m (if b then 1 else 0) .hasMetadata = setHasMetadata m b := by
    unfold C28.write; cases b <;> rfl
  rw [e] at this
  simp only [C28.read] at this
  cases h1 : getHasStrippedKeyframes (setHasMetadata m b) <;> cases h2 : getHasStrippedKeyframes m <;> simp_all

theorem database_kept (m : BitVec 32) (b : Bool) : getHasDatabase (setHasMetadata m b) = getHasDatabase m := by
  have := C28.C28_read_other m .hasMetadata .hasDatabase (by decide) (if b then 1 else 0) (by cases b <;> decide)
  have e : C28.write m (if b then 1 else 0) .hasMetadata = setHasMetadata m b := by
    unfold C28.write; cases b <;> rfl
  rw [e] at this
  simp only [C28.read] at this
  cases h1 : getHasDatabase (setHasMetadata m b) <;> cases h2 : getHasDatabase m <;> simp_all

theorem indices_kept (m : BitVec 32) (b : Bool) : hasSampleIndices (setHasMetadata m b) = hasSampleIndices m := by
  unfold hasSampleIndices; rw [stripped_kept, database_kept]

theorem compress_view (e : Meta.Extra) (s : Meta.Settings) (src : Meta.Source) (h : Meta.Header) (x : Input) (m : Bytes)
    (hv : C29.Valid src) (hx : Consistent x) (hs : hasSampleIndices h.misc = x.stripped)
    (hm : compress e s src h x = some m) : View x m := by
  obtain ⟨b, T, he, hT⟩ := compress_eq e s src h x hv hx
  rw [he] at hm
  injection hm with hm
  subst hm
  refine ⟨⟨_, _, Meta.rawBuffer_split _ 1 _ rfl, ?_, hT⟩, Meta.rawBuffer_size _, _, Meta.rawBuffer_header _ _, ?_⟩
  · rw [List.length_append, DbBuffer.rawBytes_length]
    simp [Meta.Header.bytes_length, base]
  · rw [← hs]; exact indices_kept _ _

/-- Where piece `k` starts. -/
def pieceAt (x : Input) (k : Nat) : Nat := base + ((pieces x).take k).flatten.length

theorem View.piece {x : Input} {m : Bytes} (v : View x m) (k : Nat) (B : Bytes) (hk : (pieces x)[k]? = some B) :
    ∃ A C, m = A ++ (B ++ C) ∧ A.length = pieceAt x k := by
  obtain ⟨A, T, e, hA, -⟩ := v.shape
  refine ⟨A ++ ((pieces x).take k).flatten, ((pieces x).drop (k+1)).flatten ++ T, ?_, by rw [List.length_append, hA]; rfl⟩
  rw [e]
  conv_lhs => rw [flatten_split _ k B hk]
  simp only [List.append_assoc]

theorem View.bytes {x : Input} {m : Bytes} (v : View x m) (k : Nat) (B : Bytes) (hk : (pieces x)[k]? = some B) :
    loadBytes m (pieceAt x k) B.length = some B := by
  obtain ⟨A, C, e, hA⟩ := v.piece k B hk
  rw [e]
  exact loadBytes_append A B C _ _ hA.symm rfl

theorem View.small {x : Input} {m : Bytes} (v : View x m) : pieceAt x 9 + 15 ≤ m.length := by
  obtain ⟨A, T, e, hA, hT⟩ := v.shape
  rw [e]
  simp only [List.length_append, hA, pieceAt]
  have : List.take 9 (pieces x) = pieces x := List.take_of_length_le (by simp [pieces])
  rw [this]; omega

theorem View.word {x : Input} {m : Bytes} (v : View x m) (k : Nat) (w : BitVec 32) (hk : (headerWords x)[k]? = some w) :
    load32 m (base + 4 * k) = some w := by
  obtain ⟨A, C, e, hA⟩ := v.piece 0 _ rfl
  rw [e]
  refine load32_words (headerWords x) A C k w _ ?_ hk
  rw [hA]; rfl

/-- The positions of the pieces. -/
theorem pieceAt_eq (x : Input) (hx : Consistent x) :
    pieceAt x 1 = startIndicesAt ∧ pieceAt x 2 = base + (offsetsOf x).segmentHeaders ∧ pieceAt x 3 = base + (offsetsOf x).types ∧
    pieceAt x 4 = base + (offsetsOf x).constants ∧ pieceAt x 6 = base + (offsetsOf x).clipRanges ∧
    pieceAt x 8 = base + ((offsetsOf x).clipRanges + x.clipRangeSize) ∧ pieceAt x 9 = dataEnd x := by
  obtain ⟨o1, o2, o3, o4⟩ := offsets_eq x
  have hsl := segmentsBytes_length x x.segments ((offsetsOf x).clipRanges + x.clipRangeSize) hx.formats
  rw [dataEnd_eq, ← hsl]
  have hhl := segmentHeadersBytes_length x x.segments ((offsetsOf x).clipRanges + x.clipRangeSize)
  have hst : (if x.segments.length > 1 then ((startIndexWords x.segments).map bytesLE).flatten else []).length = startIndicesSize x := by
    unfold startIndicesSize
    split
    · rw [startIndexWords_length]
    · rfl
  have hhw := headerWords_length x
  have hcr := hx.clipRanges
  have hty : (x.types.map bytesLE).flatten.length = 4 * x.types.length := words_length _
  have hal : alignUp headerSize 4 = headerSize := rfl
  unfold pieceAt startIndicesAt pieces
  rw [hal]
  generalize hN : (offsetsOf x).clipRanges + x.clipRangeSize = N at *
  generalize segmentsBytes x x.segments N = G at *
  generalize segmentHeadersBytes x x.segments N = HH at *
  generalize ((headerWords x).map bytesLE).flatten = W at *
  generalize (x.types.map bytesLE).flatten = T at *
  generalize pad4 x.constants.length = Z at *
  generalize segmentHeaderSize x.stripped * x.segments.length = S at *
  generalize (if x.segments.length > 1 then ((startIndexWords x.segments).map bytesLE).flatten else []) = B at *
  simp [hhw, hhl, hst, hty, o1, o2, o3, o4]
  omega

theorem View.field {x : Input} {m : Bytes} (v : View x m) (k n : Nat) (hn : n < 2 ^ 32)
    (hk : (headerWords x)[k]? = some (BitVec.ofNat 32 n)) : field m k = some n := by
  unfold Clip.field
  rw [v.word k _ hk, Option.map_some, BitVec.toNat_ofNat, Nat.mod_eq_of_lt hn]

/-- Where segment `i` starts, relative to the transform header. -/
def segmentStart (x : Input) (segs : List Segment) (n i : Nat) : Nat := (segs.take i).foldl (segmentEnd x) n

theorem segmentHeaders_split (x : Input) (segs : List Segment) (n i : Nat) (s : Segment) (hs : segs[i]? = some s) :
    ∃ A C, segmentHeadersBytes x segs n = A ++ (segmentHeaderBytes x.stripped s (segmentStart x segs n i) ++ C) ∧
      A.length = segmentHeaderSize x.stripped * i := by
  induction segs generalizing n i with
  | nil => simp at hs
  | cons t rest ih =>
    cases i with
    | zero =>
      simp only [List.getElem?_cons_zero, Option.some.injEq] at hs
      subst hs
      exact ⟨[], _, rfl, rfl⟩
    | succ i =>
      obtain ⟨A, C, e, hA⟩ := ih (segmentEnd x n t) i hs
      refine ⟨segmentHeaderBytes x.stripped t n ++ A, C, ?_, ?_⟩
      · rw [segmentHeadersBytes, e, List.append_assoc]; rfl
      · rw [List.length_append, segmentHeaderBytes_length, hA, Nat.mul_add]; omega

theorem foldl_ge (x : Input) (segs : List Segment) (n : Nat) : n ≤ segs.foldl (segmentEnd x) n := by
  induction segs generalizing n with
  | nil => exact Nat.le_refl _
  | cons s rest ih =>
    refine Nat.le_trans ?_ (ih _)
    unfold segmentEnd; rw [alignUp4, alignUp2]; omega

theorem segmentStart_le (x : Input) (segs : List Segment) (n i : Nat) : segmentStart x segs n i ≤ segs.foldl (segmentEnd x) n := by
  conv_rhs => rw [← List.take_append_drop i segs, List.foldl_append]
  exact foldl_ge x _ _

/-- The header of a segment. -/
theorem View.segmentHeader {x : Input} {m : Bytes} (v : View x m) (hx : Consistent x) (hsmall : m.length < 2 ^ 32) (i : Nat) (s : Segment)
    (hs : x.segments[i]? = some s) :
    ∃ A C, m = A ++ (segmentHeaderBytes x.stripped s (segmentStart x x.segments ((offsetsOf x).clipRanges + x.clipRangeSize) i) ++ C) ∧
      segmentHeaderAt m i = some A.length := by
  obtain ⟨-, p2, -, -, -, p8, p9⟩ := pieceAt_eq x hx
  obtain ⟨A, C, e, hA⟩ := segmentHeaders_split x x.segments ((offsetsOf x).clipRanges + x.clipRangeSize) i s hs
  obtain ⟨B, D, e2, hB⟩ := v.piece 2 _ rfl
  refine ⟨B ++ A, C ++ D, ?_, ?_⟩
  · rw [e2, e]; simp only [List.append_assoc]
  · obtain ⟨h, hh, hst⟩ := v.stripped
    have hle : (offsetsOf x).segmentHeaders < 2 ^ 32 := by
      have := v.small
      have : pieceAt x 2 ≤ pieceAt x 9 := by
        unfold pieceAt; simp [pieces]
      rw [p2] at this; unfold base at this; omega
    unfold segmentHeaderAt segmentHeadersAt
    rw [hh, v.field 9 (offsetsOf x).segmentHeaders hle rfl]
    simp only [Option.bind_eq_bind, Option.bind_some, Option.map_some]
    rw [hst, List.length_append, hA, hB, p2]

theorem segmentOffset_loads (b : Bool) (s : Segment) (n : Nat) (A C : Bytes) :
    load32 (A ++ (segmentHeaderBytes b s n ++ C)) (A.length + 12) = some (BitVec.ofNat 32 n) := by
  unfold segmentHeaderBytes
  simp only [List.append_assoc]
  rw [show A ++ (bytesLE s.poseBits ++ (bytesLE s.rotationBits ++ (bytesLE s.translationBits ++ (bytesLE (ptrOffsetOf 32 n) ++ ((if b = true then bytesLE s.hardKeyframes else []) ++ C))))) =
    (A ++ (bytesLE s.poseBits ++ (bytesLE s.rotationBits ++ bytesLE s.translationBits))) ++ (bytesLE (ptrOffsetOf 32 n) ++ ((if b = true then bytesLE s.hardKeyframes else []) ++ C)) by
      simp only [List.append_assoc]]
  exact load32_bytesLE _ _ _ _ (by simp [bytesLE_length])

/-- The data of a segment. -/
theorem View.segmentData {x : Input} {m : Bytes} (v : View x m) (hx : Consistent x) (hsmall : m.length < 2 ^ 32) (i : Nat) (s : Segment)
    (hs : x.segments[i]? = some s) :
    segmentDataAt m i = some (Clip.segmentData x.segments.length x.numVariable
      (base + segmentStart x x.segments ((offsetsOf x).clipRanges + x.clipRangeSize) i)) := by
  obtain ⟨-, -, -, -, -, p8, p9⟩ := pieceAt_eq x hx
  obtain ⟨A, C, e, hA⟩ := v.segmentHeader hx hsmall i s hs
  have hm := v.small
  rw [p9, dataEnd_eq] at hm
  have hle := segmentStart_le x x.segments ((offsetsOf x).clipRanges + x.clipRangeSize) i
  have h1 : x.segments.length < 2 ^ 32 := by
    have hh := segmentHeadersBytes_length x x.segments ((offsetsOf x).clipRanges + x.clipRangeSize)
    have := v.bytes 2 _ rfl
    unfold loadBytes at this
    split at this
    · rename_i hb
      rw [hh] at hb
      have : 1 ≤ segmentHeaderSize x.stripped := by unfold segmentHeaderSize; split <;> omega
      have := Nat.le_mul_of_pos_left x.segments.length this
      omega
    · exact absurd this (by simp)
  have h2 : x.numVariable < 2 ^ 32 := by
    have hf := hx.formats s (List.mem_of_getElem? hs)
    have := segmentStart_le x x.segments ((offsetsOf x).clipRanges + x.clipRangeSize) (i + 1)
    unfold segmentStart at this
    rw [List.take_add_one, hs, List.foldl_append] at this
    simp only [Option.toList_some, List.foldl_cons, List.foldl_nil] at this
    have hge : x.numVariable ≤ segmentEnd x ((x.segments.take i).foldl (segmentEnd x) ((offsetsOf x).clipRanges + x.clipRangeSize)) s := by
      unfold segmentEnd; rw [alignUp4, alignUp2]; omega
    unfold base at hm
    omega
  unfold segmentDataAt
  rw [hA, v.field 0 _ h1 rfl, v.field 1 _ h2 rfl]
  simp only [Option.bind_eq_bind, Option.bind_some]
  rw [e, segmentOffset_loads]
  simp only [Option.bind_some]
  rw [BitVec.toNat_ofNat, Nat.mod_eq_of_lt (by unfold base at hm; omega)]

end Acl.Clip
