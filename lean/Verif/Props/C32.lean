import Verif.Layout.ClipReads
/-!
C32: the sections of a compressed transform clip are one after the other, aligned, inside of the buffer, and hold what was
written. Model: Verif/Layout/Clip.lean (the clip) and Verif/Layout/Metadata.lean (what comes before and after).
Specification vocabulary: `Sect`, `sections` below. `C29.Valid` is what the metadata needs.
-/
namespace Acl.C32
open Acl.Headers Acl.Clip

/-- Specification: bytes `[start, start + size)`, whose start has to be a multiple of `align`. -/
structure Sect where
  start : Nat
  size : Nat
  align : Nat

/-- Specification: the sections of one segment, given where its formats, ranges and key frames are. -/
def segmentSections (s : Segment) (at' : Nat × Nat × Nat) : List Sect :=
  [⟨at'.1, s.formats.length, 1⟩, ⟨at'.2.1, s.ranges.length, 2⟩, ⟨at'.2.2, s.animated.length, 4⟩]

/-- Specification: the sections of a clip, given where they are. -/
def sections (x : Input) (headers types constants ranges : Nat) (segs : List (Nat × Nat × Nat)) : List Sect :=
  [⟨startIndicesAt, if x.segments.length > 1 then 4 * (x.segments.length + 1) else 0, 4⟩,
    ⟨headers, (if x.stripped then 20 else 16) * x.segments.length, 4⟩, ⟨types, 4 * x.types.length, 4⟩,
    ⟨constants, x.constants.length, 4⟩, ⟨ranges, x.clipRanges.length, 4⟩] ++
  (List.zip x.segments segs).flatMap fun p => segmentSections p.1 p.2

/-- What a compressed clip is required to be: legal metadata, sizes that agree, the flag of the header, below 4 GB. -/
structure Written (e : Meta.Extra) (s : Meta.Settings) (src : Meta.Source) (h : Meta.Header) (x : Input) (m : Bytes) : Prop where
  valid : C29.Valid src
  consistent : Consistent x
  flag : hasSampleIndices h.misc = x.stripped
  result : compress e s src h x = some m
  small : m.length < 2 ^ 32

theorem Written.view {e : Meta.Extra} {s : Meta.Settings} {src : Meta.Source} {h : Meta.Header} {x : Input} {m : Bytes}
    (w : Written e s src h x m) : View x m := compress_view e s src h x m w.valid w.consistent w.flag w.result

/-- Where the data of the segments is. -/
def triples (x : Input) : List Segment → Nat → List (Nat × Nat × Nat)
  | [], _ => []
  | s :: rest, n => Clip.segmentData x.segments.length x.numVariable (base + n) :: triples x rest (segmentEnd x n s)

theorem triples_length (x : Input) (segs : List Segment) (n : Nat) : (triples x segs n).length = segs.length := by
  induction segs generalizing n with
  | nil => rfl
  | cons s rest ih => rw [triples, List.length_cons, List.length_cons, ih]

theorem triples_get (x : Input) (segs : List Segment) (n i : Nat) (hi : i < segs.length) :
    (triples x segs n)[i]? = some (Clip.segmentData x.segments.length x.numVariable (base + segmentStart x segs n i)) := by
  induction segs generalizing n i with
  | nil => simp at hi
  | cons s rest ih =>
    cases i with
    | zero => rfl
    | succ i =>
      rw [triples, List.getElem?_cons_succ, ih _ _ (by simpa using hi)]
      rfl

theorem segment_ok (x : Input) (n : Nat) (s : Segment) (hf : s.formats.length = x.numVariable)
    (hr : s.ranges.length = if x.segments.length > 1 then 6 * x.numVariable else 0) :
    (segmentSections s (Clip.segmentData x.segments.length x.numVariable (base + n))).Pairwise (fun a b => a.start + a.size ≤ b.start) ∧
    ∀ t ∈ segmentSections s (Clip.segmentData x.segments.length x.numVariable (base + n)),
      base + n ≤ t.start ∧ t.start % t.align = 0 ∧ t.start + t.size ≤ base + segmentEnd x n s := by
  have hsd : Clip.segmentData x.segments.length x.numVariable (base + n) =
      (base + n, alignUp (base + n + s.formats.length) 2, alignUp (alignUp (base + n + s.formats.length) 2 + s.ranges.length) 4) := by
    unfold Clip.segmentData
    rw [hr, hf]
  rw [hsd]
  have hend : base + segmentEnd x n s = alignUp (alignUp (base + n + s.formats.length) 2 + s.ranges.length) 4 + s.animated.length := by
    unfold segmentEnd base
    rw [hf]
    simp only [Meta.alignUp4, alignUp2]
    omega
  rw [hend]
  unfold segmentSections
  simp only [Meta.alignUp4, alignUp2]
  generalize base + n = B
  constructor
  · simp only [List.pairwise_cons, List.mem_cons, List.not_mem_nil, or_false, forall_eq_or_imp, forall_eq, List.Pairwise.nil, and_true,
      false_imp_iff, implies_true]
    omega
  · simp only [List.mem_cons, List.not_mem_nil, or_false, forall_eq_or_imp, forall_eq]
    omega

theorem segments_ok (x : Input) (segs : List Segment) (n : Nat) (hf : ∀ s ∈ segs, s.formats.length = x.numVariable)
    (hr : ∀ s ∈ segs, s.ranges.length = if x.segments.length > 1 then 6 * x.numVariable else 0) :
    ((List.zip segs (triples x segs n)).flatMap fun p => segmentSections p.1 p.2).Pairwise (fun a b => a.start + a.size ≤ b.start) ∧
    ∀ t ∈ (List.zip segs (triples x segs n)).flatMap (fun p => segmentSections p.1 p.2),
      base + n ≤ t.start ∧ t.start % t.align = 0 ∧ t.start + t.size ≤ base + segs.foldl (segmentEnd x) n := by
  induction segs generalizing n with
  | nil => exact ⟨List.Pairwise.nil, fun t ht => by simp at ht⟩
  | cons s rest ih =>
    obtain ⟨i1, i2⟩ := ih (segmentEnd x n s) (fun t ht => hf t (List.mem_cons_of_mem _ ht)) (fun t ht => hr t (List.mem_cons_of_mem _ ht))
    obtain ⟨j1, j2⟩ := segment_ok x n s (hf s List.mem_cons_self) (hr s List.mem_cons_self)
    have hge := foldl_ge x rest (segmentEnd x n s)
    have hgn : n ≤ segmentEnd x n s := foldl_ge x [s] n
    rw [triples, List.zip_cons_cons, List.flatMap_cons, List.foldl_cons]
    refine ⟨List.pairwise_append.2 ⟨j1, i1, ?_⟩, ?_⟩
    · intro a ha b hb
      have := (j2 a ha).2.2
      have := (i2 b hb).1
      omega
    · intro t ht
      rw [List.mem_append] at ht
      rcases ht with ht | ht
      · obtain ⟨a, b, c⟩ := j2 t ht
        exact ⟨a, b, by omega⟩
      · obtain ⟨a, b, c⟩ := i2 t ht
        exact ⟨by omega, b, c⟩

/-- Where the accessors find the sections. -/
theorem accessors {e : Meta.Extra} {s : Meta.Settings} {src : Meta.Source} {h : Meta.Header} {x : Input} {m : Bytes}
    (w : Written e s src h x m) :
    segmentHeadersAt m = some (base + (offsetsOf x).segmentHeaders) ∧ typesAt m = some (base + (offsetsOf x).types) ∧
    constantsAt m = some (base + (offsetsOf x).constants) ∧ clipRangesAt m = some (base + (offsetsOf x).clipRanges) := by
  have v := w.view
  obtain ⟨-, p2, p3, p4, p6, p8, p9⟩ := pieceAt_eq x w.consistent
  obtain ⟨o1, o2, o3, o4⟩ := offsets_eq x
  have hm := v.small
  rw [p9, dataEnd_eq] at hm
  have hge := foldl_ge x x.segments ((offsetsOf x).clipRanges + x.clipRangeSize)
  have hs := w.small
  unfold base at hm
  unfold segmentHeadersAt typesAt constantsAt clipRangesAt
  rw [v.field 9 (offsetsOf x).segmentHeaders (by omega) rfl, v.field 10 (offsetsOf x).types (by omega) rfl,
    v.field 11 (offsetsOf x).constants (by omega) rfl, v.field 12 (offsetsOf x).clipRanges (by omega) rfl]
  exact ⟨rfl, rfl, rfl, rfl⟩

/-- **C32.** In the buffer of a compressed clip, the segment start indices, the segment headers, the sub-track types, the
constant data, the clip ranges and, for each segment, its formats, its ranges and its key frames, found through the offsets
stored in the buffer, come one after the other without overlap, after the three headers (84 bytes); each one is aligned; all
end at least 15 bytes before the size the buffer reports, so that 16 byte loads of their last byte stay inside. -/
theorem C32_sections {e : Meta.Extra} {s : Meta.Settings} {src : Meta.Source} {h : Meta.Header} {x : Input} {m : Bytes}
    (w : Written e s src h x m) :
    ∃ headers types constants ranges segs size,
      segmentHeadersAt m = some headers ∧ typesAt m = some types ∧ constantsAt m = some constants ∧ clipRangesAt m = some ranges ∧
      segs.length = x.segments.length ∧ (∀ i, i < x.segments.length → segmentDataAt m i = segs[i]?) ∧
      load32 m 0 = some size ∧ size.toNat = m.length ∧
      (sections x headers types constants ranges segs).Pairwise (fun a b => a.start + a.size ≤ b.start) ∧
      ∀ t ∈ sections x headers types constants ranges segs,
        84 ≤ t.start ∧ t.start % t.align = 0 ∧ t.start + t.size + 15 ≤ size.toNat := by
  have v := w.view
  obtain ⟨a1, a2, a3, a4⟩ := accessors w
  obtain ⟨o1, o2, o3, o4⟩ := offsets_eq x
  obtain ⟨k1, k2⟩ := segments_ok x x.segments ((offsetsOf x).clipRanges + x.clipRangeSize) w.consistent.formats w.consistent.ranges
  obtain ⟨-, p2, p3, p4, p6, p8, p9⟩ := pieceAt_eq x w.consistent
  have hm := v.small
  rw [p9, dataEnd_eq] at hm
  have hge := foldl_ge x x.segments ((offsetsOf x).clipRanges + x.clipRangeSize)
  have hsz : (BitVec.ofNat 32 m.length).toNat = m.length := by rw [BitVec.toNat_ofNat, Nat.mod_eq_of_lt w.small]
  refine ⟨_, _, _, _, triples x x.segments ((offsetsOf x).clipRanges + x.clipRangeSize), _, a1, a2, a3, a4, triples_length _ _ _, ?_,
    v.size, hsz, ?_, ?_⟩
  · intro i hi
    rw [triples_get x _ _ i hi]
    exact v.segmentData w.consistent w.small i _ (List.getElem?_eq_getElem hi)
  · unfold sections
    refine List.pairwise_append.2 ⟨?_, k1, ?_⟩
    · have hst : startIndicesSize x = if x.segments.length > 1 then 4 * (x.segments.length + 1) else 0 := rfl
      have hsh : segmentHeaderSize x.stripped = if x.stripped then 20 else 16 := rfl
      have hal : startIndicesAt = base + Clip.headerSize := by decide
      rw [← hst, ← hsh]
      simp only [List.pairwise_cons, List.mem_cons, List.not_mem_nil, or_false, forall_eq_or_imp, forall_eq, List.Pairwise.nil, and_true,
        false_imp_iff, implies_true]
      omega
    · intro a ha b hb
      have hb' := (k2 b hb).1
      have hcr := w.consistent.clipRanges
      have hst : startIndicesSize x = if x.segments.length > 1 then 4 * (x.segments.length + 1) else 0 := rfl
      have hsh : segmentHeaderSize x.stripped = if x.stripped then 20 else 16 := rfl
      have hal : startIndicesAt = base + Clip.headerSize := by decide
      rw [← hst, ← hsh] at ha
      simp only [List.mem_cons, List.not_mem_nil, or_false] at ha
      rcases ha with ha | ha | ha | ha | ha <;> subst ha <;> dsimp only <;> omega
  · intro t ht
    rw [hsz]
    unfold sections at ht
    rw [List.mem_append] at ht
    rcases ht with ht | ht
    · have hst : startIndicesSize x = if x.segments.length > 1 then 4 * (x.segments.length + 1) else 0 := rfl
      have hsh : segmentHeaderSize x.stripped = if x.stripped then 20 else 16 := rfl
      have hal : startIndicesAt = base + Clip.headerSize := by decide
      have hcr := w.consistent.clipRanges
      have hmod : segmentHeaderSize x.stripped * x.segments.length % 4 = 0 := headerSize4
      have hmod2 : startIndicesSize x % 4 = 0 := by unfold startIndicesSize; split <;> omega
      rw [Meta.pad4_length] at o4
      rw [← hst, ← hsh] at ht
      simp only [List.mem_cons, List.not_mem_nil, or_false] at ht
      have hb : base = 32 := rfl
      have hh : Clip.headerSize = 52 := by decide
      rcases ht with ht | ht | ht | ht | ht <;> subst ht <;> dsimp only <;> omega
    · obtain ⟨a, b, c⟩ := k2 t ht
      have hb : base = 32 := rfl
      have hh : Clip.headerSize = 52 := by decide
      exact ⟨by omega, b, by omega⟩

theorem loadBytes_in (A B C : Bytes) (P X Q : Bytes) (hB : B = P ++ (X ++ Q)) (p : Nat) (hp : p = A.length + P.length) :
    loadBytes (A ++ (B ++ C)) p X.length = some X := by
  subst hB
  rw [show A ++ (P ++ (X ++ Q) ++ C) = (A ++ P) ++ (X ++ (Q ++ C)) by simp only [List.append_assoc]]
  exact loadBytes_append _ _ _ _ _ (by rw [List.length_append, hp]) rfl

theorem segments_split (x : Input) (segs : List Segment) (n i : Nat) (s : Segment) (hs : segs[i]? = some s)
    (hf : ∀ s ∈ segs, s.formats.length = x.numVariable) :
    ∃ P Q, segmentsBytes x segs n = P ++ ((segmentPieces x (segmentStart x segs n i) s).flatten ++ Q) ∧ n + P.length = segmentStart x segs n i := by
  induction segs generalizing n i with
  | nil => simp at hs
  | cons t rest ih =>
    cases i with
    | zero =>
      simp only [List.getElem?_cons_zero, Option.some.injEq] at hs
      subst hs
      exact ⟨[], _, rfl, rfl⟩
    | succ i =>
      obtain ⟨P, Q, e, hP⟩ := ih (segmentEnd x n t) i hs (fun t ht => hf t (List.mem_cons_of_mem _ ht))
      refine ⟨(segmentPieces x n t).flatten ++ P, Q, ?_, ?_⟩
      · rw [segmentsBytes, e, List.append_assoc]; rfl
      · rw [List.length_append, ← Nat.add_assoc, segmentPieces_length x n t (hf t List.mem_cons_self), hP]; rfl

/-- **C32**, contents: what is found at each offset is what was written. -/
theorem C32_contents {e : Meta.Extra} {s : Meta.Settings} {src : Meta.Source} {h : Meta.Header} {x : Input} {m : Bytes}
    (w : Written e s src h x m) :
    ∃ headers types constants ranges,
      segmentHeadersAt m = some headers ∧ typesAt m = some types ∧ constantsAt m = some constants ∧ clipRangesAt m = some ranges ∧
      (x.segments.length > 1 → loadBytes m startIndicesAt (4 * (x.segments.length + 1)) =
        some ((x.segments.map (·.start) ++ [0xFFFFFFFF#32]).flatMap bytesLE)) ∧
      loadBytes m types (4 * x.types.length) = some (x.types.flatMap bytesLE) ∧
      loadBytes m constants x.constants.length = some x.constants ∧
      loadBytes m ranges x.clipRanges.length = some x.clipRanges ∧
      ∀ (i : Nat) (g : Segment), x.segments[i]? = some g → ∃ header fmt rng anim,
        segmentHeaderAt m i = some header ∧ segmentDataAt m i = some (fmt, rng, anim) ∧
        load32 m header = some g.poseBits ∧ load32 m (header + 4) = some g.rotationBits ∧
        load32 m (header + 8) = some g.translationBits ∧ (x.stripped = true → load32 m (header + 16) = some g.hardKeyframes) ∧
        loadBytes m fmt g.formats.length = some g.formats ∧ loadBytes m rng g.ranges.length = some g.ranges ∧
        loadBytes m anim g.animated.length = some g.animated := by
  have v := w.view
  obtain ⟨a1, a2, a3, a4⟩ := accessors w
  obtain ⟨p1, p2, p3, p4, p6, p8, p9⟩ := pieceAt_eq x w.consistent
  refine ⟨_, _, _, _, a1, a2, a3, a4, ?_, ?_, ?_, ?_, ?_⟩
  · intro h1
    have := v.bytes 1 _ rfl
    rw [p1, if_pos h1, startIndexWords_length] at this
    rw [this, List.flatMap_def]; rfl
  · have := v.bytes 3 _ rfl
    rw [p3, Meta.words_length] at this
    rw [this, List.flatMap_def]
  · have := v.bytes 4 _ rfl
    rw [p4] at this; exact this
  · have := v.bytes 6 _ rfl
    rw [p6] at this; exact this
  · intro i g hg
    obtain ⟨A, C, e1, hA⟩ := v.segmentHeader w.consistent w.small i g hg
    have hd := v.segmentData w.consistent w.small i g hg
    obtain ⟨P, Q, e2, hP⟩ := segments_split x x.segments ((offsetsOf x).clipRanges + x.clipRangeSize) i g hg w.consistent.formats
    obtain ⟨B, D, e3, hB⟩ := v.piece 8 _ rfl
    have hf := w.consistent.formats g (List.mem_of_getElem? hg)
    have hr := w.consistent.ranges g (List.mem_of_getElem? hg)
    generalize segmentStart x x.segments ((offsetsOf x).clipRanges + x.clipRangeSize) i = n at *
    have hsd : Clip.segmentData x.segments.length x.numVariable (base + n) =
        (base + n, base + n + g.formats.length + (pad2 (n + x.numVariable)).length,
          base + n + g.formats.length + (pad2 (n + x.numVariable)).length + g.ranges.length +
            (Meta.pad4 (alignUp (n + x.numVariable) 2 + g.ranges.length)).length) := by
      unfold Clip.segmentData base
      rw [hr, hf, pad2_length, Meta.pad4_length]
      simp only [Meta.alignUp4, alignUp2, Prod.mk.injEq]
      refine ⟨trivial, by omega, ?_⟩
      split <;> omega
    rw [hsd] at hd
    refine ⟨A.length, _, _, _, hA, hd, ?_, ?_, ?_, ?_, ?_, ?_, ?_⟩
    · rw [e1]; unfold segmentHeaderBytes; simp only [List.append_assoc]
      exact load32_bytesLE _ _ _ _ rfl
    · rw [e1]; unfold segmentHeaderBytes; simp only [List.append_assoc]
      rw [← List.append_assoc A]
      exact load32_bytesLE _ _ _ _ (by rw [List.length_append, bytesLE_length])
    · rw [e1]; unfold segmentHeaderBytes; simp only [List.append_assoc]
      rw [← List.append_assoc A, ← List.append_assoc (A ++ _)]
      exact load32_bytesLE _ _ _ _ (by simp [bytesLE_length])
    · intro hst
      rw [e1]; unfold segmentHeaderBytes; rw [if_pos hst]; simp only [List.append_assoc]
      rw [← List.append_assoc A, ← List.append_assoc (A ++ _), ← List.append_assoc ((A ++ _) ++ _), ← List.append_assoc (((A ++ _) ++ _) ++ _)]
      exact load32_bytesLE _ _ _ _ (by simp [bytesLE_length])
    · rw [e3]
      refine loadBytes_in B _ D P g.formats ((pad2 (n + x.numVariable) ++ (g.ranges ++ (Meta.pad4 (alignUp (n + x.numVariable) 2 + g.ranges.length) ++ g.animated))) ++ Q)
        (by rw [e2]; unfold segmentPieces; simp only [List.flatten_cons, List.flatten_nil, List.append_nil, List.append_assoc]) _ ?_
      rw [hB, p8]; omega
    · rw [e3]
      refine loadBytes_in B _ D (P ++ (g.formats ++ pad2 (n + x.numVariable))) g.ranges ((Meta.pad4 (alignUp (n + x.numVariable) 2 + g.ranges.length) ++ g.animated) ++ Q)
        (by rw [e2]; unfold segmentPieces; simp only [List.flatten_cons, List.flatten_nil, List.append_nil, List.append_assoc]) _ ?_
      rw [hB, p8]; simp only [List.length_append]; omega
    · rw [e3]
      refine loadBytes_in B _ D (P ++ (g.formats ++ (pad2 (n + x.numVariable) ++ (g.ranges ++ Meta.pad4 (alignUp (n + x.numVariable) 2 + g.ranges.length)))))
        g.animated Q (by rw [e2]; unfold segmentPieces; simp only [List.flatten_cons, List.flatten_nil, List.append_nil, List.append_assoc]) _ ?_
      rw [hB, p8]; simp only [List.length_append]; omega

/-- **C32**, progress: compressing legal input never writes out of bounds (the model fails when it does). -/
theorem C32_no_overrun (e : Meta.Extra) (s : Meta.Settings) (src : Meta.Source) (h : Meta.Header) (x : Input)
    (hv : C29.Valid src) (hx : Consistent x) : ∃ m, compress e s src h x = some m := by
  obtain ⟨b, T, he, -⟩ := compress_eq e s src h x hv hx
  exact ⟨_, he⟩

/-- Two segments, of one animated rotation and two animated translations (variable formats, six bytes of formats with the
padding), with ranges and metadata. -/
def exSegment (start : BitVec 32) (n : Nat) : Segment :=
  ⟨start, 39, 24, 15, 0x80000000#32, [3, 0, 0, 0, 5, 7], List.replicate 36 9#8, List.replicate n 0xA5#8⟩

def exInput : Input :=
  ⟨⟨1, 2, 0, 3, 1, 0⟩, 6, true, [0x9E000000#32, 0x11000000#32], List.replicate 49 3#8, List.replicate 72 4#8, 80, [exSegment 0 41, exSegment 16 22]⟩

theorem exInput_consistent : Consistent exInput := ⟨by decide, by decide, by decide⟩

def exHeader : Meta.Header := { C29.exHeader with misc := setHasStrippedKeyframes C29.exHeader.misc true }

/-- The hypotheses of C32 are met. -/
example : ∃ m, Written ⟨false, false⟩ ⟨true, true, true, true, true⟩ C29.exSource exHeader exInput m := by
  obtain ⟨m, hm⟩ := C32_no_overrun ⟨false, false⟩ ⟨true, true, true, true, true⟩ C29.exSource exHeader exInput C29.exSource_valid exInput_consistent
  refine ⟨m, C29.exSource_valid, exInput_consistent, by decide +kernel, hm, ?_⟩
  have : ((compress ⟨false, false⟩ ⟨true, true, true, true, true⟩ C29.exSource exHeader exInput).map fun b => decide (b.length < 2 ^ 32)) = some true := by
    decide +kernel
  rw [hm, Option.map_some, Option.some.injEq] at this
  exact of_decide_eq_true this

end Acl.C32
