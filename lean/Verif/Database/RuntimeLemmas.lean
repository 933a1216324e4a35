import Verif.Database.Runtime
import Verif.Database.RewriteLemmas
import Verif.Database.TierFrames
import Verif.Props.C23
import Verif.Props.C40
/-
The chunks of a tier in memory, and the runtime headers after any history of streaming.
-/
namespace Acl.Runtime
open Acl.Chunks Acl.Context Acl.Transform Acl.Tiers Acl.Rewrite Acl.C23 Acl.Headers
variable {E : Type}

/-! ### The bytes of the chunks -/

theorem segWords_length (h : SegHeader) : (segWords h).length = 5 := rfl

theorem words_length (ws : List (BitVec 32)) : (ws.flatMap bytesLE).length = 4 * ws.length :=
  flatMap_const_length _ 4 _ fun w _ => bytesLE_length w

theorem segs_length (l : List SegHeader) : (l.flatMap segWords).length = 5 * l.length := by
  induction l with
  | nil => rfl
  | cons h l ih => rw [List.flatMap_cons, List.length_append, ih, segWords_length, List.length_cons]; omega

theorem chunkWords_length (ch : Chunk) : (chunkWords ch).length = 3 + 5 * ch.segs.length := by
  unfold chunkWords
  rw [List.length_append, segs_length]; rfl

theorem chunkBytes_length (ch : Chunk) : ((chunkWords ch).flatMap bytesLE).length = 12 + 20 * ch.segs.length := by
  rw [words_length, chunkWords_length]; omega

theorem storeHeaders_ok : ∀ (chs : List Chunk) (m : List (BitVec 8)), (∀ ch ∈ chs, ch.offset + (12 + 20 * ch.segs.length) ≤ m.length) →
    (chs.Pairwise fun a b => a.offset + (12 + 20 * a.segs.length) ≤ b.offset) →
    ∃ m', storeHeaders chs m = some m' ∧ m'.length = m.length ∧ (∀ ch ∈ chs, At m' ch.offset ((chunkWords ch).flatMap bytesLE)) ∧
      ∀ p, (∀ ch ∈ chs, p < ch.offset ∨ ch.offset + (12 + 20 * ch.segs.length) ≤ p) → m'[p]? = m[p]? := by
  intro chs
  induction chs with
  | nil => intro m _ _; exact ⟨m, rfl, rfl, by simp, fun _ _ => rfl⟩
  | cons ch rest ih =>
    intro m hin hp
    rw [List.pairwise_cons] at hp
    have hl := chunkBytes_length ch
    obtain ⟨m1, h1, h2, h3⟩ := store_ok (m := m) (bs := (chunkWords ch).flatMap bytesLE) (o := ch.offset)
      (by rw [hl]; exact hin ch List.mem_cons_self)
    have hlen := h2.1
    obtain ⟨m', g1, g2, g3, g4⟩ := ih m1 (fun c hc => by rw [hlen]; exact hin c (List.mem_cons_of_mem _ hc)) hp.2
    refine ⟨m', ?_, by rw [g2, hlen], ?_, ?_⟩
    · unfold storeHeaders
      rw [h1]; exact g1
    · intro c hc
      rcases List.mem_cons.1 hc with rfl | hc
      · intro j b hb
        have hj : j < 12 + 20 * c.segs.length := by rw [← hl]; exact (List.getElem?_eq_some_iff.1 hb).1
        rw [g4 _ fun c' hc' => Or.inl (by have := hp.1 c' hc'; omega)]
        exact h3 j b hb
      · exact g3 c hc
    · intro p hpn
      rw [g4 p fun c hc => hpn c (List.mem_cons_of_mem _ hc)]
      exact h2.2 p (by rw [hl]; have := hpn ch List.mem_cons_self; omega)

/-- Segment `s` of clip `c` is in chunk `i`, with this header. -/
def Located (bulk : Bulk) (groups : List (List (Nat × Nat))) (i c s : Nat) (h : SegHeader) : Prop :=
  ∃ (j : Nat) (g : List (Nat × Nat)) (ch : Chunk), groups[i]? = some g ∧ bulk.chunks[i]? = some ch ∧ g[j]? = some (c, s) ∧ ch.segs[j]? = some h

theorem allSegments_nodup (clips : List DbClip) : (allSegments clips).Nodup := by
  unfold allSegments
  rw [List.nodup_flatMap]
  constructor
  · intro c _
    exact List.Nodup.map (fun a b h => by simpa using h) List.nodup_range
  · refine List.Pairwise.imp ?_ (List.pairwise_lt_range (n := clips.length))
    intro a b hab
    simp only [Function.onFun, List.disjoint_left, List.mem_map, List.mem_range, not_exists, not_and]
    rintro _ ⟨x, _, rfl⟩ y _
    simp only [Prod.mk.injEq, not_and]
    omega

theorem mem_allSegments (clips : List DbClip) (c s : Nat) : (c, s) ∈ allSegments clips ↔ ∃ clip, clips[c]? = some clip ∧ s < clip.numSegments := by
  unfold allSegments
  simp only [List.mem_flatMap, List.mem_range, List.mem_map, Prod.mk.injEq]
  constructor
  · rintro ⟨c', hc, s', hs, rfl, rfl⟩
    refine ⟨clips[c'], List.getElem?_eq_getElem hc, ?_⟩
    rwa [List.getD_eq_getElem?_getD, List.getElem?_map, List.getElem?_eq_getElem hc] at hs
  · rintro ⟨clip, hc, hs⟩
    refine ⟨c, (List.getElem?_eq_some_iff.1 hc).1, s, ?_, rfl, rfl⟩
    rw [List.getD_eq_getElem?_getD, List.getElem?_map, hc]
    exact hs

theorem nodup_index {α : Type} {l : List α} (hn : l.Nodup) {i j : Nat} {a : α} (hi : l[i]? = some a) (hj : l[j]? = some a) : i = j := by
  obtain ⟨h1, h2⟩ := List.getElem?_eq_some_iff.1 hi
  obtain ⟨h3, h4⟩ := List.getElem?_eq_some_iff.1 hj
  exact (List.Nodup.getElem_inj_iff hn).1 (h2.trans h4.symm)

theorem located_unique {bulk : Bulk} {groups : List (List (Nat × Nat))} (hn : groups.flatten.Nodup) {i i' c s : Nat} {h h' : SegHeader}
    (l : Located bulk groups i c s h) (l' : Located bulk groups i' c s h') : i = i' ∧ h = h' := by
  obtain ⟨j, g, ch, a1, a2, a3, a4⟩ := l
  obtain ⟨j', g', ch', b1, b2, b3, b4⟩ := l'
  rw [List.nodup_flatten] at hn
  have hi : i = i' := by
    apply Classical.byContradiction
    intro hne
    obtain ⟨h1, h2⟩ := List.getElem?_eq_some_iff.1 a1
    obtain ⟨h3, h4⟩ := List.getElem?_eq_some_iff.1 b1
    have hp := List.pairwise_iff_getElem.1 hn.2
    rcases Nat.lt_or_gt_of_ne hne with hlt | hlt
    · have := hp i i' h1 h3 hlt
      rw [h2, h4] at this
      exact this (List.mem_iff_getElem?.2 ⟨j, a3⟩) (List.mem_iff_getElem?.2 ⟨j', b3⟩)
    · have := hp i' i h3 h1 hlt
      rw [h2, h4] at this
      exact this (List.mem_iff_getElem?.2 ⟨j', b3⟩) (List.mem_iff_getElem?.2 ⟨j, a3⟩)
  subst hi
  rw [a1, Option.some.injEq] at b1
  subst b1
  rw [a2, Option.some.injEq] at b2
  subst b2
  have hj := nodup_index (hn.1 g (List.mem_iff_getElem?.2 ⟨i, a1⟩)) a3 b3
  subst hj
  rw [a4, Option.some.injEq] at b4
  exact ⟨rfl, b4⟩

/-- Where the metadata of a tier of a segment is in the runtime headers. -/
def slot (clips : List DbClip) (c s t : Nat) : Nat := runtimeSize (clips.take c) + 8 + 16 * s + 8 * t

/-- What one segment header of a chunk says. -/
structure SegIs (tier : List (Frame E)) (clips : List DbClip) (mem : List (BitVec 8)) (c s : Nat) (h : SegHeader) : Prop where
  clip : ∃ clip, clips[c]? = some clip ∧ s < clip.numSegments ∧ h.clipHash = clip.hash ∧
    ∀ (n : Nat) (f : Frame E), (framesOf tier c s)[n]? = some f → ∀ b, b < f.frameBitSize →
      bufBit mem (h.samplesOffset * 8 + n * f.frameBitSize + b) = bufBit (clip.source s) (f.segmentFrameIndex * f.frameBitSize + b)
  clipOffset : h.clipHeaderOffset = runtimeSize (clips.take c)
  segmentOffset : h.segmentHeaderOffset = slot clips c s 0
  mask : IsMask (framesOf tier c s) (h.sampleIndices.headD 0)
  room : h.samplesOffset + bytesOf tier c s + 15 ≤ mem.length

/-- The bulk data of a tier in memory. -/
structure BulkIs (tier : List (Frame E)) (clips : List DbClip) (descs : List ChunkDesc) (bulk : Bulk) (groups : List (List (Nat × Nat)))
    (mem : List (BitVec 8)) : Prop where
  nodup : groups.flatten.Nodup
  length : groups.length = bulk.chunks.length
  counts : ∀ (i : Nat) g ch, groups[i]? = some g → bulk.chunks[i]? = some ch → ch.segs.length = g.length
  descs : descs = bulk.chunks.map (fun ch => ⟨ch.size, ch.offset⟩)
  chunk : ∀ (i : Nat) ch, bulk.chunks[i]? = some ch → ch.index = i ∧ i ≤ ch.offset ∧ At mem ch.offset ((chunkWords ch).flatMap bytesLE) ∧
    12 + 20 * ch.segs.length ≤ ch.size ∧ ch.offset + ch.size ≤ mem.length
  each : ∀ i c s h, Located bulk groups i c s h → SegIs tier clips mem c s h ∧ ∀ ch, bulk.chunks[i]? = some ch →
    ch.offset ≤ h.samplesOffset ∧ h.samplesOffset + bytesOf tier c s ≤ ch.offset + ch.size
  all : ∀ f ∈ tier, ∃ i h, Located bulk groups i f.tracksIndex f.segmentIndex h

theorem metadata_offset {clips : List DbClip} {c : Nat} {clip : DbClip} {h : BitVec 32} {o : Nat} (hc : clips[c]? = some clip)
    (hm : (clipMetadata clips 0)[c]? = some (h, o)) : o = runtimeSize (clips.take c) := by
  rw [C40.metadata_get clips 0 c (List.getElem?_eq_some_iff.1 hc).1, Nat.zero_add] at hm
  simp only [Option.some.injEq, Prod.mk.injEq] at hm
  exact hm.2.symm

theorem mask_of_tests {frames : List (Frame E)} (hs : frames.Pairwise fun a b => a.segmentFrameIndex < b.segmentFrameIndex)
    (hl : ∀ f ∈ frames, f.segmentFrameIndex < 32) {l : List (BitVec 32)}
    (hb : ∀ k, k < 32 → ∃ b, bitsetTest l k = some b ∧ (b = true ↔ ∃ f ∈ frames, f.segmentFrameIndex = k)) : IsMask frames (l.headD 0) := by
  cases l with
  | nil =>
    obtain ⟨b, h1, -⟩ := hb 0 (by omega)
    simp [bitsetTest] at h1
  | cons w rest =>
    refine ⟨hs, hl, fun i hi => ?_⟩
    obtain ⟨b, h1, h2⟩ := hb i hi
    rw [← h2, bitsetTest_eq _ i (by simp only [List.length_cons]; omega), Option.some.injEq] at *
    rw [← h1]
    unfold bsBit
    rw [show i / 32 = 0 by omega, show i % 32 = i by omega]
    simp [BitVec.getMsbD, hi]

theorem framesOf_eq (tier : List (Frame E)) (c s : Nat) : framesOf tier c s = tier.filter (isFrameOf c s) := rfl

theorem bulk_is {tier : List (Frame E)} {clips : List DbClip} {max : Nat} {descs : List ChunkDesc} {bulk : Bulk} {groups : List (List (Nat × Nat))}
    (hok : TierOk tier clips max) (hb : IsBulk tier clips max descs bulk groups) :
    ∃ mem, bulkMemory bulk = some mem ∧ mem.length = bulk.size ∧ BulkIs tier clips descs bulk groups mem := by
  have hmax := hok.max
  have hn : groups.flatten.Nodup := by rw [hb.segments]; exact allSegments_nodup clips
  -- the end of every chunk
  have hsum : ∀ (l : List Chunk) (k : Nat), (∀ (i : Nat) ch, l[i]? = some ch → ch.offset = (k + i) * max ∧ (i + 1 < l.length → ch.size = max)) →
      ∀ (i : Nat) ch, l[i]? = some ch → ch.offset + ch.size ≤ k * max + (l.map (·.size)).sum := by
    intro l
    induction l with
    | nil => intro k _ i ch h; simp at h
    | cons a l ih =>
      intro k hl i ch h
      have h0 := hl 0 a rfl
      cases i with
      | zero =>
        simp only [List.getElem?_cons_zero, Option.some.injEq] at h
        subst h
        rw [h0.1, List.map_cons, List.sum_cons]; simp only [Nat.add_zero]; omega
      | succ i =>
        rw [List.getElem?_cons_succ] at h
        have hlt := (List.getElem?_eq_some_iff.1 h).1
        have := ih (k + 1) (fun i ch h => by
          have := hl (i + 1) ch (by rw [List.getElem?_cons_succ]; exact h)
          refine ⟨by rw [this.1]; congr 1; omega, fun h2 => this.2 (by rw [List.length_cons]; omega)⟩) i ch h
        rw [List.map_cons, List.sum_cons, h0.2 (by rw [List.length_cons]; omega)]
        rw [Nat.succ_mul] at this
        omega
  have hend : ∀ (i : Nat) ch, bulk.chunks[i]? = some ch → ch.offset + ch.size ≤ bulk.size := by
    intro i ch h
    have := hsum bulk.chunks 0 (fun i ch h => ⟨by rw [Nat.zero_add]; exact (hb.chunk i ch h).2.1, (hb.chunk i ch h).2.2.1⟩) i ch h
    rw [Nat.zero_mul, Nat.zero_add, hb.size.1] at this
    exact this
  have hpair : bulk.chunks.Pairwise fun a b => a.offset + (12 + 20 * a.segs.length) ≤ b.offset := by
    rw [List.pairwise_iff_getElem]
    intro i j hi hj hij
    have a := hb.chunk i _ (List.getElem?_eq_getElem hi)
    have b := hb.chunk j _ (List.getElem?_eq_getElem hj)
    have h1 := a.2.2.1 (by omega)
    have h2 := a.2.2.2.2
    have h3 : (i + 1) * max ≤ j * max := Nat.mul_le_mul_right _ hij
    rw [Nat.succ_mul] at h3
    rw [b.2.1, a.2.1]
    omega
  obtain ⟨mem, m1, m2, m3, m4⟩ := storeHeaders_ok bulk.chunks bulk.bytes (fun ch hch => by
    obtain ⟨i, hi⟩ := List.mem_iff_getElem?.1 hch
    have := hend i ch hi
    have := (hb.chunk i ch hi).2.2.2.2
    rw [hb.size.2]; omega) hpair
  have hml : mem.length = bulk.size := by rw [m2, hb.size.2]
  refine ⟨mem, m1, hml, {
    nodup := hn
    length := hb.length
    counts := hb.counts
    descs := hb.descs
    chunk := fun i ch hi => ⟨(hb.chunk i ch hi).1,
      by rw [(hb.chunk i ch hi).2.1]; exact Nat.le_mul_of_pos_right _ (by omega), m3 ch (List.mem_iff_getElem?.2 ⟨i, hi⟩), (hb.chunk i ch hi).2.2.2.2,
      by rw [hml]; exact hend i ch hi⟩
    each := ?_
    all := ?_ }⟩
  · rintro i c s h ⟨j, g, ch, a1, a2, a3, a4⟩
    obtain ⟨ho, hoff, hnext, hin, hroom⟩ := hb.header i j g ch c s h a1 a2 a3 a4
    -- the samples of a chunk come after its headers
    have hafter : ∀ (j : Nat) (h : SegHeader), ch.segs[j]? = some h → ch.offset + 12 + 20 * ch.segs.length ≤ h.samplesOffset := by
      intro j
      induction j with
      | zero =>
        intro h a4
        have hg : 0 < g.length := by rw [← hb.counts i g ch a1 a2]; exact (List.getElem?_eq_some_iff.1 a4).1
        obtain ⟨-, h0, -⟩ := hb.header i 0 g ch g[0].1 g[0].2 h a1 a2 (List.getElem?_eq_getElem hg) a4
        exact Nat.le_of_eq (h0 rfl).symm
      | succ j ih =>
        intro h a4
        have hj := (List.getElem?_eq_some_iff.1 a4).1
        have hg : j < g.length := by rw [← hb.counts i g ch a1 a2]; omega
        obtain ⟨-, -, h1, -⟩ := hb.header i j g ch g[j].1 g[j].2 (ch.segs[j]'(by omega)) a1 a2 (List.getElem?_eq_getElem hg)
          (List.getElem?_eq_getElem _)
        have := h1 h a4
        have := ih (ch.segs[j]'(by omega)) (List.getElem?_eq_getElem _)
        omega
    have haf := hafter j h a4
    have hkept : ∀ p, h.samplesOffset ≤ p → p < h.samplesOffset + bytesOf tier c s → mem[p]? = bulk.bytes[p]? := by
      intro p hp1 hp2
      refine m4 p fun ch' hch' => ?_
      obtain ⟨i', hi'⟩ := List.mem_iff_getElem?.1 hch'
      have c1 := hb.chunk i' ch' hi'
      have c2 := hb.chunk i ch a2
      rcases Nat.lt_trichotomy i i' with hlt | heq | hlt
      · left
        have h1 := c2.2.2.1 (by have := (List.getElem?_eq_some_iff.1 hi').1; omega)
        have h3 : (i + 1) * max ≤ i' * max := Nat.mul_le_mul_right _ hlt
        rw [Nat.succ_mul] at h3
        rw [c1.2.1]
        have := c2.2.1
        omega
      · subst heq
        rw [a2, Option.some.injEq] at hi'
        subst hi'
        right; omega
      · right
        have h1 := c1.2.2.1 (by have := (List.getElem?_eq_some_iff.1 a2).1; omega)
        have h3 : (i' + 1) * max ≤ i * max := Nat.mul_le_mul_right _ hlt
        rw [Nat.succ_mul] at h3
        have := c2.2.1
        have := c1.2.1
        have := c1.2.2.2.2
        omega
    refine ⟨⟨?_, ?_, ?_, ?_, by rw [hml]; exact hroom⟩, ?_⟩
    · obtain ⟨clip, b1, b2, b3, b4⟩ := ho.clip
      have hmem : (c, s) ∈ allSegments clips := by
        rw [← hb.segments]
        exact List.mem_flatten.2 ⟨g, List.mem_iff_getElem?.2 ⟨i, a1⟩, List.mem_iff_getElem?.2 ⟨j, a3⟩⟩
      obtain ⟨clip', e1, e2⟩ := (mem_allSegments clips c s).1 hmem
      rw [b1, Option.some.injEq] at e1
      subst e1
      refine ⟨clip, b1, e2, b2, fun n f hn b hbits => ?_⟩
      rw [← b4 n f hn b hbits]
      -- bit `b` of frame `n` is in the samples of the segment
      have hbound : h.samplesOffset * 8 + n * f.frameBitSize + b < (h.samplesOffset + bytesOf tier c s) * 8 := by
        have hlen := (List.getElem?_eq_some_iff.1 hn).1
        have hall : ∀ x ∈ framesOf tier c s, x.frameBitSize = f.frameBitSize := by
          intro x hx
          have hf := List.mem_of_getElem? hn
          unfold framesOf at hx hf
          rw [List.mem_filter, Bool.and_eq_true, beq_iff_eq, beq_iff_eq] at hx hf
          exact hok.bits x hx.1 f hf.1 (by omega) (by omega)
        have hs2 : ((framesOf tier c s).map (·.frameBitSize)).sum = (framesOf tier c s).length * f.frameBitSize := by
          generalize framesOf tier c s = l at hall
          clear hn hlen
          induction l with
          | nil => simp
          | cons x l ih =>
            rw [List.map_cons, List.sum_cons, hall x List.mem_cons_self, ih fun y hy => hall y (List.mem_cons_of_mem _ hy), List.length_cons,
              Nat.succ_mul]; omega
        have hmul : (n + 1) * f.frameBitSize ≤ (framesOf tier c s).length * f.frameBitSize := Nat.mul_le_mul_right _ hlen
        rw [Nat.succ_mul] at hmul
        unfold bytesOf
        rw [hs2]
        omega
      unfold bufBit
      rw [List.getD_eq_getElem?_getD, List.getD_eq_getElem?_getD, hkept _ (by omega) (by omega)]
    · obtain ⟨clip, b1, b2, b3, -⟩ := ho.clip
      exact metadata_offset b1 b3
    · obtain ⟨clip, b1, b2, b3, -⟩ := ho.clip
      rw [ho.segment, metadata_offset b1 b3]; rfl
    · refine mask_of_tests (by rw [framesOf_eq]; exact frames_sorted hok.sorted c s) ?_ fun k hk => ?_
      · intro f hf
        unfold framesOf at hf
        exact hok.frame f (List.mem_filter.1 hf).1
      · obtain ⟨b, e1, e2⟩ := ho.indices k hk
        refine ⟨b, e1, e2.trans ⟨?_, ?_⟩⟩
        · rintro ⟨f, f1, f2, f3, f4⟩
          exact ⟨f, by unfold framesOf; rw [List.mem_filter]; simp [f1, f2, f3], f4⟩
        · rintro ⟨f, f1, f2⟩
          unfold framesOf at f1
          rw [List.mem_filter, Bool.and_eq_true, beq_iff_eq, beq_iff_eq] at f1
          exact ⟨f, f1.1, f1.2.1, f1.2.2, f2⟩
    · intro ch' hch'
      rw [a2, Option.some.injEq] at hch'
      subst hch'
      exact ⟨by omega, hin⟩
  · intro f hf
    obtain ⟨clip, h1, h2, -⟩ := hok.clip f hf
    have hmem : (f.tracksIndex, f.segmentIndex) ∈ groups.flatten := by
      rw [hb.segments, mem_allSegments]; exact ⟨clip, h1, h2⟩
    obtain ⟨g, hg, hm⟩ := List.mem_flatten.1 hmem
    obtain ⟨i, hi⟩ := List.mem_iff_getElem?.1 hg
    obtain ⟨j, hj⟩ := List.mem_iff_getElem?.1 hm
    have hil : i < bulk.chunks.length := by rw [← hb.length]; exact (List.getElem?_eq_some_iff.1 hi).1
    have hjl : j < bulk.chunks[i].segs.length := by
      rw [hb.counts i g _ hi (List.getElem?_eq_getElem hil)]; exact (List.getElem?_eq_some_iff.1 hj).1
    exact ⟨i, _, j, g, _, hi, List.getElem?_eq_getElem hil, hj, List.getElem?_eq_getElem hjl⟩

/-- The bulk data of an empty tier. -/
theorem bulk_empty (clips : List DbClip) (max : Nat) :
    bulkData ([] : List (Frame E)) clips max = some ⟨[], 0, []⟩ ∧ bulkMemory ⟨[], 0, []⟩ = some [] ∧
    BulkIs ([] : List (Frame E)) clips (chunkDescriptions ([] : List (Frame E)) clips max) ⟨[], 0, []⟩ [] [] := by
  refine ⟨rfl, rfl, ?_⟩
  constructor
  · simp
  · rfl
  · intro i g ch h; simp at h
  · rfl
  · intro i ch h; simp at h
  · rintro i c s h ⟨j, g, ch, a1, -⟩; simp at a1
  · intro f hf; simp at hf

end Acl.Runtime
