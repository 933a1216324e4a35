import Verif.Props.C36
/-
C47: building the buffer of a database.
-/
namespace Acl.C47
open Acl Acl.DbBuffer Acl.Headers Acl.Streaming

/-- The database that holds this content: version 10, bulk data inline, the medium bulk data padded
with zeros to 16 bytes. -/
def viewOf (c : Content) : View where
  version := 10
  isInline := true
  maxChunkSize := c.maxChunkSize
  numSegments := c.numSegments
  medium := c.medium
  low := c.low
  clips := c.clips
  bulkMedium := c.bulkMedium ++ List.replicate ((16 - c.bulkMedium.length % 16) % 16) 0#8
  bulkLow := c.bulkLow
  storedMedium := c.bulkMedium ++ List.replicate ((16 - c.bulkMedium.length % 16) % 16) 0#8
  storedLow := c.bulkLow

/-- The header with these hashes of the bulk data. -/
def withHashes (h : DbHeader) (a b : BitVec 32) : DbHeader := { h with bulkHash0 := a, bulkHash1 := b }

theorem padded_length (c : Content) : (viewOf c).bulkMedium.length = alignUp c.bulkMedium.length 16 := by
  show (c.bulkMedium ++ List.replicate _ 0#8).length = _
  rw [List.length_append, List.length_replicate]
  unfold alignUp; omega

/-- **C47.** Building a database always succeeds (no write outside of the buffer) and gives the layout
of this content. -/
theorem C47_build (c : Content) (hsize : (viewOf c).buffer.length < 2 ^ 32) : build c = some (viewOf c).buffer := by
  have hb := bulkStart_ge (viewOf c)
  have hbl := buffer_length (viewOf c)
  have hpl := padded_length c
  generalize hw : viewOf c = w at *
  have w1 : w.low = c.low := by rw [← hw]; rfl
  have w2 : w.clips = c.clips := by rw [← hw]; rfl
  have w3 : w.medium = c.medium := by rw [← hw]; rfl
  have w4 : w.storedMedium = c.bulkMedium ++ List.replicate ((16 - c.bulkMedium.length % 16) % 16) 0#8 := by rw [← hw]; rfl
  have w4' : w.bulkMedium = w.storedMedium := by rw [← hw]; rfl
  have w5 : w.storedLow = c.bulkLow := by rw [← hw]; rfl
  have w5' : w.bulkLow = c.bulkLow := by rw [← hw]; rfl
  have w6 : w.maxChunkSize = c.maxChunkSize := by rw [← hw]; rfl
  have w7 : w.numSegments = c.numSegments := by rw [← hw]; rfl
  have hend : w.endOfClips = 64 + 8 * c.medium.length + 8 * c.low.length + 8 * c.clips.length := by
    unfold View.endOfClips; rw [w1, w2, w3]
  have hws : w.bulkStart = 64 + 8 * c.medium.length + 8 * c.low.length + 8 * c.clips.length +
      (16 - (64 + 8 * c.medium.length + 8 * c.low.length + 8 * c.clips.length) % 16) % 16 := by
    unfold View.bulkStart; rw [hend]
  rw [w4', ] at hpl
  rw [w1, w2, w3] at hb
  rw [w5] at hbl
  unfold build
  simp only [layout_eq]
  rw [← hws, ← hpl]
  -- the header before the hashes are known
  have hoff0 : offsetIf (w.storedMedium.length != 0) w.bulkStart = w.hdr.bulkOffset0 := by
    unfold offsetIf View.hdr
    dsimp only
    by_cases hz : w.storedMedium.length = 0
    · rw [if_neg (by simpa using hz), if_pos (List.length_eq_zero_iff.1 hz)]
    · rw [if_pos (by simpa using hz), if_neg (fun hc => hz (by rw [hc]; rfl))]; rfl
  have hoff1 : offsetIf (c.bulkLow.length != 0) (w.bulkStart + w.storedMedium.length) = w.hdr.bulkOffset1 := by
    unfold offsetIf View.hdr
    dsimp only
    rw [w5]
    by_cases hz : c.bulkLow.length = 0
    · rw [if_neg (by simpa using hz), if_pos (List.length_eq_zero_iff.1 hz)]
    · rw [if_pos (by simpa using hz), if_neg (fun hc => hz (by rw [hc]; rfl))]; rfl
  have hclip : BitVec.ofNat 32 (64 + 8 * c.medium.length + 8 * c.low.length - rawHeaderSize) = w.hdr.clipMetadataOffset := by
    unfold View.hdr; dsimp only
    rw [w1, w3]
    congr 1
    unfold rawHeaderSize; omega
  rw [hoff0, hoff1, hclip]
  have hf : ∀ a b, (DbHeader.mk 0xac11db01#32 10 (setIsBulkDataInline 0 true) (BitVec.ofNat 32 c.medium.length)
      (BitVec.ofNat 32 c.low.length) c.maxChunkSize (BitVec.ofNat 32 c.clips.length) c.numSegments w.hdr.clipMetadataOffset
      (BitVec.ofNat 32 w.storedMedium.length) (BitVec.ofNat 32 c.bulkLow.length) w.hdr.bulkOffset0 w.hdr.bulkOffset1 a b) =
      withHashes w.hdr a b := by
    intro a b
    have e1 : w.hdr.misc = setIsBulkDataInline 0 true := by
      have : w.isInline = true := by rw [← hw]; rfl
      unfold View.hdr; dsimp only; rw [this]; rfl
    have e2 : w.hdr.version = 10 := by rw [← hw]; rfl
    rw [← w1, ← w2, ← w3, ← w6, ← w7, ← w5', ← w4', ← e1, ← e2]
    rfl
  simp only [Option.bind_eq_bind, hf]
  have hlow : descsLowOffset (withHashes w.hdr 0 0) = 56 + 8 * c.medium.length := by
    unfold descsLowOffset
    have : (withHashes w.hdr 0 0).numChunks0.toNat = c.medium.length := by
      show (BitVec.ofNat 32 w.medium.length).toNat = _
      rw [w3]; exact ofNat_toNat _ (by omega)
    rw [this]
    unfold alignUp dbHeaderSize entrySize; omega
  have hcmo : w.hdr.clipMetadataOffset.toNat = 56 + 8 * c.medium.length + 8 * c.low.length := by
    rw [← hclip, ofNat_toNat _ (by unfold rawHeaderSize; omega)]; unfold rawHeaderSize; omega
  generalize hpn : (16 - c.bulkMedium.length % 16) % 16 = pn at *
  have hsl : w.storedMedium.length = c.bulkMedium.length + pn := by
    rw [w4, List.length_append, List.length_replicate]
  have hz : List.replicate (w.bulkStart + w.storedMedium.length + c.bulkLow.length) (0#8) =
      [List.replicate 8 (0#8), List.replicate 56 (0#8), List.replicate (8 * c.medium.length) (0#8), List.replicate (8 * c.low.length) (0#8),
        List.replicate (8 * c.clips.length) (0#8), w.pad, List.replicate c.bulkMedium.length (0#8), List.replicate pn (0#8),
        List.replicate c.bulkLow.length (0#8)].flatten := by
    have := zeros_split [8, 56, 8 * c.medium.length, 8 * c.low.length, 8 * c.clips.length, (16 - w.endOfClips % 16) % 16,
      c.bulkMedium.length, pn, c.bulkLow.length]
    have e : [8, 56, 8 * c.medium.length, 8 * c.low.length, 8 * c.clips.length, (16 - w.endOfClips % 16) % 16,
      c.bulkMedium.length, pn, c.bulkLow.length].sum = w.bulkStart + w.storedMedium.length + c.bulkLow.length := by
      rw [View.bulkStart, hsl]
      simp only [List.sum_cons, List.sum_nil]
      omega
    rw [e] at this
    exact this
  have s1 : ∀ A B C D E F G H X Y : Bytes, A.length = 8 → X.length = 56 → Y.length = 56 →
      store [A, X, B, C, D, E, F, G, H].flatten rawHeaderSize Y = some [A, Y, B, C, D, E, F, G, H].flatten := by
    intro A B C D E F G H X Y hA hX hY
    exact store_flatten _ 1 _ Y _ rfl (by rw [hX, hY])
      (by simp only [List.take_succ_cons, List.take_zero, List.flatten_cons, List.flatten_nil, List.length_append, hA, List.length_nil]; rfl)
  have s2 : ∀ C D E F G H X : Bytes, X.length = 56 →
      store [List.replicate 8 (0#8), X, List.replicate (8 * c.medium.length) (0#8), C, D, E, F, G, H].flatten
        (rawHeaderSize + descsMediumOffset) (entryBytes c.medium) =
      some [List.replicate 8 (0#8), X, entryBytes c.medium, C, D, E, F, G, H].flatten := by
    intro C D E F G H X hX
    exact store_flatten _ 2 _ _ _ rfl (by rw [entryBytes_length, List.length_replicate])
      (by simp only [List.take_succ_cons, List.take_zero, List.flatten_cons, List.flatten_nil, List.length_append, hX,
            List.length_replicate, List.length_nil]; rfl)
  have s3 : ∀ D E F G H X : Bytes, X.length = 56 →
      store [List.replicate 8 (0#8), X, entryBytes c.medium, List.replicate (8 * c.low.length) (0#8), D, E, F, G, H].flatten
        (rawHeaderSize + descsLowOffset (withHashes w.hdr 0 0)) (entryBytes c.low) =
      some [List.replicate 8 (0#8), X, entryBytes c.medium, entryBytes c.low, D, E, F, G, H].flatten := by
    intro D E F G H X hX
    exact store_flatten _ 3 _ _ _ rfl (by rw [entryBytes_length, List.length_replicate])
      (by simp only [List.take_succ_cons, List.take_zero, List.flatten_cons, List.flatten_nil, List.length_append, hX, entryBytes_length,
            List.length_replicate, List.length_nil, hlow]; unfold rawHeaderSize; omega)
  have s4 : ∀ E F G H X : Bytes, X.length = 56 →
      store [List.replicate 8 (0#8), X, entryBytes c.medium, entryBytes c.low, List.replicate (8 * c.clips.length) (0#8), E, F, G, H].flatten
        (rawHeaderSize + w.hdr.clipMetadataOffset.toNat) (entryBytes c.clips) =
      some [List.replicate 8 (0#8), X, entryBytes c.medium, entryBytes c.low, entryBytes c.clips, E, F, G, H].flatten := by
    intro E F G H X hX
    exact store_flatten _ 4 _ _ _ rfl (by rw [entryBytes_length, List.length_replicate])
      (by simp only [List.take_succ_cons, List.take_zero, List.flatten_cons, List.flatten_nil, List.length_append, hX, entryBytes_length,
            List.length_replicate, List.length_nil, hcmo]; unfold rawHeaderSize; omega)
  have p0 : w.storedMedium ≠ [] → safeAddTo w.hdr.bulkOffset0 = some w.bulkStart := by
    intro hne
    have : w.hdr.bulkOffset0 = BitVec.ofNat 32 (w.bulkStart - 8) := by unfold View.hdr; dsimp only; rw [if_neg hne]
    rw [this, safeAddTo_ofNat _ (by omega)]
    congr 1; omega
  have p1 : c.bulkLow ≠ [] → safeAddTo w.hdr.bulkOffset1 = some (w.bulkStart + w.storedMedium.length) := by
    intro hne
    have : w.hdr.bulkOffset1 = BitVec.ofNat 32 (w.bulkStart + w.storedMedium.length - 8) := by
      unfold View.hdr; dsimp only; rw [w5, if_neg hne]
    rw [this, safeAddTo_ofNat _ (by omega)]
    congr 1; omega
  have hpre : ∀ X : Bytes, X.length = 56 → [List.replicate 8 (0#8), X, entryBytes c.medium, entryBytes c.low, entryBytes c.clips, w.pad].flatten.length
      = w.bulkStart := by
    intro X hX
    simp only [List.flatten_cons, List.flatten_nil, List.length_append, hX, entryBytes_length, List.length_replicate, List.length_nil,
      View.pad, View.bulkStart]
    omega
  have hH : (withHashes w.hdr 0 0).bytes.length = 56 := DbHeader.bytes_length _
  have s5 : storeAt [List.replicate 8 (0#8), (withHashes w.hdr 0 0).bytes, entryBytes c.medium, entryBytes c.low, entryBytes c.clips, w.pad,
        List.replicate c.bulkMedium.length (0#8), List.replicate pn (0#8), List.replicate c.bulkLow.length (0#8)].flatten
        (safeAddTo w.hdr.bulkOffset0) c.bulkMedium =
      some [List.replicate 8 (0#8), (withHashes w.hdr 0 0).bytes, entryBytes c.medium, entryBytes c.low, entryBytes c.clips, w.pad,
        c.bulkMedium, List.replicate pn (0#8), List.replicate c.bulkLow.length (0#8)].flatten := by
    refine storeAt_flatten _ 6 _ c.bulkMedium _ rfl (by rw [List.length_replicate]) ?_
    intro hne
    have := p0 (by rw [w4]; intro hc; exact hne (List.append_eq_nil_iff.1 hc).1)
    rw [this, ← hpre _ hH]; rfl
  have merge : ∀ X B : Bytes, [List.replicate 8 (0#8), X, entryBytes c.medium, entryBytes c.low, entryBytes c.clips, w.pad,
        c.bulkMedium, List.replicate pn (0#8), B].flatten =
      [List.replicate 8 (0#8), X, entryBytes c.medium, entryBytes c.low, entryBytes c.clips, w.pad, w.storedMedium, B].flatten := by
    intro X B
    rw [w4]; simp only [List.flatten_cons, List.flatten_nil, List.append_assoc]
  have s6 : ∀ B : Bytes, hashAt [List.replicate 8 (0#8), (withHashes w.hdr 0 0).bytes, entryBytes c.medium, entryBytes c.low, entryBytes c.clips, w.pad,
        w.storedMedium, B].flatten (safeAddTo w.hdr.bulkOffset0) w.storedMedium.length = some (hash32 w.storedMedium) := by
    intro B
    refine hashAt_flatten _ 6 _ _ _ rfl rfl ?_
    intro hne
    rw [p0 hne, ← hpre _ hH]; rfl
  have s7 : storeAt [List.replicate 8 (0#8), (withHashes w.hdr 0 0).bytes, entryBytes c.medium, entryBytes c.low, entryBytes c.clips, w.pad,
        w.storedMedium, List.replicate c.bulkLow.length (0#8)].flatten (safeAddTo w.hdr.bulkOffset1) c.bulkLow =
      some [List.replicate 8 (0#8), (withHashes w.hdr 0 0).bytes, entryBytes c.medium, entryBytes c.low, entryBytes c.clips, w.pad,
        w.storedMedium, c.bulkLow].flatten := by
    refine storeAt_flatten _ 7 _ _ _ rfl (by rw [List.length_replicate]) ?_
    intro hne
    rw [p1 hne, ← hpre _ hH]
    simp only [List.take_succ_cons, List.take_zero, List.flatten_cons, List.flatten_nil, List.length_append, List.length_nil]
    congr 1; omega
  have s8 : hashAt [List.replicate 8 (0#8), (withHashes w.hdr 0 0).bytes, entryBytes c.medium, entryBytes c.low, entryBytes c.clips, w.pad,
        w.storedMedium, c.bulkLow].flatten (safeAddTo w.hdr.bulkOffset1) c.bulkLow.length = some (hash32 c.bulkLow) := by
    refine hashAt_flatten _ 7 _ _ _ rfl rfl ?_
    intro hne
    rw [p1 hne, ← hpre _ hH]
    simp only [List.take_succ_cons, List.take_zero, List.flatten_cons, List.flatten_nil, List.length_append, List.length_nil]
    congr 1; omega
  have s9 : store [List.replicate 8 (0#8), (withHashes w.hdr 0 0).bytes, entryBytes c.medium, entryBytes c.low, entryBytes c.clips, w.pad,
        w.storedMedium, c.bulkLow].flatten rawHeaderSize w.hdr.bytes =
      some (List.replicate 8 (0#8) ++ w.pieces.flatten) := by
    have e : List.replicate 8 (0#8) ++ w.pieces.flatten = [List.replicate 8 (0#8), w.hdr.bytes, entryBytes c.medium, entryBytes c.low, entryBytes c.clips, w.pad,
        w.storedMedium, c.bulkLow].flatten := by
      unfold View.pieces; rw [w1, w2, w3, w5]; rfl
    rw [e]
    exact store_flatten _ 1 _ w.hdr.bytes _ rfl (by rw [hH, DbHeader.bytes_length])
      (by simp only [List.take_succ_cons, List.take_zero, List.flatten_cons, List.flatten_nil, List.length_append, List.length_replicate, List.length_nil]; rfl)
  have hfin : withHashes w.hdr (hash32 w.storedMedium) (hash32 c.bulkLow) = w.hdr := by
    rw [← w4', ← w5']; rfl
  rw [hz, s1 _ _ _ _ _ _ _ _ _ _ (by rw [List.length_replicate]) (by rw [List.length_replicate]) hH, Option.bind_some,
    s2 _ _ _ _ _ _ _ hH, Option.bind_some, s3 _ _ _ _ _ _ hH, Option.bind_some, s4 _ _ _ _ _ hH, Option.bind_some, s5, Option.bind_some,
    merge, s6, Option.bind_some, s7, Option.bind_some, s8, Option.bind_some, hfin, s9, Option.bind_some,
    finishBuffer_append _ _ _ (by rw [List.length_replicate])
      (by rw [pieces_length, w5]; omega)]
  rfl

/-- C47 in terms of the accessors: the built database is valid, reports the counts, chunk descriptions,
clips and bulk data it was built from, all of it inline and 16 byte aligned. -/
theorem C47_build_accessors (c : Content) (hsize : (viewOf c).buffer.length < 2 ^ 32) :
    ∃ m, build c = some m ∧ Represents m (viewOf c) ∧
      (∀ t p, getBulkData m t = some (some p) → p % 16 = 0) ∧ C36.WellFormed (viewOf c) ∧ C36.AllInline (viewOf c) := by
  have hleg : (viewOf c).Legal := ⟨by show 7 ≤ (10#16).toNat; decide, by show (10#16).toNat ≤ 10; decide, hsize⟩
  have R := represents_buffer _ hleg
  refine ⟨_, C47_build c hsize, R, R.aligned ?_, ⟨hleg, ?_, fun _ => ⟨rfl, rfl⟩⟩, rfl, rfl, rfl⟩
  · have := padded_length c
    change (viewOf c).storedMedium.length = _ at this
    rw [this]; unfold alignUp; omega
  · rw [buffer_length] at hsize; exact hsize

/-! Non-vacuity. -/
def exContent : Content where
  medium := [(60, 0)]
  low := []
  clips := [(0xABCD, 0), (0x1234, 40)]
  numSegments := 3
  maxChunkSize := 4096
  bulkMedium := List.replicate 60 7#8
  bulkLow := []

theorem exContent_size : (viewOf exContent).buffer.length < 2 ^ 32 := by
  rw [buffer_length]; decide +kernel

/-- Bulk data of 60 bytes is padded to 64 and found at byte 96; there is none in the low tier. -/
example : ∃ m, build exContent = some m ∧ m.length = 160 ∧ getBulkData m .medium = some (some 96) ∧
    getBulkData m .lowest = some none ∧ getBulkDataSize m .medium = some 64 := by
  refine ⟨_, C47_build exContent exContent_size, ?_⟩
  decide +kernel

end Acl.C47
