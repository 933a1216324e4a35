import Verif.Database.BufferLemmas
/-
What the accessors of a database return for the byte layout of BufferLemmas.lean.
-/
namespace Acl.DbBuffer
open Acl Acl.Headers Acl.Streaming

/-- The chunk descriptions of a tier. -/
def View.descs (v : View) : Tier → List (BitVec 32 × BitVec 32)
  | .highest => [] | .medium => v.medium | .lowest => v.low
/-- The bulk data of a tier. -/
def View.bulk (v : View) : Tier → Bytes
  | .highest => [] | .medium => v.bulkMedium | .lowest => v.bulkLow
/-- The bulk data of a tier that is stored in the database buffer. -/
def View.stored (v : View) : Tier → Bytes
  | .highest => [] | .medium => v.storedMedium | .lowest => v.storedLow

/-- The accessors of the database in buffer `m` return what is in `v`. -/
structure Represents (m : Bytes) (v : View) : Prop where
  valid : databaseIsValid m true true = some .ok
  isInline : isBulkDataInline m = some v.isInline
  maxChunkSize : getMaxChunkSize m = some v.maxChunkSize
  numSegments : getNumSegments m = some v.numSegments
  numClips : getNumClips m = some (BitVec.ofNat 32 v.clips.length)
  clips : ∀ i e, v.clips[i]? = some e → getClipMetadata m i = some e
  contains : ∀ hash, contains m true hash = some (decide (∃ e ∈ v.clips, e.1 = hash))
  numChunks : ∀ t, getNumChunks m t = some (BitVec.ofNat 32 (v.descs t).length)
  chunks : ∀ t i e, (v.descs t)[i]? = some e → getChunkDescription m t i = some e
  bulkSize : ∀ t, getBulkDataSize m t = some (BitVec.ofNat 32 (v.bulk t).length)
  bulkHash : ∀ t, t ≠ .highest → getBulkDataHash m t = some (hash32 (v.bulk t))
  /-- the pointer to the bulk data: null if there is none in the buffer, else to its bytes -/
  bulkData : ∀ t, (v.stored t = [] → getBulkData m t = some none) ∧
    (v.stored t ≠ [] → ∃ p, getBulkData m t = some (some p) ∧ loadBytes m p (v.stored t).length = some (v.stored t))
  /-- bulk data is 16 byte aligned -/
  aligned : v.storedMedium.length % 16 = 0 → ∀ t p, getBulkData m t = some (some p) → p % 16 = 0
  /-- the size is that of the buffer; the total size includes the bulk data that is elsewhere -/
  totalSize : getTotalSize m = some (BitVec.ofNat 32
    (m.length + if v.isInline then 0 else v.bulkMedium.length + v.bulkLow.length))

theorem entry_load (A C : Bytes) (l : List (BitVec 32 × BitVec 32)) (i : Nat) (e : BitVec 32 × BitVec 32)
    (h : l[i]? = some e) (p : Nat) (hp : p = A.length + i * 8) :
    load32 (A ++ (entryBytes l ++ C)) p = some e.1 ∧ load32 (A ++ (entryBytes l ++ C)) (p + 4) = some e.2 := by
  subst hp
  rw [Nat.add_assoc, load32_skip, load32_skip]
  induction l generalizing i with
  | nil => simp at h
  | cons x l ih =>
    cases i with
    | zero =>
      simp at h; subst h
      simp only [entryBytes, List.append_assoc, Nat.zero_mul, Nat.zero_add]
      exact ⟨load32_zero _ _, by rw [load32_skip4 _ _ 4 0 rfl]; exact load32_zero _ _⟩
    | succ i =>
      simp only [entryBytes, List.append_assoc]
      rw [load32_skip4 _ _ ((i+1)*8) (i*8 + 4) (by omega), load32_skip4 _ _ (i*8+4) (i*8) (by omega),
        load32_skip4 _ _ ((i+1)*8+4) (i*8 + 8) (by omega), load32_skip4 _ _ (i*8+8) (i*8+4) (by omega)]
      exact ih i (by simpa using h)

theorem findClip_spec (m : Bytes) (hash : BitVec 32) (clips : List (BitVec 32 × BitVec 32))
    (h : ∀ i e, clips[i]? = some e → getClipMetadata m i = some e) (k i : Nat) (hk : i + k = clips.length) :
    findClip m hash k i = some (decide (∃ e ∈ clips.drop i, e.1 = hash)) := by
  induction k generalizing i with
  | zero =>
    rw [findClip, List.drop_of_length_le (by omega)]; simp
  | succ k ih =>
    have hi : i < clips.length := by omega
    rw [findClip, h i clips[i] (List.getElem?_eq_getElem hi), Option.bind_eq_bind, Option.bind_some,
      List.drop_eq_getElem_cons hi]
    by_cases hc : clips[i].1 = hash
    · rw [if_pos (by simpa using hc)]
      congr 1; symm
      rw [decide_eq_true_iff]
      exact ⟨_, List.mem_cons_self, hc⟩
    · rw [if_neg (by simpa using hc), ih (i+1) (by omega)]
      congr 1
      rw [decide_eq_decide]
      constructor
      · rintro ⟨e, he, h⟩; exact ⟨e, List.mem_cons_of_mem _ he, h⟩
      · rintro ⟨e, he, h⟩
        rcases List.mem_cons.1 he with he | he
        · rw [he] at h; exact absurd h hc
        · exact ⟨e, he, h⟩

theorem ofNat_toNat (n : Nat) (h : n < 2 ^ 32) : (BitVec.ofNat 32 n).toNat = n := by
  rw [BitVec.toNat_ofNat, Nat.mod_eq_of_lt h]

theorem alignUp4_56 : alignUp 56 4 = 56 := by decide

theorem safeAddTo_invalid : safeAddTo 0xFFFFFFFF#32 = none := if_pos rfl

theorem safeAddTo_ofNat (n : Nat) (h : n + 8 < 2 ^ 32) : safeAddTo (BitVec.ofNat 32 n) = some (8 + n) := by
  unfold safeAddTo rawHeaderSize
  have h1 := ofNat_toNat n (by omega)
  rw [if_neg, h1]
  intro hc
  rw [hc] at h1
  have : (0xFFFFFFFF#32).toNat = 4294967295 := rfl
  omega

/-- Pieces including the raw header. -/
def View.all (v : View) : List Bytes := rawBytes v.pieces.flatten :: v.pieces

theorem represents_buffer (v : View) (h : v.Legal) : Represents v.buffer v := by
  have hh := header_buffer v
  have hv := valid_buffer v h
  obtain ⟨h1, h2, hlen⟩ := h
  have hb := bulkStart_ge v
  have hbl := buffer_length v
  have hbs : v.bulkStart % 16 = 0 := by unfold View.bulkStart; omega
  have hclips : ∀ i e, v.clips[i]? = some e → getClipMetadata v.buffer i = some e := by
    intro i e he
    unfold getClipMetadata
    rw [hh, Option.bind_eq_bind, Option.bind_some]
    have hoff : v.hdr.clipMetadataOffset.toNat = 56 + 8 * v.medium.length + 8 * v.low.length := by
      unfold View.hdr; dsimp only
      exact ofNat_toNat _ (by omega)
    have e1 : v.buffer = (rawBytes v.pieces.flatten ++ (v.hdr.bytes ++ (entryBytes v.medium ++ entryBytes v.low))) ++
        (entryBytes v.clips ++ (v.pieces.drop 4).flatten) := by
      rw [buffer_cons]; simp [View.pieces]
    have := entry_load (rawBytes v.pieces.flatten ++ (v.hdr.bytes ++ (entryBytes v.medium ++ entryBytes v.low))) (v.pieces.drop 4).flatten v.clips i e he
      (rawHeaderSize + v.hdr.clipMetadataOffset.toNat + i * entrySize)
      (by simp only [List.length_append, rawBytes_length, DbHeader.bytes_length, entryBytes_length, hoff]; unfold rawHeaderSize entrySize; omega)
    rw [← e1] at this
    dsimp only
    rw [this.1, this.2]
    rfl
  have hnum : v.hdr.numClips.toNat = v.clips.length := ofNat_toNat _ (by omega)
  refine ⟨hv, ?_, ?_, ?_, ?_, hclips, ?_, ?_, ?_, ?_, ?_, ?_, ?_, ?_⟩
  · unfold isBulkDataInline
    rw [hh, Option.bind_eq_bind, Option.bind_some]
    unfold View.hdr
    cases v.isInline <;> simp [getIsBulkDataInline]
  · unfold getMaxChunkSize; rw [hh]; rfl
  · unfold getNumSegments; rw [hh]; rfl
  · unfold getNumClips; rw [hh]; rfl
  · intro hash
    unfold contains getNumClips
    rw [hh]
    simp only [Bool.not_true, Bool.false_eq_true, if_false, Option.bind_eq_bind, Option.bind_some]
    rw [hnum, findClip_spec v.buffer hash v.clips hclips _ 0 (by omega), List.drop_zero]
  · intro t
    cases t <;> simp only [getNumChunks, hh, Option.bind_eq_bind, Option.bind_some] <;> rfl
  · intro t i e he
    unfold getChunkDescription
    rw [hh, Option.bind_eq_bind, Option.bind_some]
    cases t with
    | highest => simp [View.descs] at he
    | medium =>
      have e1 : v.buffer = (rawBytes v.pieces.flatten ++ v.hdr.bytes) ++ (entryBytes v.medium ++ (v.pieces.drop 2).flatten) := by
        rw [buffer_cons]; simp [View.pieces]
      have := entry_load (rawBytes v.pieces.flatten ++ v.hdr.bytes) (v.pieces.drop 2).flatten v.medium i e he
        (rawHeaderSize + descsMediumOffset + i * entrySize)
        (by simp only [List.length_append, rawBytes_length, DbHeader.bytes_length]; rfl)
      rw [← e1] at this
      simp only [if_true]
      rw [this.1, this.2]
      rfl
    | lowest =>
      have e1 : v.buffer = (rawBytes v.pieces.flatten ++ (v.hdr.bytes ++ entryBytes v.medium)) ++
          (entryBytes v.low ++ (v.pieces.drop 3).flatten) := by
        rw [buffer_cons]; simp [View.pieces]
      have hoff : descsLowOffset v.hdr = 56 + 8 * v.medium.length := by
        unfold descsLowOffset
        have : v.hdr.numChunks0.toNat = v.medium.length := ofNat_toNat _ (by omega)
        rw [this]
        unfold alignUp dbHeaderSize entrySize; omega
      have := entry_load (rawBytes v.pieces.flatten ++ (v.hdr.bytes ++ entryBytes v.medium)) (v.pieces.drop 3).flatten v.low i e he
        (rawHeaderSize + descsLowOffset v.hdr + i * entrySize)
        (by simp only [List.length_append, rawBytes_length, DbHeader.bytes_length, entryBytes_length, hoff]; unfold rawHeaderSize entrySize; omega)
      rw [← e1] at this
      simp only [reduceCtorEq, if_false]
      rw [this.1, this.2]
      rfl
  · intro t
    cases t <;> simp only [getBulkDataSize, hh, Option.bind_eq_bind, Option.bind_some] <;> rfl
  · intro t ht
    cases t with
    | highest => exact absurd rfl ht
    | medium => simp only [getBulkDataHash, hh, Option.bind_eq_bind, Option.bind_some]; rfl
    | lowest => simp only [getBulkDataHash, hh, Option.bind_eq_bind, Option.bind_some]; rfl
  · intro t
    cases t with
    | highest => exact ⟨fun _ => rfl, fun hc => absurd rfl hc⟩
    | medium =>
      constructor
      · intro hs
        change v.storedMedium = [] at hs
        simp only [getBulkData, hh, Option.bind_eq_bind, Option.bind_some]
        unfold View.hdr; dsimp only
        rw [if_pos hs]; rfl
      · intro hs
        change v.storedMedium ≠ [] at hs
        refine ⟨v.bulkStart, ?_, ?_⟩
        · simp only [getBulkData, hh, Option.bind_eq_bind, Option.bind_some]
          unfold View.hdr; dsimp only
          rw [if_neg hs, safeAddTo_ofNat _ (by omega)]
          congr 2; omega
        · rw [buffer_eq]
          refine loadBytes_flatten _ 6 _ _ _ rfl rfl ?_
          simp only [View.pieces, List.take_succ_cons, List.take_zero, List.flatten_cons, List.flatten_nil, List.length_append,
            rawBytes_length, DbHeader.bytes_length, entryBytes_length, View.pad, List.length_replicate, List.length_nil]
          unfold View.bulkStart View.endOfClips; omega
    | lowest =>
      constructor
      · intro hs
        change v.storedLow = [] at hs
        simp only [getBulkData, hh, Option.bind_eq_bind, Option.bind_some]
        unfold View.hdr; dsimp only
        rw [if_pos hs]; rfl
      · intro hs
        change v.storedLow ≠ [] at hs
        refine ⟨v.bulkStart + v.storedMedium.length, ?_, ?_⟩
        · simp only [getBulkData, hh, Option.bind_eq_bind, Option.bind_some]
          unfold View.hdr; dsimp only
          rw [if_neg hs, safeAddTo_ofNat _ (by omega)]
          congr 2; omega
        · rw [buffer_eq]
          refine loadBytes_flatten _ 7 _ _ _ rfl rfl ?_
          simp only [View.pieces, List.take_succ_cons, List.take_zero, List.flatten_cons, List.flatten_nil, List.length_append,
            rawBytes_length, DbHeader.bytes_length, entryBytes_length, View.pad, List.length_replicate, List.length_nil]
          unfold View.bulkStart View.endOfClips; omega
  · intro hm t p hp
    cases t with
    | highest => simp [getBulkData] at hp
    | medium =>
      simp only [getBulkData, hh, Option.bind_eq_bind, Option.bind_some, Option.some.injEq] at hp
      unfold View.hdr at hp; dsimp only at hp
      by_cases hs : v.storedMedium = []
      · rw [if_pos hs, safeAddTo_invalid] at hp; simp at hp
      · rw [if_neg hs, safeAddTo_ofNat _ (by omega), Option.some.injEq] at hp
        omega
    | lowest =>
      simp only [getBulkData, hh, Option.bind_eq_bind, Option.bind_some, Option.some.injEq] at hp
      unfold View.hdr at hp; dsimp only at hp
      by_cases hs : v.storedLow = []
      · rw [if_pos hs, safeAddTo_invalid] at hp; simp at hp
      · rw [if_neg hs, safeAddTo_ofNat _ (by omega), Option.some.injEq] at hp
        omega
  · unfold getTotalSize
    rw [hh, load_size]
    simp only [Option.bind_eq_bind, Option.bind_some]
    have hi : getIsBulkDataInline v.hdr.misc = v.isInline := by
      unfold View.hdr; cases v.isInline <;> simp [getIsBulkDataInline]
    rw [hi]
    cases v.isInline with
    | true => rfl
    | false =>
      simp only [Bool.false_eq_true, if_false]
      show some (BitVec.ofNat 32 _ + BitVec.ofNat 32 v.bulkMedium.length + BitVec.ofNat 32 v.bulkLow.length) = _
      rw [← BitVec.ofNat_add, ← BitVec.ofNat_add, Nat.add_assoc]

end Acl.DbBuffer
