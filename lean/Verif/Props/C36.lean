import Verif.Database.BufferApi
/-
C36: split_database_bulk_data and strip_database_quality_tier.
The byte layout (`View.buffer`) is in Database/BufferLemmas.lean, what its accessors return
(`Represents`) in Database/BufferApi.lean.
-/
namespace Acl.DbBuffer
open Acl Acl.Headers Acl.Streaming

/-! ### Lemmas -/

theorem layout_eq (nm nl nc ms ls : Nat) : layout nm nl nc ms ls =
    (64 + 8 * nm + 8 * nl, 64 + 8 * nm + 8 * nl + 8 * nc + (16 - (64 + 8 * nm + 8 * nl + 8 * nc) % 16) % 16,
      64 + 8 * nm + 8 * nl + 8 * nc + (16 - (64 + 8 * nm + 8 * nl + 8 * nc) % 16) % 16 + ms,
      64 + 8 * nm + 8 * nl + 8 * nc + (16 - (64 + 8 * nm + 8 * nl + 8 * nc) % 16) % 16 + ms + ls) := by
  unfold layout alignUp rawHeaderSize dbHeaderSize entrySize
  dsimp only
  refine Prod.ext ?_ (Prod.ext ?_ (Prod.ext ?_ ?_)) <;> dsimp only <;> omega

theorem zeros_split (ns : List Nat) : List.replicate ns.sum (0#8) = (ns.map (fun n => List.replicate n (0#8))).flatten := by
  induction ns with
  | nil => rfl
  | cons n ns ih => rw [List.sum_cons, ← List.replicate_append_replicate, List.map_cons, List.flatten_cons, ih]

theorem storeAt_flatten (L : List Bytes) (k : Nat) (B X : Bytes) (p : Option Nat) (hk : L[k]? = some B) (hl : X.length = B.length)
    (ho : X ≠ [] → p = some (L.take k).flatten.length) : storeAt L.flatten p X = some (L.set k X).flatten := by
  unfold storeAt
  by_cases h : X = []
  · subst h
    have hB : B = [] := List.length_eq_zero_iff.1 (by rw [← hl]; rfl)
    subst hB
    have : L.set k [] = L := by
      obtain ⟨hlt, e⟩ := List.getElem?_eq_some_iff.1 hk
      rw [← e]; exact List.set_getElem_self hlt
    rw [this]; rfl
  · rw [if_neg (by simpa using h), ho h]
    exact store_flatten L k B X _ hk hl rfl

theorem hashAt_flatten (L : List Bytes) (k : Nat) (B : Bytes) (p : Option Nat) (n : Nat) (hk : L[k]? = some B) (hn : n = B.length)
    (ho : B ≠ [] → p = some (L.take k).flatten.length) : hashAt L.flatten p n = some (hash32 B) := by
  unfold hashAt
  by_cases h : B = []
  · subst h; rw [if_pos (by simpa using hn)]
  · have hB : B.length ≠ 0 := fun hc => h (List.length_eq_zero_iff.1 hc)
    rw [if_neg (by omega), ho h]
    simp only [Option.bind_eq_bind, Option.bind_some]
    rw [loadBytes_flatten L k B _ n hk hn rfl, Option.bind_some]

theorem copyOut_flatten (L : List Bytes) (k : Nat) (B : Bytes) (p : Option Nat) (n : Nat) (hk : L[k]? = some B) (hn : n = B.length)
    (ho : B ≠ [] → p = some (L.take k).flatten.length) : copyOut L.flatten p n = some B := by
  unfold copyOut
  by_cases h : B = []
  · subst h; rw [if_pos (by simpa using hn)]
  · have hB : B.length ≠ 0 := fun hc => h (List.length_eq_zero_iff.1 hc)
    rw [if_neg (by omega), ho h]
    simp only [Option.bind_eq_bind, Option.bind_some]
    exact loadBytes_flatten L k B _ n hk hn rfl

theorem loadBytes_prefix (B C : Bytes) (n : Nat) (hn : n = B.length) : loadBytes (B ++ C) 0 n = some B := by
  unfold loadBytes
  subst hn
  rw [if_pos (by simp), List.drop_zero, List.take_left]

theorem sub_sizes (a b c : Nat) (h : a < 2 ^ 32) (h2 : b + c ≤ a) :
    (BitVec.ofNat 32 a - BitVec.ofNat 32 b - BitVec.ofNat 32 c).toNat = a - b - c := by
  have e1 : BitVec.ofNat 32 a - BitVec.ofNat 32 b - BitVec.ofNat 32 c = BitVec.ofNat 32 (a - b - c) := by
    rw [BitVec.ofNat_sub_ofNat_of_le _ _ (by omega) (by omega), BitVec.ofNat_sub_ofNat_of_le _ _ (by omega) (by omega)]
  rw [e1, ofNat_toNat _ (by omega)]

end Acl.DbBuffer

namespace Acl.C36
open Acl Acl.DbBuffer Acl.Headers Acl.Streaming

/-- The database without its bulk data. -/
def splitView (v : View) : View := { v with isInline := false, storedMedium := [], storedLow := [] }

/-- All the bulk data is in the buffer. -/
def AllInline (v : View) : Prop := v.isInline = true ∧ v.storedMedium = v.bulkMedium ∧ v.storedLow = v.bulkLow

/-- **C36**, split: the new database is the old one without the bulk data; the bulk data of both tiers
comes back byte for byte. -/
theorem C36_split (v : View) (h : v.Legal) (hi : AllInline v) :
    split v.buffer = some (some ((splitView v).buffer, v.bulkMedium, v.bulkLow)) := by
  obtain ⟨h1, h2, h3⟩ := hi
  have R := represents_buffer v h
  have hlen := h.2.2
  have hb := bulkStart_ge v
  have hbl := buffer_length v
  unfold split
  rw [R.valid, R.isInline, R.totalSize, R.bulkSize, R.bulkSize, h1]
  simp only [Option.bind_eq_bind, Option.bind_some, ne_eq, not_true_eq_false, if_false, Bool.not_true, Bool.false_eq_true, if_true,
    Nat.add_zero]
  have hm : (v.bulk .medium).length = v.storedMedium.length := by rw [h2]; rfl
  have hl : (v.bulk .lowest).length = v.storedLow.length := by rw [h3]; rfl
  rw [hm, hl, sub_sizes _ _ _ hlen (by omega), ofNat_toNat _ (by omega), ofNat_toNat _ (by omega)]
  have hs : v.buffer.length - v.storedMedium.length - v.storedLow.length = v.bulkStart := by omega
  rw [hs]
  have hl1 : loadBytes v.buffer 0 v.bulkStart = some (rawBytes v.pieces.flatten ++ (v.hdr.bytes ++ (entryBytes v.medium ++ (entryBytes v.low ++ (entryBytes v.clips ++ v.pad))))) := by
    have e : v.buffer = (rawBytes v.pieces.flatten ++ (v.hdr.bytes ++ (entryBytes v.medium ++ (entryBytes v.low ++ (entryBytes v.clips ++ v.pad))))) ++ (v.storedMedium ++ v.storedLow) := by
      rw [buffer_cons]; simp [View.pieces]
    rw [e]
    apply loadBytes_prefix
    simp only [List.length_append, rawBytes_length, DbHeader.bytes_length, entryBytes_length, View.pad, List.length_replicate]
    unfold View.bulkStart View.endOfClips; omega
  rw [hl1, Option.bind_some]
  have hh : header (rawBytes v.pieces.flatten ++ (v.hdr.bytes ++ (entryBytes v.medium ++ (entryBytes v.low ++ (entryBytes v.clips ++ v.pad))))) = some v.hdr :=
    loadHeader_bytes _ _ _ _ (by rw [rawBytes_length]; rfl)
  rw [hh, Option.bind_some]
  have hst := store_append (rawBytes v.pieces.flatten) v.hdr.bytes (entryBytes v.medium ++ (entryBytes v.low ++ (entryBytes v.clips ++ v.pad)))
    (splitView v).hdr.bytes rawHeaderSize (by rw [rawBytes_length]; rfl) (by rw [DbHeader.bytes_length, DbHeader.bytes_length])
  have hhdr : (splitView v).hdr = { v.hdr with bulkOffset0 := 0xFFFFFFFF#32, bulkOffset1 := 0xFFFFFFFF#32, misc := setIsBulkDataInline v.hdr.misc false } := by
    have : v.hdr.misc = 1 := by unfold View.hdr; rw [h1]; rfl
    rw [this]
    unfold splitView View.hdr
    simp [setIsBulkDataInline]
  rw [hhdr] at hst
  rw [hst, Option.bind_some]
  have hfin := finishBuffer_append (rawBytes v.pieces.flatten) (splitView v).pieces.flatten v.bulkStart (rawBytes_length _)
    (by
      have e : (splitView v).bulkStart = v.bulkStart := by unfold splitView View.bulkStart View.endOfClips; rfl
      have e2 : (splitView v).storedMedium.length = 0 := by unfold splitView; rfl
      have e3 : (splitView v).storedLow.length = 0 := by unfold splitView; rfl
      rw [pieces_length, e, e2, e3]; omega)
  have hp : (splitView v).pieces.flatten = (splitView v).hdr.bytes ++ (entryBytes v.medium ++ (entryBytes v.low ++ (entryBytes v.clips ++ v.pad))) := by
    unfold View.pieces
    simp only [List.flatten_cons, List.flatten_nil, List.append_nil]
    unfold splitView View.pad View.endOfClips
    simp only [List.append_nil]
  have hbuf : (splitView v).buffer = rawBytes (splitView v).pieces.flatten ++ (splitView v).pieces.flatten := rfl
  rw [hbuf]
  rw [hp, hhdr] at hfin ⊢
  rw [hfin, Option.bind_some]
  have hcm : ∀ t (b : Bytes), v.stored t = b → ∃ p, getBulkData v.buffer t = some p ∧ copyOut v.buffer p b.length = some b := by
    intro t b hb'
    obtain ⟨ha, hc⟩ := R.bulkData t
    by_cases hemp : v.stored t = []
    · refine ⟨none, ha hemp, ?_⟩
      rw [← hb', hemp]; rfl
    · obtain ⟨p, e1, e2⟩ := hc hemp
      refine ⟨some p, e1, ?_⟩
      rw [← hb']
      unfold copyOut
      rw [if_neg (fun hz => hemp (List.length_eq_zero_iff.1 hz)), Option.bind_eq_bind, Option.bind_some, e2]
  obtain ⟨p, e1, e2⟩ := hcm .medium v.storedMedium rfl
  obtain ⟨q, e3, e4⟩ := hcm .lowest v.storedLow rfl
  rw [e1, Option.bind_some, e2, Option.bind_some, e3, Option.bind_some, e4, Option.bind_some, h2, h3]

/-- The database without tier `t`. A database that was split gets as many zero bytes as the remaining
tier has bulk data. -/
def stripView (v : View) (t : Tier) : View :=
  if t = .medium then
    { v with medium := [], bulkMedium := [], storedMedium := []
             storedLow := if v.isInline then v.storedLow else List.replicate v.bulkLow.length 0#8 }
  else
    { v with low := [], bulkLow := [], storedLow := []
             storedMedium := if v.isInline then v.storedMedium else List.replicate v.bulkMedium.length 0#8 }

/-- What is stored is all the bulk data, or nothing if the database was split. -/
def WellFormed (v : View) : Prop :=
  v.Legal ∧ v.bulkStart + v.bulkMedium.length + v.bulkLow.length < 2 ^ 32 ∧
  (v.isInline = true → v.storedMedium = v.bulkMedium ∧ v.storedLow = v.bulkLow)

theorem strip_medium (v : View) (h : WellFormed v) (hne : v.bulkMedium ≠ []) :
    strip v.buffer .medium = some (some (stripView v .medium).buffer) := by
  obtain ⟨hleg, hsize, hin⟩ := h
  have R := represents_buffer v hleg
  have hlen := hleg.2.2
  have hb := bulkStart_ge v
  have hbl := buffer_length v
  have hh := header_buffer v
  have hml : v.bulkMedium.length ≠ 0 := fun hc => hne (List.length_eq_zero_iff.1 hc)
  have hhas : hasBulkData v.buffer .medium = some true := by
    unfold hasBulkData
    dsimp only
    rw [R.bulkSize]
    simp only [Option.bind_eq_bind, Option.bind_some, Option.some.injEq, bne_iff_ne, ne_eq]
    intro hc
    have := congrArg BitVec.toNat hc
    change (BitVec.ofNat 32 v.bulkMedium.length).toNat = 0 at this
    rw [ofNat_toNat _ (by omega)] at this
    exact hml this
  have hn1 : v.hdr.numChunks1.toNat = v.low.length := ofNat_toNat _ (by omega)
  have hn0 : v.hdr.numChunks0.toNat = v.medium.length := ofNat_toNat _ (by omega)
  have hnc : v.hdr.numClips.toNat = v.clips.length := ofNat_toNat _ (by omega)
  have hbs1 : v.hdr.bulkSize1.toNat = v.bulkLow.length := ofNat_toNat _ (by omega)
  have hcm : v.hdr.clipMetadataOffset.toNat = 56 + 8 * v.medium.length + 8 * v.low.length := ofNat_toNat _ (by omega)
  generalize hw : stripView v .medium = w
  have w1 : w.low = v.low := by rw [← hw]; rfl
  have w2 : w.clips = v.clips := by rw [← hw]; rfl
  have w3 : w.medium = [] := by rw [← hw]; rfl
  have w4 : w.storedMedium = [] := by rw [← hw]; rfl
  have w5 : w.storedLow.length = v.bulkLow.length := by
    rw [← hw]
    show (if v.isInline then v.storedLow else List.replicate v.bulkLow.length 0#8).length = _
    by_cases hi : v.isInline = true
    · rw [if_pos hi, (hin hi).2]
    · rw [if_neg hi, List.length_replicate]
  have hws : w.bulkStart = 64 + 8 * 0 + 8 * v.low.length + 8 * v.clips.length + (16 - (64 + 8 * 0 + 8 * v.low.length + 8 * v.clips.length) % 16) % 16 := by
    unfold View.bulkStart View.endOfClips
    rw [w1, w2, w3]; rfl
  have hwle : w.bulkStart + v.bulkLow.length < 2 ^ 32 := by
    unfold View.bulkStart View.endOfClips at hsize; omega
  unfold strip
  rw [R.valid, hhas, R.isInline, hh]
  simp only [Option.bind_eq_bind, Option.bind_some, ne_eq, not_true_eq_false, if_false, Bool.not_true, Bool.false_eq_true, if_true,
    reduceCtorEq, not_false_eq_true, hn1, hnc, hbs1, layout_eq]
  rw [← hws, Nat.add_zero w.bulkStart]
  -- the header
  have hoff1 : offsetIf (v.bulkLow.length != 0) w.bulkStart = w.hdr.bulkOffset1 := by
    unfold offsetIf View.hdr
    dsimp only
    by_cases hz : v.bulkLow.length = 0
    · rw [if_neg (by simpa using hz), if_pos (List.length_eq_zero_iff.1 (by rw [w5]; exact hz))]
    · rw [if_pos (by simpa using hz), if_neg (by intro hc; rw [hc] at w5; exact hz w5.symm), w4]; rfl
  have hclip : (BitVec.ofNat 32 (64 + 8 * 0 + 8 * v.low.length - rawHeaderSize)) = w.hdr.clipMetadataOffset := by
    unfold View.hdr; dsimp only
    rw [w1, w3]
    congr 1
    show _ - 8 = 56 + 8 * 0 + _
    omega
  rw [hoff1, hclip]
  have hhdr : (DbHeader.mk v.hdr.tag v.hdr.version v.hdr.misc 0 v.hdr.numChunks1 v.hdr.maxChunkSize v.hdr.numClips v.hdr.numSegments
      w.hdr.clipMetadataOffset 0 v.hdr.bulkSize1 4294967295#32 w.hdr.bulkOffset1 (hash32 []) v.hdr.bulkHash1 : DbHeader) = w.hdr := by
    have e0 : w.hdr.bulkOffset0 = 4294967295#32 := by
      unfold View.hdr; dsimp only; rw [if_pos w4]
    have e1 : w.hdr.bulkHash0 = hash32 [] := by rw [← hw]; unfold stripView View.hdr; rfl
    rw [← e0, ← e1, ← hw]; rfl
  rw [hhdr]
  have hwcm : w.hdr.clipMetadataOffset.toNat = 56 + 8 * v.low.length := by
    rw [← hclip, ofNat_toNat _ (by unfold rawHeaderSize; omega)]; unfold rawHeaderSize; omega
  have hdl : descsLowOffset w.hdr = 56 := by
    unfold descsLowOffset
    have : w.hdr.numChunks0 = 0 := by rw [← hw]; rfl
    rw [this]; rfl
  have hdlv : descsLowOffset v.hdr = 56 + 8 * v.medium.length := by
    unfold descsLowOffset
    rw [hn0]
    unfold alignUp dbHeaderSize entrySize; omega
  -- reads from the source
  have hr1 : loadBytes v.buffer (rawHeaderSize + descsLowOffset v.hdr) (v.low.length * entrySize) = some (entryBytes v.low) := by
    rw [buffer_eq]
    refine loadBytes_flatten _ 3 _ _ _ rfl (by rw [entryBytes_length]; unfold entrySize; omega) ?_
    simp only [View.pieces, List.take_succ_cons, List.take_zero, List.flatten_cons, List.flatten_nil, List.length_append,
      rawBytes_length, DbHeader.bytes_length, entryBytes_length, List.length_nil, hdlv]
    unfold rawHeaderSize; omega
  have hr2 : loadBytes v.buffer (rawHeaderSize + v.hdr.clipMetadataOffset.toNat) (v.clips.length * entrySize) = some (entryBytes v.clips) := by
    rw [buffer_eq]
    refine loadBytes_flatten _ 4 _ _ _ rfl (by rw [entryBytes_length]; unfold entrySize; omega) ?_
    simp only [View.pieces, List.take_succ_cons, List.take_zero, List.flatten_cons, List.flatten_nil, List.length_append,
      rawBytes_length, DbHeader.bytes_length, entryBytes_length, List.length_nil, hcm]
    unfold rawHeaderSize; omega
  -- the zeroed buffer in pieces
  have hz : List.replicate (w.bulkStart + v.bulkLow.length) (0#8) =
      [List.replicate 8 (0#8), List.replicate 56 (0#8), List.replicate (8 * v.low.length) (0#8),
        List.replicate (8 * v.clips.length) (0#8), w.pad, List.replicate v.bulkLow.length (0#8)].flatten := by
    have := zeros_split [8, 56, 8 * v.low.length, 8 * v.clips.length, (16 - w.endOfClips % 16) % 16, v.bulkLow.length]
    have e : [8, 56, 8 * v.low.length, 8 * v.clips.length, (16 - w.endOfClips % 16) % 16, v.bulkLow.length].sum = w.bulkStart + v.bulkLow.length := by
      rw [View.bulkStart]
      simp only [List.sum_cons, List.sum_nil]
      have : w.endOfClips = 64 + 8 * v.low.length + 8 * v.clips.length := by
        unfold View.endOfClips; rw [w1, w2, w3]; simp
      omega
    rw [e] at this
    exact this
  have s1 : store [List.replicate 8 (0#8), List.replicate 56 (0#8), List.replicate (8 * v.low.length) (0#8),
        List.replicate (8 * v.clips.length) (0#8), w.pad, List.replicate v.bulkLow.length (0#8)].flatten rawHeaderSize w.hdr.bytes =
      some [List.replicate 8 (0#8), w.hdr.bytes, List.replicate (8 * v.low.length) (0#8),
        List.replicate (8 * v.clips.length) (0#8), w.pad, List.replicate v.bulkLow.length (0#8)].flatten :=
    store_flatten _ 1 _ w.hdr.bytes _ rfl (by rw [DbHeader.bytes_length, List.length_replicate])
      (by simp only [List.take_succ_cons, List.take_zero, List.flatten_cons, List.flatten_nil, List.length_append, List.length_replicate,
            List.length_nil]; rfl)
  have s2 : store [List.replicate 8 (0#8), w.hdr.bytes, List.replicate (8 * v.low.length) (0#8),
        List.replicate (8 * v.clips.length) (0#8), w.pad, List.replicate v.bulkLow.length (0#8)].flatten
        (rawHeaderSize + descsLowOffset w.hdr) (entryBytes v.low) =
      some [List.replicate 8 (0#8), w.hdr.bytes, entryBytes v.low,
        List.replicate (8 * v.clips.length) (0#8), w.pad, List.replicate v.bulkLow.length (0#8)].flatten :=
    store_flatten _ 2 _ (entryBytes v.low) _ rfl (by rw [entryBytes_length, List.length_replicate])
      (by simp only [List.take_succ_cons, List.take_zero, List.flatten_cons, List.flatten_nil, List.length_append, List.length_replicate,
            DbHeader.bytes_length, List.length_nil, hdl]; rfl)
  have s3 : store [List.replicate 8 (0#8), w.hdr.bytes, entryBytes v.low,
        List.replicate (8 * v.clips.length) (0#8), w.pad, List.replicate v.bulkLow.length (0#8)].flatten
        (rawHeaderSize + w.hdr.clipMetadataOffset.toNat) (entryBytes v.clips) =
      some [List.replicate 8 (0#8), w.hdr.bytes, entryBytes v.low, entryBytes v.clips, w.pad, List.replicate v.bulkLow.length (0#8)].flatten :=
    store_flatten _ 3 _ (entryBytes v.clips) _ rfl (by rw [entryBytes_length, List.length_replicate])
      (by simp only [List.take_succ_cons, List.take_zero, List.flatten_cons, List.flatten_nil, List.length_append, List.length_replicate,
            DbHeader.bytes_length, List.length_nil, hwcm, entryBytes_length]; unfold rawHeaderSize; omega)
  rw [hz, s1, Option.bind_some, hr1, Option.bind_some, s2, Option.bind_some, hr2, Option.bind_some, s3, Option.bind_some]
  have hstore : (if v.isInline = true then (getBulkData v.buffer Tier.lowest).bind fun a_2 =>
        (copyOut v.buffer a_2 v.bulkLow.length).bind fun a_3 =>
          storeAt [List.replicate 8 0#8, w.hdr.bytes, entryBytes v.low, entryBytes v.clips, w.pad, List.replicate v.bulkLow.length 0#8].flatten
            (safeAddTo w.hdr.bulkOffset1) a_3
      else some [List.replicate 8 0#8, w.hdr.bytes, entryBytes v.low, entryBytes v.clips, w.pad, List.replicate v.bulkLow.length 0#8].flatten)
      = some (List.replicate 8 0#8 ++ w.pieces.flatten) := by
    have hwp : List.replicate 8 0#8 ++ w.pieces.flatten =
        [List.replicate 8 0#8, w.hdr.bytes, entryBytes v.low, entryBytes v.clips, w.pad, w.storedLow].flatten := by
      unfold View.pieces
      rw [w1, w2, w3, w4]
      rfl
    rw [hwp]
    by_cases hi : v.isInline = true
    · rw [if_pos hi]
      have hsl : w.storedLow = v.storedLow := by rw [← hw]; exact if_pos hi
      have hsb := (hin hi).2
      have hcopy : ∃ p, getBulkData v.buffer .lowest = some p ∧ copyOut v.buffer p v.bulkLow.length = some v.bulkLow := by
        obtain ⟨ha, hc⟩ := R.bulkData .lowest
        change (v.storedLow = [] → _) at ha
        change (v.storedLow ≠ [] → ∃ p, _ ∧ loadBytes _ p v.storedLow.length = some v.storedLow) at hc
        rw [hsb] at ha hc
        by_cases hemp : v.bulkLow = []
        · exact ⟨none, ha hemp, by rw [hemp]; rfl⟩
        · obtain ⟨p, e1, e2⟩ := hc hemp
          refine ⟨some p, e1, ?_⟩
          unfold copyOut
          rw [if_neg (fun hz => hemp (List.length_eq_zero_iff.1 hz)), Option.bind_eq_bind, Option.bind_some, e2]
      obtain ⟨p, e1, e2⟩ := hcopy
      rw [e1, Option.bind_some, e2, Option.bind_some, hsl, hsb]
      refine storeAt_flatten _ 5 _ v.bulkLow _ rfl (by rw [List.length_replicate]) ?_
      intro hnel
      have hnel' : ¬ w.storedLow = [] := by rw [hsl, hsb]; exact hnel
      have : w.hdr.bulkOffset1 = BitVec.ofNat 32 (w.bulkStart - 8) := by
        unfold View.hdr; dsimp only
        rw [if_neg hnel', w4]; rfl
      rw [this, safeAddTo_ofNat _ (by omega)]
      congr 1
      simp only [List.take_succ_cons, List.take_zero, List.flatten_cons, List.flatten_nil, List.length_append, List.length_replicate,
            DbHeader.bytes_length, List.length_nil, entryBytes_length, View.pad, View.bulkStart]
      have : w.endOfClips = 64 + 8 * v.low.length + 8 * v.clips.length := by
        unfold View.endOfClips; rw [w1, w2, w3]; simp
      omega
    · rw [if_neg hi]
      have hsl : w.storedLow = List.replicate v.bulkLow.length 0#8 := by rw [← hw]; exact if_neg hi
      rw [hsl]
  rw [hstore, Option.bind_some, finishBuffer_append _ _ _ (by rw [List.length_replicate])
    (by rw [pieces_length, w4, w5]; have := bulkStart_ge w; show _ = 8 + (w.bulkStart - 8 + 0 + _); omega), Option.bind_some]
  rfl

theorem strip_lowest (v : View) (h : WellFormed v) (hne : v.bulkLow ≠ []) :
    strip v.buffer .lowest = some (some (stripView v .lowest).buffer) := by
  obtain ⟨hleg, hsize, hin⟩ := h
  have R := represents_buffer v hleg
  have hlen := hleg.2.2
  have hb := bulkStart_ge v
  have hbl := buffer_length v
  have hh := header_buffer v
  have hml : v.bulkLow.length ≠ 0 := fun hc => hne (List.length_eq_zero_iff.1 hc)
  have hhas : hasBulkData v.buffer .lowest = some true := by
    unfold hasBulkData
    dsimp only
    rw [R.bulkSize]
    simp only [Option.bind_eq_bind, Option.bind_some, Option.some.injEq, bne_iff_ne, ne_eq]
    intro hc
    have := congrArg BitVec.toNat hc
    change (BitVec.ofNat 32 v.bulkLow.length).toNat = 0 at this
    rw [ofNat_toNat _ (by omega)] at this
    exact hml this
  have hn1 : v.hdr.numChunks1.toNat = v.low.length := ofNat_toNat _ (by omega)
  have hn0 : v.hdr.numChunks0.toNat = v.medium.length := ofNat_toNat _ (by omega)
  have hnc : v.hdr.numClips.toNat = v.clips.length := ofNat_toNat _ (by omega)
  have hbs1 : v.hdr.bulkSize0.toNat = v.bulkMedium.length := ofNat_toNat _ (by omega)
  have hcm : v.hdr.clipMetadataOffset.toNat = 56 + 8 * v.medium.length + 8 * v.low.length := ofNat_toNat _ (by omega)
  generalize hw : stripView v .lowest = w
  have w1 : w.medium = v.medium := by rw [← hw]; rfl
  have w2 : w.clips = v.clips := by rw [← hw]; rfl
  have w3 : w.low = [] := by rw [← hw]; rfl
  have w4 : w.storedLow = [] := by rw [← hw]; rfl
  have w5 : w.storedMedium.length = v.bulkMedium.length := by
    rw [← hw]
    show (if v.isInline then v.storedMedium else List.replicate v.bulkMedium.length 0#8).length = _
    by_cases hi : v.isInline = true
    · rw [if_pos hi, (hin hi).1]
    · rw [if_neg hi, List.length_replicate]
  have hws : w.bulkStart = 64 + 8 * v.medium.length + 8 * 0 + 8 * v.clips.length + (16 - (64 + 8 * v.medium.length + 8 * 0 + 8 * v.clips.length) % 16) % 16 := by
    unfold View.bulkStart View.endOfClips
    rw [w1, w2, w3]; rfl
  have hwle : w.bulkStart + v.bulkMedium.length < 2 ^ 32 := by
    unfold View.bulkStart View.endOfClips at hsize; omega
  unfold strip
  rw [R.valid, hhas, R.isInline, hh]
  simp only [Option.bind_eq_bind, Option.bind_some, ne_eq, not_true_eq_false, if_false, Bool.not_true, Bool.false_eq_true, if_true,
    reduceCtorEq, not_false_eq_true, hn0, hnc, hbs1, layout_eq]
  rw [← hws, Nat.add_zero (w.bulkStart + _)]
  -- the header
  have hoff1 : offsetIf (v.bulkMedium.length != 0) w.bulkStart = w.hdr.bulkOffset0 := by
    unfold offsetIf View.hdr
    dsimp only
    by_cases hz : v.bulkMedium.length = 0
    · rw [if_neg (by simpa using hz), if_pos (List.length_eq_zero_iff.1 (by rw [w5]; exact hz))]
    · rw [if_pos (by simpa using hz), if_neg (by intro hc; rw [hc] at w5; exact hz w5.symm)]; rfl
  have hclip : (BitVec.ofNat 32 (64 + 8 * v.medium.length + 8 * 0 - rawHeaderSize)) = w.hdr.clipMetadataOffset := by
    unfold View.hdr; dsimp only
    rw [w1, w3]
    congr 1
    show _ - 8 = 56 + _ + 8 * 0
    omega
  rw [hoff1, hclip]
  have hhdr : (DbHeader.mk v.hdr.tag v.hdr.version v.hdr.misc v.hdr.numChunks0 0 v.hdr.maxChunkSize v.hdr.numClips v.hdr.numSegments
      w.hdr.clipMetadataOffset v.hdr.bulkSize0 0 w.hdr.bulkOffset0 4294967295#32 v.hdr.bulkHash0 (hash32 []) : DbHeader) = w.hdr := by
    have e0 : w.hdr.bulkOffset1 = 4294967295#32 := by
      unfold View.hdr; dsimp only; rw [if_pos w4]
    have e1 : w.hdr.bulkHash1 = hash32 [] := by rw [← hw]; unfold stripView View.hdr; rfl
    rw [← e0, ← e1, ← hw]; rfl
  rw [hhdr]
  have hwcm : w.hdr.clipMetadataOffset.toNat = 56 + 8 * v.medium.length := by
    rw [← hclip, ofNat_toNat _ (by unfold rawHeaderSize; omega)]; unfold rawHeaderSize; omega
  -- reads from the source
  have hr1 : loadBytes v.buffer (rawHeaderSize + descsMediumOffset) (v.medium.length * entrySize) = some (entryBytes v.medium) := by
    rw [buffer_eq]
    refine loadBytes_flatten _ 2 _ _ _ rfl (by rw [entryBytes_length]; unfold entrySize; omega) ?_
    simp only [View.pieces, List.take_succ_cons, List.take_zero, List.flatten_cons, List.flatten_nil, List.length_append,
      rawBytes_length, DbHeader.bytes_length, entryBytes_length, List.length_nil]
    rfl
  have hr2 : loadBytes v.buffer (rawHeaderSize + v.hdr.clipMetadataOffset.toNat) (v.clips.length * entrySize) = some (entryBytes v.clips) := by
    rw [buffer_eq]
    refine loadBytes_flatten _ 4 _ _ _ rfl (by rw [entryBytes_length]; unfold entrySize; omega) ?_
    simp only [View.pieces, List.take_succ_cons, List.take_zero, List.flatten_cons, List.flatten_nil, List.length_append,
      rawBytes_length, DbHeader.bytes_length, entryBytes_length, List.length_nil, hcm]
    unfold rawHeaderSize; omega
  -- the zeroed buffer in pieces
  have hz : List.replicate (w.bulkStart + v.bulkMedium.length) (0#8) =
      [List.replicate 8 (0#8), List.replicate 56 (0#8), List.replicate (8 * v.medium.length) (0#8),
        List.replicate (8 * v.clips.length) (0#8), w.pad, List.replicate v.bulkMedium.length (0#8)].flatten := by
    have := zeros_split [8, 56, 8 * v.medium.length, 8 * v.clips.length, (16 - w.endOfClips % 16) % 16, v.bulkMedium.length]
    have e : [8, 56, 8 * v.medium.length, 8 * v.clips.length, (16 - w.endOfClips % 16) % 16, v.bulkMedium.length].sum = w.bulkStart + v.bulkMedium.length := by
      rw [View.bulkStart]
      simp only [List.sum_cons, List.sum_nil]
      have : w.endOfClips = 64 + 8 * v.medium.length + 8 * v.clips.length := by
        unfold View.endOfClips; rw [w1, w2, w3]; simp
      omega
    rw [e] at this
    exact this
  have s1 : store [List.replicate 8 (0#8), List.replicate 56 (0#8), List.replicate (8 * v.medium.length) (0#8),
        List.replicate (8 * v.clips.length) (0#8), w.pad, List.replicate v.bulkMedium.length (0#8)].flatten rawHeaderSize w.hdr.bytes =
      some [List.replicate 8 (0#8), w.hdr.bytes, List.replicate (8 * v.medium.length) (0#8),
        List.replicate (8 * v.clips.length) (0#8), w.pad, List.replicate v.bulkMedium.length (0#8)].flatten :=
    store_flatten _ 1 _ w.hdr.bytes _ rfl (by rw [DbHeader.bytes_length, List.length_replicate])
      (by simp only [List.take_succ_cons, List.take_zero, List.flatten_cons, List.flatten_nil, List.length_append, List.length_replicate,
            List.length_nil]; rfl)
  have s2 : store [List.replicate 8 (0#8), w.hdr.bytes, List.replicate (8 * v.medium.length) (0#8),
        List.replicate (8 * v.clips.length) (0#8), w.pad, List.replicate v.bulkMedium.length (0#8)].flatten
        (rawHeaderSize + descsMediumOffset) (entryBytes v.medium) =
      some [List.replicate 8 (0#8), w.hdr.bytes, entryBytes v.medium,
        List.replicate (8 * v.clips.length) (0#8), w.pad, List.replicate v.bulkMedium.length (0#8)].flatten :=
    store_flatten _ 2 _ (entryBytes v.medium) _ rfl (by rw [entryBytes_length, List.length_replicate])
      (by simp only [List.take_succ_cons, List.take_zero, List.flatten_cons, List.flatten_nil, List.length_append, List.length_replicate,
            DbHeader.bytes_length, List.length_nil]; rfl)
  have s3 : store [List.replicate 8 (0#8), w.hdr.bytes, entryBytes v.medium,
        List.replicate (8 * v.clips.length) (0#8), w.pad, List.replicate v.bulkMedium.length (0#8)].flatten
        (rawHeaderSize + w.hdr.clipMetadataOffset.toNat) (entryBytes v.clips) =
      some [List.replicate 8 (0#8), w.hdr.bytes, entryBytes v.medium, entryBytes v.clips, w.pad, List.replicate v.bulkMedium.length (0#8)].flatten :=
    store_flatten _ 3 _ (entryBytes v.clips) _ rfl (by rw [entryBytes_length, List.length_replicate])
      (by simp only [List.take_succ_cons, List.take_zero, List.flatten_cons, List.flatten_nil, List.length_append, List.length_replicate,
            DbHeader.bytes_length, List.length_nil, hwcm, entryBytes_length]; unfold rawHeaderSize; omega)
  rw [hz, s1, Option.bind_some, hr1, Option.bind_some, s2, Option.bind_some, hr2, Option.bind_some, s3, Option.bind_some]
  have hstore : (if v.isInline = true then (getBulkData v.buffer Tier.medium).bind fun a_2 =>
        (copyOut v.buffer a_2 v.bulkMedium.length).bind fun a_3 =>
          storeAt [List.replicate 8 0#8, w.hdr.bytes, entryBytes v.medium, entryBytes v.clips, w.pad, List.replicate v.bulkMedium.length 0#8].flatten
            (safeAddTo w.hdr.bulkOffset0) a_3
      else some [List.replicate 8 0#8, w.hdr.bytes, entryBytes v.medium, entryBytes v.clips, w.pad, List.replicate v.bulkMedium.length 0#8].flatten)
      = some (List.replicate 8 0#8 ++ w.pieces.flatten) := by
    have hwp : List.replicate 8 0#8 ++ w.pieces.flatten =
        [List.replicate 8 0#8, w.hdr.bytes, entryBytes v.medium, entryBytes v.clips, w.pad, w.storedMedium].flatten := by
      unfold View.pieces
      rw [w1, w2, w3, w4]
      rfl
    rw [hwp]
    by_cases hi : v.isInline = true
    · rw [if_pos hi]
      have hsl : w.storedMedium = v.storedMedium := by rw [← hw]; exact if_pos hi
      have hsb := (hin hi).1
      have hcopy : ∃ p, getBulkData v.buffer .medium = some p ∧ copyOut v.buffer p v.bulkMedium.length = some v.bulkMedium := by
        obtain ⟨ha, hc⟩ := R.bulkData .medium
        change (v.storedMedium = [] → _) at ha
        change (v.storedMedium ≠ [] → ∃ p, _ ∧ loadBytes _ p v.storedMedium.length = some v.storedMedium) at hc
        rw [hsb] at ha hc
        by_cases hemp : v.bulkMedium = []
        · exact ⟨none, ha hemp, by rw [hemp]; rfl⟩
        · obtain ⟨p, e1, e2⟩ := hc hemp
          refine ⟨some p, e1, ?_⟩
          unfold copyOut
          rw [if_neg (fun hz => hemp (List.length_eq_zero_iff.1 hz)), Option.bind_eq_bind, Option.bind_some, e2]
      obtain ⟨p, e1, e2⟩ := hcopy
      rw [e1, Option.bind_some, e2, Option.bind_some, hsl, hsb]
      refine storeAt_flatten _ 5 _ v.bulkMedium _ rfl (by rw [List.length_replicate]) ?_
      intro hnel
      have hnel' : ¬ w.storedMedium = [] := by rw [hsl, hsb]; exact hnel
      have : w.hdr.bulkOffset0 = BitVec.ofNat 32 (w.bulkStart - 8) := by
        unfold View.hdr; dsimp only
        rw [if_neg hnel']
      rw [this, safeAddTo_ofNat _ (by omega)]
      congr 1
      simp only [List.take_succ_cons, List.take_zero, List.flatten_cons, List.flatten_nil, List.length_append, List.length_replicate,
            DbHeader.bytes_length, List.length_nil, entryBytes_length, View.pad, View.bulkStart]
      have : w.endOfClips = 64 + 8 * v.medium.length + 8 * v.clips.length := by
        unfold View.endOfClips; rw [w1, w2, w3]; simp
      omega
    · rw [if_neg hi]
      have hsl : w.storedMedium = List.replicate v.bulkMedium.length 0#8 := by rw [← hw]; exact if_neg hi
      rw [hsl]
  rw [hstore, Option.bind_some, finishBuffer_append _ _ _ (by rw [List.length_replicate])
    (by rw [pieces_length, w4, w5]; have := bulkStart_ge w; show _ = 8 + (w.bulkStart - 8 + 0 + _); omega), Option.bind_some]
  rfl

/-- **C36**, strip: the new database is the old one without tier `t`. -/
theorem C36_strip (v : View) (t : Tier) (h : WellFormed v) (ht : t ≠ .highest) (hne : v.bulk t ≠ []) :
    strip v.buffer t = some (some (stripView v t).buffer) := by
  cases t with
  | highest => exact absurd rfl ht
  | medium => exact strip_medium v h hne
  | lowest => exact strip_lowest v h hne

theorem stripView_legal (v : View) (t : Tier) (h : WellFormed v) : (stripView v t).Legal := by
  obtain ⟨⟨h1, h2, h3⟩, h4, h5⟩ := h
  unfold View.Legal
  rw [buffer_length]
  rw [buffer_length] at h3
  unfold stripView
  split
  · refine ⟨h1, h2, ?_⟩
    have hs : (if v.isInline = true then v.storedLow else List.replicate v.bulkLow.length 0#8).length = v.bulkLow.length := by
      by_cases hi : v.isInline = true
      · rw [if_pos hi, (h5 hi).2]
      · rw [if_neg hi, List.length_replicate]
    dsimp only
    rw [hs]
    unfold View.bulkStart View.endOfClips at *
    dsimp only at *
    simp only [List.length_nil]
    omega
  · refine ⟨h1, h2, ?_⟩
    have hs : (if v.isInline = true then v.storedMedium else List.replicate v.bulkMedium.length 0#8).length = v.bulkMedium.length := by
      by_cases hi : v.isInline = true
      · rw [if_pos hi, (h5 hi).1]
      · rw [if_neg hi, List.length_replicate]
    dsimp only
    rw [hs]
    unfold View.bulkStart View.endOfClips at *
    dsimp only at *
    simp only [List.length_nil]
    omega

theorem splitView_legal (v : View) (h : v.Legal) : (splitView v).Legal := by
  obtain ⟨h1, h2, h3⟩ := h
  refine ⟨h1, h2, ?_⟩
  rw [buffer_length] at h3 ⊢
  unfold splitView View.bulkStart View.endOfClips at *
  dsimp only at *
  simp only [List.length_nil]
  omega

/-- C36, split, in terms of the accessors: the new database is valid, the same chunk descriptions,
clips, sizes and hashes come out of it, and it has no bulk data of its own. -/
theorem C36_split_accessors (v : View) (h : v.Legal) (hi : AllInline v) :
    ∃ m, split v.buffer = some (some (m, v.bulkMedium, v.bulkLow)) ∧ Represents m (splitView v) :=
  ⟨_, C36_split v h hi, represents_buffer _ (splitView_legal v h)⟩

/-- C36, strip, in terms of the accessors. -/
theorem C36_strip_accessors (v : View) (t : Tier) (h : WellFormed v) (ht : t ≠ .highest) (hne : v.bulk t ≠ []) :
    ∃ m, strip v.buffer t = some (some m) ∧ Represents m (stripView v t) ∧
      /- the other tier and the clips are the same, tier `t` is empty -/
      (stripView v t).clips = v.clips ∧ (stripView v t).isInline = v.isInline ∧
      (stripView v t).maxChunkSize = v.maxChunkSize ∧ (stripView v t).numSegments = v.numSegments ∧
      (stripView v t).descs t = [] ∧ (stripView v t).bulk t = [] ∧ (stripView v t).stored t = [] ∧
      ∀ u, u ≠ t → (stripView v t).descs u = v.descs u ∧ (stripView v t).bulk u = v.bulk u ∧
        (v.isInline = true → (stripView v t).stored u = v.bulk u) := by
  refine ⟨_, C36_strip v t h ht hne, represents_buffer _ (stripView_legal v t h), ?_⟩
  obtain ⟨_, _, hin⟩ := h
  cases t with
  | highest => exact absurd rfl ht
  | medium =>
    refine ⟨rfl, rfl, rfl, rfl, rfl, rfl, rfl, ?_⟩
    intro u hu
    cases u with
    | highest => exact ⟨rfl, rfl, fun _ => rfl⟩
    | medium => exact absurd rfl hu
    | lowest => exact ⟨rfl, rfl, fun hi => (if_pos hi).trans (hin hi).2⟩
  | lowest =>
    refine ⟨rfl, rfl, rfl, rfl, rfl, rfl, rfl, ?_⟩
    intro u hu
    cases u with
    | highest => exact ⟨rfl, rfl, fun _ => rfl⟩
    | lowest => exact absurd rfl hu
    | medium => exact ⟨rfl, rfl, fun hi => (if_pos hi).trans (hin hi).1⟩

/-- C36, errors: a database without inline bulk data cannot be split, an empty tier cannot be stripped,
nor the highest tier. -/
theorem C36_errors (v : View) (h : v.Legal) (hb : v.bulkMedium.length < 2 ^ 32 ∧ v.bulkLow.length < 2 ^ 32) :
    (v.isInline = false → split v.buffer = some none) ∧ strip v.buffer .highest = some none ∧
    (∀ t, v.bulk t = [] → strip v.buffer t = some none) := by
  have R := represents_buffer v h
  have hh : strip v.buffer .highest = some none := by
    unfold strip
    rw [R.valid]
    simp
  refine ⟨?_, hh, ?_⟩
  · intro hi
    unfold split
    rw [R.valid, R.isInline, hi]
    simp
  · intro t ht
    cases t with
    | highest => exact hh
    | medium =>
      have : hasBulkData v.buffer .medium = some false := by
        unfold hasBulkData; dsimp only; rw [R.bulkSize, ht]; rfl
      unfold strip
      rw [R.valid, this]; simp
    | lowest =>
      have : hasBulkData v.buffer .lowest = some false := by
        unfold hasBulkData; dsimp only; rw [R.bulkSize, ht]; rfl
      unfold strip
      rw [R.valid, this]; simp

/-- Finding: stripping a tier of a database that was split puts zero bytes in the place of the bulk data
of the other tier, and a pointer to them, although the bulk data is not inline; the total size counts
that tier twice. -/
theorem C36_strip_after_split_finding (v : View) (h : WellFormed v) (hi : v.isInline = false) (hm : v.bulkMedium ≠ [])
    (hl : v.bulkLow ≠ []) (hs : v.bulkStart + v.bulkLow.length + v.bulkLow.length < 2 ^ 32) :
    ∃ m p, strip v.buffer .medium = some (some m) ∧ isBulkDataInline m = some false ∧
      getBulkData m .lowest = some (some p) ∧
      loadBytes m p v.bulkLow.length = some (List.replicate v.bulkLow.length 0#8) ∧
      getTotalSize m = some (BitVec.ofNat 32 (((stripView v .medium).bulkStart + v.bulkLow.length) + v.bulkLow.length)) := by
  have R := represents_buffer _ (stripView_legal v .medium h)
  have hst : (stripView v .medium).stored .lowest = List.replicate v.bulkLow.length 0#8 := if_neg (by rw [hi]; simp)
  have hne : (stripView v .medium).stored .lowest ≠ [] := by
    rw [hst]; intro hc
    have := congrArg List.length hc
    rw [List.length_replicate] at this
    exact hl (List.length_eq_zero_iff.1 this)
  obtain ⟨p, e1, e2⟩ := (R.bulkData .lowest).2 hne
  refine ⟨_, p, C36_strip v .medium h (by simp) hm, ?_, e1, ?_, ?_⟩
  · rw [R.isInline]; show some v.isInline = _; rw [hi]
  · rw [hst, List.length_replicate] at e2; exact e2
  · rw [R.totalSize, buffer_length]
    congr 2
    have hst2 : (stripView v .medium).storedLow.length = v.bulkLow.length := by
      change ((stripView v .medium).stored .lowest).length = _
      rw [hst, List.length_replicate]
    rw [hst2]
    show ((stripView v .medium).bulkStart + 0 + _) + (if v.isInline = true then 0 else 0 + v.bulkLow.length) = _
    rw [hi]; simp

/-! Non-vacuity. -/
def exView : View where
  version := 10
  isInline := true
  maxChunkSize := 4096
  numSegments := 3
  medium := [(48, 0)]
  low := [(4096, 0), (40, 4096)]
  clips := [(0xABCD, 0), (0x1234, 40)]
  bulkMedium := List.replicate 48 7#8
  bulkLow := List.replicate 40 9#8
  storedMedium := List.replicate 48 7#8
  storedLow := List.replicate 40 9#8

theorem exView_ok : AllInline exView ∧ WellFormed exView := by
  refine ⟨⟨rfl, rfl, rfl⟩, ⟨by decide, by decide, ?_⟩, by decide, fun _ => ⟨rfl, rfl⟩⟩
  rw [buffer_length]; decide

/-- The example database has a 200 byte buffer, with the bulk data at 112 and 160. -/
example : exView.bulkStart = 112 ∧ exView.buffer.length = 200 ∧
    getBulkData exView.buffer .lowest = some (some 160) := by decide +kernel

example : ∃ m, strip exView.buffer .medium = some (some m) ∧ getBulkData m .lowest = some (some 96) ∧
    getNumChunks m .medium = some 0 := by
  obtain ⟨m, h, _⟩ := C36_strip_accessors exView .medium exView_ok.2 (by simp) (by decide)
  refine ⟨m, h, ?_⟩
  rw [C36_strip exView .medium exView_ok.2 (by simp) (by decide), Option.some.injEq, Option.some.injEq] at h
  rw [← h]; decide +kernel

end Acl.C36
