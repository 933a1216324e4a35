import Verif.Database.Buffer
/-
The byte layout of a database buffer (specification) and lemmas about it.
-/
namespace Acl.DbBuffer
open Acl Acl.Headers Acl.Streaming

/-- What a database is, without its layout. `bulkMedium` and `bulkLow` are the bulk data of the tiers,
`storedMedium` and `storedLow` what is stored inside of the database buffer. -/
structure View where
  version : BitVec 16
  isInline : Bool
  maxChunkSize : BitVec 32
  numSegments : BitVec 32
  medium : List (BitVec 32 × BitVec 32)
  low : List (BitVec 32 × BitVec 32)
  clips : List (BitVec 32 × BitVec 32)
  bulkMedium : Bytes
  bulkLow : Bytes
  storedMedium : Bytes
  storedLow : Bytes

/-- End of the clip metadata in the buffer: two headers, then 8 bytes per entry. -/
def View.endOfClips (v : View) : Nat := 64 + 8 * v.medium.length + 8 * v.low.length + 8 * v.clips.length

/-- Padding to 16 bytes. -/
def View.pad (v : View) : Bytes := List.replicate ((16 - v.endOfClips % 16) % 16) 0#8

/-- Start of the bulk data in the buffer. -/
def View.bulkStart (v : View) : Nat := v.endOfClips + (16 - v.endOfClips % 16) % 16

/-- The database header. -/
def View.hdr (v : View) : DbHeader where
  tag := 0xac11db01#32
  version := v.version
  misc := if v.isInline then 1 else 0
  numChunks0 := BitVec.ofNat 32 v.medium.length
  numChunks1 := BitVec.ofNat 32 v.low.length
  maxChunkSize := v.maxChunkSize
  numClips := BitVec.ofNat 32 v.clips.length
  numSegments := v.numSegments
  clipMetadataOffset := BitVec.ofNat 32 (56 + 8 * v.medium.length + 8 * v.low.length)
  bulkSize0 := BitVec.ofNat 32 v.bulkMedium.length
  bulkSize1 := BitVec.ofNat 32 v.bulkLow.length
  bulkOffset0 := if v.storedMedium = [] then 0xFFFFFFFF#32 else BitVec.ofNat 32 (v.bulkStart - 8)
  bulkOffset1 := if v.storedLow = [] then 0xFFFFFFFF#32 else BitVec.ofNat 32 (v.bulkStart + v.storedMedium.length - 8)
  bulkHash0 := hash32 v.bulkMedium
  bulkHash1 := hash32 v.bulkLow

/-- The pieces of the buffer after the first 8 bytes. -/
def View.pieces (v : View) : List Bytes :=
  [v.hdr.bytes, entryBytes v.medium, entryBytes v.low, entryBytes v.clips, v.pad, v.storedMedium, v.storedLow]

/-- Size and hash of what follows. -/
def rawBytes (body : Bytes) : Bytes := bytesLE (BitVec.ofNat 32 (8 + body.length)) ++ bytesLE (hash32 body)

/-- The buffer. -/
def View.buffer (v : View) : Bytes := rawBytes v.pieces.flatten ++ v.pieces.flatten

/-! ### Lemmas -/

theorem DbHeader.bytes_length (h : DbHeader) : h.bytes.length = 56 := by
  unfold DbHeader.bytes
  simp only [List.length_append, bytesLE_length]

theorem rawBytes_length (b : Bytes) : (rawBytes b).length = 8 := by
  unfold rawBytes
  simp only [List.length_append, bytesLE_length]

theorem entryBytes_length (l : List (BitVec 32 × BitVec 32)) : (entryBytes l).length = 8 * l.length := by
  induction l with
  | nil => rfl
  | cons e l ih => simp only [entryBytes, List.length_append, bytesLE_length, ih, List.length_cons]; omega

theorem load32_skip (A R : Bytes) (n : Nat) : load32 (A ++ R) (A.length + n) = load32 R n := by
  unfold load32
  have g : ∀ k, (A ++ R)[A.length + k]? = R[k]? := by
    intro k; rw [List.getElem?_append_right (by omega)]; congr 1; omega
  simp only [Nat.add_assoc, g]

theorem load16_skip (A R : Bytes) (n : Nat) : load16 (A ++ R) (A.length + n) = load16 R n := by
  unfold load16
  have g : ∀ k, (A ++ R)[A.length + k]? = R[k]? := by
    intro k; rw [List.getElem?_append_right (by omega)]; congr 1; omega
  simp only [Nat.add_assoc, g]

theorem load32_skip4 (w : BitVec 32) (R : Bytes) (n k : Nat) (h : n = k + 4) : load32 (bytesLE w ++ R) n = load32 R k := by
  have := load32_skip (bytesLE w) R k
  rwa [bytesLE_length32, Nat.add_comm, ← h] at this

theorem load32_skip2 (w : BitVec 16) (R : Bytes) (n k : Nat) (h : n = k + 2) : load32 (bytesLE w ++ R) n = load32 R k := by
  have := load32_skip (bytesLE w) R k
  rwa [bytesLE_length16, Nat.add_comm, ← h] at this

theorem load16_skip4 (w : BitVec 32) (R : Bytes) (n k : Nat) (h : n = k + 4) : load16 (bytesLE w ++ R) n = load16 R k := by
  have := load16_skip (bytesLE w) R k
  rwa [bytesLE_length32, Nat.add_comm, ← h] at this

theorem load16_skip2 (w : BitVec 16) (R : Bytes) (n k : Nat) (h : n = k + 2) : load16 (bytesLE w ++ R) n = load16 R k := by
  have := load16_skip (bytesLE w) R k
  rwa [bytesLE_length16, Nat.add_comm, ← h] at this

theorem load32_zero (v : BitVec 32) (R : Bytes) : load32 (bytesLE v ++ R) 0 = some v := load32_bytesLE [] R v 0 rfl
theorem load16_zero (v : BitVec 16) (R : Bytes) : load16 (bytesLE v ++ R) 0 = some v := load16_bytesLE [] R v 0 rfl

theorem loadHeader_bytes (A C : Bytes) (h : DbHeader) (p : Nat) (hp : p = A.length) :
    loadHeader (A ++ (h.bytes ++ C)) p = some h := by
  subst hp
  have z := load32_skip A (h.bytes ++ C) 0
  rw [Nat.add_zero] at z
  unfold loadHeader
  rw [z]
  simp only [load32_skip, load16_skip]
  unfold DbHeader.bytes
  simp only [List.append_assoc]
  have s4 := fun w R k => load32_skip4 w R (k+4) k rfl
  have s2 := fun w R k => load32_skip2 w R (k+2) k rfl
  have t4 := fun w R k => load16_skip4 w R (k+4) k rfl
  have t2 := fun w R k => load16_skip2 w R (k+2) k rfl
  rw [load32_zero, t4 _ _ 0, load16_zero, t4 _ _ 2, t2 _ _ 0, load16_zero]
  rw [s4 _ _ 4, s2 _ _ 2, s2 _ _ 0, load32_zero]
  rw [s4 _ _ 8, s2 _ _ 6, s2 _ _ 4, s4 _ _ 0, load32_zero]
  rw [s4 _ _ 12, s2 _ _ 10, s2 _ _ 8, s4 _ _ 4, s4 _ _ 0, load32_zero]
  rw [s4 _ _ 16, s2 _ _ 14, s2 _ _ 12, s4 _ _ 8, s4 _ _ 4, s4 _ _ 0, load32_zero]
  rw [s4 _ _ 20, s2 _ _ 18, s2 _ _ 16, s4 _ _ 12, s4 _ _ 8, s4 _ _ 4, s4 _ _ 0, load32_zero]
  rw [s4 _ _ 24, s2 _ _ 22, s2 _ _ 20, s4 _ _ 16, s4 _ _ 12, s4 _ _ 8, s4 _ _ 4, s4 _ _ 0, load32_zero]
  rw [s4 _ _ 28, s2 _ _ 26, s2 _ _ 24, s4 _ _ 20, s4 _ _ 16, s4 _ _ 12, s4 _ _ 8, s4 _ _ 4, s4 _ _ 0, load32_zero]
  rw [s4 _ _ 32, s2 _ _ 30, s2 _ _ 28, s4 _ _ 24, s4 _ _ 20, s4 _ _ 16, s4 _ _ 12, s4 _ _ 8, s4 _ _ 4, s4 _ _ 0, load32_zero]
  rw [s4 _ _ 36, s2 _ _ 34, s2 _ _ 32, s4 _ _ 28, s4 _ _ 24, s4 _ _ 20, s4 _ _ 16, s4 _ _ 12, s4 _ _ 8, s4 _ _ 4, s4 _ _ 0, load32_zero]
  rw [s4 _ _ 40, s2 _ _ 38, s2 _ _ 36, s4 _ _ 32, s4 _ _ 28, s4 _ _ 24, s4 _ _ 20, s4 _ _ 16, s4 _ _ 12, s4 _ _ 8, s4 _ _ 4, s4 _ _ 0, load32_zero]
  rw [s4 _ _ 44, s2 _ _ 42, s2 _ _ 40, s4 _ _ 36, s4 _ _ 32, s4 _ _ 28, s4 _ _ 24, s4 _ _ 20, s4 _ _ 16, s4 _ _ 12, s4 _ _ 8, s4 _ _ 4, s4 _ _ 0, load32_zero]
  rw [s4 _ _ 48, s2 _ _ 46, s2 _ _ 44, s4 _ _ 40, s4 _ _ 36, s4 _ _ 32, s4 _ _ 28, s4 _ _ 24, s4 _ _ 20, s4 _ _ 16, s4 _ _ 12, s4 _ _ 8, s4 _ _ 4, s4 _ _ 0, load32_zero]
  rfl

/-- A store that replaces piece `k`. -/
theorem store_flatten (L : List Bytes) (k : Nat) (B X : Bytes) (off : Nat) (hk : L[k]? = some B) (hl : X.length = B.length)
    (ho : off = (L.take k).flatten.length) : store L.flatten off X = some (L.set k X).flatten := by
  obtain ⟨hlt, hB⟩ := List.getElem?_eq_some_iff.1 hk
  have e1 : L.flatten = (L.take k).flatten ++ (B ++ (L.drop (k+1)).flatten) := by
    conv_lhs => rw [← List.take_append_drop k L, List.flatten_append, List.drop_eq_getElem_cons hlt, List.flatten_cons, hB]
  have e2 : (L.set k X).flatten = (L.take k).flatten ++ (X ++ (L.drop (k+1)).flatten) := by
    rw [List.set_eq_take_append_cons_drop, if_pos hlt, List.flatten_append, List.flatten_cons]
  rw [e1, e2]
  exact store_append _ _ _ _ _ ho hl

theorem loadBytes_flatten (L : List Bytes) (k : Nat) (B : Bytes) (off n : Nat) (hk : L[k]? = some B) (hn : n = B.length)
    (ho : off = (L.take k).flatten.length) : loadBytes L.flatten off n = some B := by
  obtain ⟨hlt, hB⟩ := List.getElem?_eq_some_iff.1 hk
  have e1 : L.flatten = (L.take k).flatten ++ (B ++ (L.drop (k+1)).flatten) := by
    conv_lhs => rw [← List.take_append_drop k L, List.flatten_append, List.drop_eq_getElem_cons hlt, List.flatten_cons, hB]
  rw [e1]
  exact loadBytes_append _ _ _ _ _ ho hn

theorem finishBuffer_append (Z body : Bytes) (size : Nat) (hZ : Z.length = 8) (hs : size = 8 + body.length) :
    finishBuffer (Z ++ body) size = some (rawBytes body ++ body) := by
  unfold finishBuffer rawHeaderSize
  have h1 : loadBytes (Z ++ body) 8 (size - 8) = some body := by
    have := loadBytes_append Z body [] 8 (size - 8) hZ.symm (by omega)
    rwa [List.append_nil] at this
  rw [h1, Option.bind_eq_bind, Option.bind_some]
  have := store_append [] Z body (rawBytes body) 0 rfl (by rw [rawBytes_length, hZ])
  rw [List.nil_append, List.nil_append] at this
  rw [hs]; exact this

theorem pieces_length (v : View) : v.pieces.flatten.length = v.bulkStart - 8 + v.storedMedium.length + v.storedLow.length := by
  unfold View.pieces View.bulkStart View.pad View.endOfClips
  simp only [List.flatten_cons, List.flatten_nil, List.length_append, DbHeader.bytes_length, entryBytes_length,
    List.length_replicate, List.length_nil]
  omega

theorem bulkStart_ge (v : View) : 64 + 8 * v.medium.length + 8 * v.low.length + 8 * v.clips.length ≤ v.bulkStart := by
  unfold View.bulkStart View.endOfClips; omega

theorem buffer_length (v : View) : v.buffer.length = v.bulkStart + v.storedMedium.length + v.storedLow.length := by
  unfold View.buffer
  have := bulkStart_ge v
  rw [List.length_append, rawBytes_length, pieces_length]; omega

/-- The buffer as a list of pieces. -/
theorem buffer_eq (v : View) : v.buffer = (rawBytes v.pieces.flatten :: v.pieces).flatten := by
  unfold View.buffer; rw [List.flatten_cons]

theorem header_buffer (v : View) : header v.buffer = some v.hdr := by
  unfold header View.buffer
  rw [View.pieces, List.flatten_cons]
  exact loadHeader_bytes _ _ _ _ (by rw [rawBytes_length]; rfl)

theorem load_size (v : View) : load32 v.buffer 0 = some (BitVec.ofNat 32 v.buffer.length) := by
  have hl : v.buffer.length = 8 + v.pieces.flatten.length := by
    unfold View.buffer; rw [List.length_append, rawBytes_length]
  rw [hl]
  unfold View.buffer rawBytes
  generalize v.pieces.flatten = b
  rw [List.append_assoc]
  exact load32_zero _ _

theorem load_hash (v : View) : load32 v.buffer 4 = some (hash32 v.pieces.flatten) := by
  unfold View.buffer rawBytes
  generalize v.pieces.flatten = b
  rw [List.append_assoc]
  exact load32_bytesLE _ _ _ 4 (by rw [bytesLE_length])

/-- The database can be read by this version of the library. -/
def View.Legal (v : View) : Prop := 7 ≤ v.version.toNat ∧ v.version.toNat ≤ 10 ∧ v.buffer.length < 2 ^ 32

theorem header_tag (A C : Bytes) (h : DbHeader) (hA : A.length = 8) :
    load32 (A ++ (h.bytes ++ C)) 8 = some h.tag ∧ load16 (A ++ (h.bytes ++ C)) 12 = some h.version := by
  have e1 := load32_skip A (h.bytes ++ C) 0
  have e2 := load16_skip A (h.bytes ++ C) 4
  rw [hA] at e1 e2
  have e3 : h.bytes ++ C = bytesLE h.tag ++ (bytesLE h.version ++ (h.bytes.drop 6 ++ C)) := by
    unfold DbHeader.bytes
    generalize (bytesLE h.misc ++ _ : Bytes) = x
    have : (bytesLE h.tag ++ (bytesLE h.version ++ x)).drop 6 = x := by
      rw [← List.append_assoc]; exact List.drop_left' (by simp [bytesLE_length])
    rw [this]; simp only [List.append_assoc]
  constructor
  · refine e1.trans ?_
    rw [e3]; exact load32_zero _ _
  · refine e2.trans ?_
    rw [e3, load16_skip4 _ _ 4 0 rfl]; exact load16_zero _ _

theorem buffer_cons (v : View) : v.buffer = rawBytes v.pieces.flatten ++ (v.hdr.bytes ++ (v.pieces.drop 1).flatten) := rfl

theorem valid_buffer (v : View) (h : v.Legal) : databaseIsValid v.buffer true true = some .ok := by
  unfold databaseIsValid
  obtain ⟨h1, h2, h3⟩ := h
  obtain ⟨ht, hv⟩ := header_tag _ (v.pieces.drop 1).flatten v.hdr (rawBytes_length v.pieces.flatten)
  rw [← buffer_cons] at ht hv
  change _ = some 0xac11db01#32 at ht
  change _ = some v.version at hv
  rw [ht, hv, load_size, load_hash]
  have hlen : (BitVec.ofNat 32 v.buffer.length).toNat = v.buffer.length := by
    rw [BitVec.toNat_ofNat, Nat.mod_eq_of_lt h3]
  have hd : (v.buffer.drop 8).take (v.buffer.length - 8) = v.pieces.flatten := by
    have : v.buffer.drop 8 = v.pieces.flatten := by
      unfold View.buffer
      exact List.drop_left' (rawBytes_length _)
    rw [this]
    apply List.take_of_length_le
    have := bulkStart_ge v
    rw [buffer_length, pieces_length]; omega
  have h8 : ¬ v.buffer.length < 8 := by have := bulkStart_ge v; rw [buffer_length]; omega
  simp only [Bool.not_true, Bool.false_eq_true, if_false, Option.bind_eq_bind, Option.bind_some, hlen, hd, bne_self_eq_false, if_true]
  rw [if_neg (by simp; omega), if_neg (by simp; omega)]
  rfl

end Acl.DbBuffer
