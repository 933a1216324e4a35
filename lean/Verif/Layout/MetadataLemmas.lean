import Verif.Layout.Metadata
import Verif.Database.BufferLemmas
import Mathlib.Tactic.Common
/-
The bytes `build` produces (`pieces`), piece by piece.
-/
namespace Acl.Meta
open Acl.Headers Acl.DbBuffer

/-! ### Consecutive stores -/

def seqStore : List Bytes → Bytes → Nat → Option (Bytes × Nat)
  | [], m, p => some (m, p)
  | b :: rest, m, p => do seqStore rest (← store m p b) (p + b.length)

theorem seqStore_append (bs : List Bytes) (A B C : Bytes) (p : Nat) (hp : p = A.length) (hl : bs.flatten.length = B.length) :
    seqStore bs (A ++ (B ++ C)) p = some (A ++ (bs.flatten ++ C), p + bs.flatten.length) := by
  induction bs generalizing A B p with
  | nil =>
    have hB : B = [] := List.length_eq_zero_iff.1 (by rw [← hl]; rfl)
    subst hB; rfl
  | cons b rest ih =>
    rw [List.flatten_cons, List.length_append] at hl
    have hB : B = B.take b.length ++ B.drop b.length := (List.take_append_drop _ _).symm
    rw [seqStore, hB, List.append_assoc (B.take _), store_append A (B.take b.length) _ b p hp (by rw [List.length_take]; omega)]
    simp only [Option.bind_eq_bind, Option.bind_some]
    rw [← List.append_assoc A b, ih (A ++ b) (B.drop b.length) _ (by rw [List.length_append, hp]) (by rw [List.length_drop]; omega)]
    simp only [List.flatten_cons, List.length_append, List.append_assoc, Nat.add_assoc]

/-! ### The bytes of the sections -/

/-- The table of offsets. -/
def offsetWords : List Track → Nat → List (BitVec 32)
  | [], _ => []
  | t :: rest, offset => BitVec.ofNat 32 offset :: offsetWords rest (offset + (t.name.length + 1))

def nameBlocks (tracks : List Track) : List Bytes := tracks.map fun t => t.name ++ [0#8]

def parentWords (mapping : List Nat) (tracks : List Track) : List (BitVec 32) :=
  tracks.map fun t => BitVec.ofNat 32 (Raw.findOutputIndex mapping t.parentIndex)

theorem offsetWords_length (tracks : List Track) (o : Nat) : (offsetWords tracks o).length = tracks.length := by
  induction tracks generalizing o with
  | nil => rfl
  | cons t rest ih => rw [offsetWords, List.length_cons, ih, List.length_cons]

theorem words_length (ws : List (BitVec 32)) : (ws.map bytesLE).flatten.length = 4 * ws.length := by
  induction ws with
  | nil => rfl
  | cons w rest ih => rw [List.map_cons, List.flatten_cons, List.length_append, ih, bytesLE_length, List.length_cons]; omega

theorem nameBlocks_length (tracks : List Track) :
    (nameBlocks tracks).flatten.length = (tracks.map fun t => t.name.length + 1).sum := by
  induction tracks with
  | nil => rfl
  | cons t rest ih =>
    rw [nameBlocks, List.map_cons, List.flatten_cons, List.length_append, ← nameBlocks, ih, List.map_cons, List.sum_cons,
      List.length_append]; rfl

theorem descBytes_length (b : Bool) (t : Track) : (descBytes b t).length = descSize b := by
  unfold descBytes descSize; cases b <;> simp [bytesLE_length]

theorem descs_length (b : Bool) (tracks : List Track) : (tracks.map (descBytes b)).flatten.length = descSize b * tracks.length := by
  induction tracks with
  | nil => rfl
  | cons t rest ih => rw [List.map_cons, List.flatten_cons, List.length_append, ih, descBytes_length, List.length_cons]; ring_nf

theorem KeyframeError.bytes_length (e : KeyframeError) : e.bytes.length = 20 := by
  unfold KeyframeError.bytes; simp [bytesLE_length]

theorem errors_length (es : List KeyframeError) : (es.map KeyframeError.bytes).flatten.length = 20 * es.length := by
  induction es with
  | nil => rfl
  | cons t rest ih =>
    rw [List.map_cons, List.flatten_cons, List.length_append, ih, KeyframeError.bytes_length, List.length_cons]; omega

theorem writeNameOffsets_eq (tracks : List Track) (o : Nat) (m : Bytes) (p : Nat) :
    writeNameOffsets tracks o m p = seqStore ((offsetWords tracks o).map bytesLE) m p := by
  induction tracks generalizing o m p with
  | nil => rfl
  | cons t rest ih =>
    rw [writeNameOffsets, offsetWords, List.map_cons, seqStore, bytesLE_length]
    congr 1; funext m'; rw [ih]

theorem writeNames_eq (tracks : List Track) (m : Bytes) (p : Nat) : writeNames tracks m p = seqStore (nameBlocks tracks) m p := by
  induction tracks generalizing m p with
  | nil => rfl
  | cons t rest ih =>
    rw [writeNames, nameBlocks, List.map_cons, seqStore, List.length_append]
    congr 1; funext m'; rw [ih]; rfl

theorem writeParents_eq (mapping : List Nat) (tracks : List Track) (m : Bytes) (p : Nat) :
    writeParents mapping tracks m p = seqStore ((parentWords mapping tracks).map bytesLE) m p := by
  induction tracks generalizing m p with
  | nil => rfl
  | cons t rest ih =>
    rw [writeParents, parentWords, List.map_cons, List.map_cons, seqStore, bytesLE_length]
    congr 1; funext m'; rw [ih]; rfl

theorem writeDescriptions_eq (b : Bool) (tracks : List Track) (m : Bytes) (p : Nat) :
    writeDescriptions b tracks m p = seqStore (tracks.map (descBytes b)) m p := by
  induction tracks generalizing m p with
  | nil => rfl
  | cons t rest ih =>
    rw [writeDescriptions, List.map_cons, seqStore, descBytes_length]
    congr 1; funext m'; rw [ih]

theorem writeErrors_eq (es : List KeyframeError) (m : Bytes) (p : Nat) :
    writeErrors es m p = seqStore (es.map KeyframeError.bytes) m p := by
  induction es generalizing m p with
  | nil => rfl
  | cons t rest ih =>
    rw [writeErrors, List.map_cons, seqStore, KeyframeError.bytes_length]
    congr 1; funext m'; rw [ih]

/-- A writer fills the bytes at its position with `sec`. -/
def Writes (write : Bytes → Nat → Option (Bytes × Nat)) (sec : Bytes) : Prop :=
  ∀ (A B C : Bytes) (p : Nat), p = A.length → sec.length = B.length →
    write (A ++ (B ++ C)) p = some (A ++ (sec ++ C), p + sec.length)

def namesSection (tracks : List Track) : Bytes :=
  ((offsetWords tracks (4 * tracks.length)).map bytesLE).flatten ++ (nameBlocks tracks).flatten

theorem writes_listName (src : Source) : Writes (writeListName src) (src.listName ++ [0#8]) := by
  intro A B C p hp hl
  unfold writeListName
  rw [store_append A B C _ p hp hl]
  simp only [Option.bind_eq_bind, Option.bind_some, List.length_append, List.length_cons, List.length_nil]

theorem writes_names (tracks : List Track) : Writes (writeTrackNames tracks) (namesSection tracks) := by
  intro A B C p hp hl
  unfold namesSection at hl ⊢
  rw [List.length_append] at hl
  unfold writeTrackNames
  generalize hO : ((offsetWords tracks (4 * tracks.length)).map bytesLE) = O at *
  have hB : B = B.take O.flatten.length ++ B.drop O.flatten.length := (List.take_append_drop _ _).symm
  rw [writeNameOffsets_eq, hO, hB, List.append_assoc (B.take _),
    seqStore_append O A (B.take O.flatten.length) _ p hp (by rw [List.length_take]; omega)]
  simp only [Option.bind_eq_bind, Option.bind_some]
  rw [writeNames_eq, ← List.append_assoc A, seqStore_append _ (A ++ O.flatten) _ _ _ (by rw [List.length_append, hp])
    (by rw [List.length_drop]; omega)]
  simp only [List.append_assoc, List.length_append, Nat.add_assoc]

theorem writes_parents (mapping : List Nat) (tracks : List Track) :
    Writes (writeParents mapping tracks) ((parentWords mapping tracks).map bytesLE).flatten := by
  intro A B C p hp hl
  rw [writeParents_eq]; exact seqStore_append _ A B C p hp hl

theorem writes_descs (b : Bool) (tracks : List Track) : Writes (writeDescriptions b tracks) (tracks.map (descBytes b)).flatten := by
  intro A B C p hp hl
  rw [writeDescriptions_eq]; exact seqStore_append _ A B C p hp hl

theorem writes_errors (es : List KeyframeError) : Writes (writeErrors es) (es.map KeyframeError.bytes).flatten := by
  intro A B C p hp hl
  rw [writeErrors_eq]; exact seqStore_append _ A B C p hp hl

/-! ### A section in a list of pieces -/

theorem flatten_split (L : List Bytes) (k : Nat) (B : Bytes) (hk : L[k]? = some B) :
    L.flatten = (L.take k).flatten ++ (B ++ (L.drop (k+1)).flatten) := by
  obtain ⟨hlt, hB⟩ := List.getElem?_eq_some_iff.1 hk
  conv_lhs => rw [← List.take_append_drop k L, List.flatten_append, List.drop_eq_getElem_cons hlt, List.flatten_cons, hB]

theorem set_flatten (L : List Bytes) (k : Nat) (X : Bytes) (hk : k < L.length) :
    (L.set k X).flatten = (L.take k).flatten ++ (X ++ (L.drop (k+1)).flatten) := by
  rw [List.set_eq_take_append_cons_drop, if_pos hk, List.flatten_append, List.flatten_cons]

theorem writeSection_flatten (L : List Bytes) (included : Bool) (align : Nat → Nat) (slot offset : Nat)
    (write : Bytes → Nat → Option (Bytes × Nat)) (kh ks : Nat) (sec B H : Bytes)
    (hkh : L[kh]? = some H) (hH : H.length = 4) (hslot : slot = (L.take kh).flatten.length)
    (hks : L[ks]? = some B) (hlen : (if included then sec else []).length = B.length) (hlt : ks < kh)
    (hoff : included = true → align offset = (L.take ks).flatten.length) (hw : Writes write sec) :
    writeSection included align slot write L.flatten offset =
      some (((L.set kh (bytesLE (if included then ptrOffsetOf 32 (align offset) else ptrOffsetInvalid 32))).set ks
          (if included then sec else [])).flatten, if included then align offset + sec.length else offset) := by
  unfold writeSection
  cases included with
  | true =>
    simp only [if_true] at *
    rw [store_flatten L kh H _ slot hkh (by rw [hH, bytesLE_length]) hslot]
    simp only [Option.bind_eq_bind, Option.bind_some]
    generalize bytesLE (ptrOffsetOf 32 (align offset)) = w
    have hks' : (L.set kh w)[ks]? = some B := by rw [List.getElem?_set_ne (by omega)]; exact hks
    have ht : (L.set kh w).take ks = L.take ks := by rw [List.take_set_of_le (by omega)]
    rw [flatten_split _ ks B hks', hw _ _ _ _ (by rw [ht]; exact hoff trivial) hlen, set_flatten _ ks sec (by
      exact (List.getElem?_eq_some_iff.1 hks').1)]
  | false =>
    simp only [Bool.false_eq_true, if_false] at *
    rw [store_flatten L kh H _ slot hkh (by rw [hH, bytesLE_length]) hslot]
    simp only [Option.bind_eq_bind, Option.bind_some]
    generalize bytesLE (ptrOffsetInvalid 32) = w
    have hB : B = [] := List.length_eq_zero_iff.1 (by rw [← hlen]; rfl)
    subst hB
    have hks' : (L.set kh w)[ks]? = some [] := by rw [List.getElem?_set_ne (by omega)]; exact hks
    congr 3
    obtain ⟨h1, h2⟩ := List.getElem?_eq_some_iff.1 hks'
    conv_rhs => rw [← h2]
    exact (List.set_getElem_self h1).symm

/-! ### The whole buffer -/

/-- A bool as its section or nothing. -/
def sect (b : Bool) (x : Bytes) : Bytes := if b then x else []

/-- Zeros up to a multiple of four. -/
def pad4 (n : Nat) : Bytes := List.replicate ((4 - n % 4) % 4) 0#8

/-- The view of a buffer: its header and sections. -/
structure Layout where
  header : Header
  data : Bytes
  name : Bytes
  names : Bytes
  parents : Bytes
  descs : Bytes
  errors : Bytes

/-- Where the sections start. -/
def Layout.nameStart (l : Layout) : Nat := 32 + l.data.length + (4 - (32 + l.data.length) % 4) % 4
def Layout.namesStart (l : Layout) : Nat := l.nameStart + l.name.length + (4 - l.name.length % 4) % 4
def Layout.parentsStart (l : Layout) : Nat := l.namesStart + l.names.length + (4 - l.names.length % 4) % 4
def Layout.descsStart (l : Layout) : Nat := l.parentsStart + l.parents.length
def Layout.errorsStart (l : Layout) : Nat := l.descsStart + l.descs.length
def Layout.slots (l : Layout) : Nat := l.errorsStart + l.errors.length

/-- The pieces after the raw header, for a buffer with metadata whose metadata header is `ws`. -/
def Layout.pieces (l : Layout) (ws : BitVec 32 × BitVec 32 × BitVec 32 × BitVec 32 × BitVec 32) : List Bytes :=
  [l.header.bytes, l.data, pad4 (32 + l.data.length), l.name, pad4 l.name.length, l.names, pad4 l.names.length, l.parents,
    l.descs, l.errors, bytesLE ws.1, bytesLE ws.2.1, bytesLE ws.2.2.1, bytesLE ws.2.2.2.1, bytesLE ws.2.2.2.2]

/-- The pieces of a buffer without metadata. -/
def Layout.bare (l : Layout) : List Bytes := [l.header.bytes, l.data, List.replicate 15 0#8]

def layoutOf (s : Settings) (src : Source) (tracks : List Track) (h : Header) (data : Bytes) : Layout where
  header := headerOf src h (metadataSize src.isTransform (sizesOf s src tracks) != 0)
  data := data
  name := sect s.listName (src.listName ++ [0#8])
  names := sect s.trackNames (namesSection tracks)
  parents := sect s.parents ((parentWords src.mapping tracks).map bytesLE).flatten
  descs := sect s.descriptions (tracks.map (descBytes src.isTransform)).flatten
  errors := sect s.contributingError (src.errors.map KeyframeError.bytes).flatten

def offsetWord (b : Bool) (p : Nat) : BitVec 32 := if b then ptrOffsetOf 32 p else ptrOffsetInvalid 32

def slotsOf (s : Settings) (src : Source) (l : Layout) : BitVec 32 × BitVec 32 × BitVec 32 × BitVec 32 × BitVec 32 :=
  (offsetWord s.listName l.nameStart, offsetWord s.trackNames l.namesStart, offsetWord s.parents l.parentsStart,
    offsetWord s.descriptions l.descsStart, if src.isTransform then offsetWord s.contributingError l.errorsStart else 0#32)

/-- The scalar compressor ignores these settings. -/
def Supported (s : Settings) (src : Source) : Prop :=
  src.isTransform = false → s.parents = false ∧ s.contributingError = false

theorem Header.bytes_length (h : Header) : h.bytes.length = 24 := by
  unfold Header.bytes; simp [bytesLE_length]

theorem zeros_flatten (ns : List Nat) : List.replicate ns.sum (0#8) = (ns.map (fun n => List.replicate n (0#8))).flatten := by
  induction ns with
  | nil => rfl
  | cons n ns ih => rw [List.sum_cons, ← List.replicate_append_replicate, List.map_cons, List.flatten_cons, ih]

theorem sizes_layout (s : Settings) (src : Source) (tracks : List Track) (h : Header) (data : Bytes) :
    (layoutOf s src tracks h data).name.length = (sizesOf s src tracks).listName ∧
    (layoutOf s src tracks h data).names.length = (sizesOf s src tracks).trackNames ∧
    (layoutOf s src tracks h data).parents.length = (sizesOf s src tracks).parents ∧
    (layoutOf s src tracks h data).descs.length = (sizesOf s src tracks).descriptions ∧
    (layoutOf s src tracks h data).errors.length = (sizesOf s src tracks).errors := by
  unfold layoutOf sizesOf sect listNameSize trackNamesSize
  dsimp only
  refine ⟨?_, ?_, ?_, ?_, ?_⟩
  · split <;> simp
  · split
    · rw [namesSection, List.length_append, words_length, offsetWords_length, nameBlocks_length]
    · rfl
  · split
    · rw [words_length, parentWords, List.length_map]
    · rfl
  · split
    · rw [descs_length]
    · rfl
  · split
    · rw [errors_length]
    · rfl

theorem layout_mod4 (s : Settings) (src : Source) (tracks : List Track) (h : Header) (data : Bytes) :
    (layoutOf s src tracks h data).parents.length % 4 = 0 ∧ (layoutOf s src tracks h data).descs.length % 4 = 0 ∧
    (layoutOf s src tracks h data).errors.length % 4 = 0 := by
  obtain ⟨-, -, h3, h4, h5⟩ := sizes_layout s src tracks h data
  rw [h3, h4, h5]
  unfold sizesOf descSize
  dsimp only
  refine ⟨?_, ?_, ?_⟩ <;> split
  · omega
  · rfl
  · cases src.isTransform
    · simp only [Bool.false_eq_true, if_false]; omega
    · simp only [if_true]; omega
  · rfl
  · omega
  · rfl

theorem alignUp4 (n : Nat) : alignUp n 4 = n + (4 - n % 4) % 4 := by
  unfold alignUp; omega

theorem pad4_length (n : Nat) : (pad4 n).length = (4 - n % 4) % 4 := by
  unfold pad4; rw [List.length_replicate]

theorem metadataSize_layout (s : Settings) (src : Source) (tracks : List Track) (h : Header) (data : Bytes) (hs : Supported s src) :
    metadataSize src.isTransform (sizesOf s src tracks) =
      (layoutOf s src tracks h data).slots - (layoutOf s src tracks h data).nameStart := by
  obtain ⟨h1, h2, h3, h4, h5⟩ := sizes_layout s src tracks h data
  obtain ⟨m3, m4, m5⟩ := layout_mod4 s src tracks h data
  generalize hl : layoutOf s src tracks h data = l at *
  have hc : src.isTransform = false → l.parents.length = 0 ∧ l.errors.length = 0 := by
    intro ht
    obtain ⟨a, b⟩ := hs ht
    rw [h3, h5]; unfold sizesOf; simp [a, b]
  unfold metadataSize Layout.slots Layout.errorsStart Layout.descsStart Layout.parentsStart Layout.namesStart
  dsimp only
  simp only [alignUp4]
  rw [← h1, ← h2, ← h3, ← h4, ← h5]
  cases ht : src.isTransform with
  | true => rw [if_pos rfl]; omega
  | false =>
    obtain ⟨a, b⟩ := hc ht
    rw [if_neg (by decide)]; omega

theorem build_bare (s : Settings) (src : Source) (tracks : List Track) (h : Header) (data : Bytes)
    (ht : outputTracks src = some tracks) (hz : metadataSize src.isTransform (sizesOf s src tracks) = 0) :
    build s src h data = some (rawBytes (layoutOf s src tracks h data).bare.flatten ++ (layoutOf s src tracks h data).bare.flatten) := by
  unfold build
  rw [ht]
  simp only [Option.bind_eq_bind, Option.bind_some]
  rw [hz]
  simp only [ne_eq, not_true_eq_false, if_false]
  have hsz : bufferSize 0 (32 + data.length) = [8, 24, data.length, 15].sum := by
    unfold bufferSize; simp; omega
  rw [hsz, zeros_flatten]
  have hh : (layoutOf s src tracks h data).header = headerOf src h (0 != 0) := by
    unfold layoutOf; rw [hz]
  have e1 : (layoutOf s src tracks h data).bare = [(headerOf src h (0 != 0)).bytes, data, List.replicate 15 0#8] := by
    unfold Layout.bare; rw [hh]; rfl
  rw [e1]
  generalize hH : (headerOf src h (0 != 0)).bytes = H
  have hHl : H.length = 24 := by rw [← hH, Header.bytes_length]
  simp only [List.map_cons, List.map_nil]
  rw [store_flatten _ 1 (List.replicate 24 0#8) H 8 rfl (by rw [hHl]; rfl) (by simp)]
  simp only [Option.bind_some, List.set_cons_succ, List.set_cons_zero]
  rw [store_flatten _ 2 (List.replicate data.length 0#8) data 32 rfl (by simp) (by simp [hHl])]
  simp only [Option.bind_some, List.set_cons_succ, List.set_cons_zero]
  rw [List.flatten_cons, finishBuffer_append _ _ _ (by simp)]
  simp [hHl]

set_option maxHeartbeats 1000000 in
theorem build_meta (s : Settings) (src : Source) (tracks : List Track) (h : Header) (data : Bytes) (hs : Supported s src)
    (ht : outputTracks src = some tracks) (hz : metadataSize src.isTransform (sizesOf s src tracks) ≠ 0) :
    build s src h data =
      some (rawBytes ((layoutOf s src tracks h data).pieces (slotsOf s src (layoutOf s src tracks h data))).flatten ++
        ((layoutOf s src tracks h data).pieces (slotsOf s src (layoutOf s src tracks h data))).flatten) := by
  unfold build
  rw [ht]
  simp only [Option.bind_eq_bind, Option.bind_some]
  have hm := metadataSize_layout s src tracks h data hs
  obtain ⟨m3, m4, m5⟩ := layout_mod4 s src tracks h data
  have hhdr : (layoutOf s src tracks h data).header = headerOf src h (metadataSize src.isTransform (sizesOf s src tracks) != 0) := rfl
  simp only [if_pos hz]
  have hsz : bufferSize (metadataSize src.isTransform (sizesOf s src tracks)) (32 + data.length) =
      (layoutOf s src tracks h data).slots + 20 := by
    unfold bufferSize
    rw [if_pos hz, hm]
    have hge : (layoutOf s src tracks h data).nameStart ≤ (layoutOf s src tracks h data).slots := by
      unfold Layout.slots Layout.errorsStart Layout.descsStart Layout.parentsStart Layout.namesStart; omega
    have hst : (layoutOf s src tracks h data).nameStart = alignUp (32 + data.length) 4 := by
      rw [alignUp4]; rfl
    rw [← hst]
    have hmod : (layoutOf s src tracks h data).slots % 4 = 0 := by
      unfold Layout.slots Layout.errorsStart Layout.descsStart Layout.parentsStart Layout.namesStart Layout.nameStart
      omega
    rw [alignUp4]; omega
  have hstart : alignUp (32 + data.length) 4 = (layoutOf s src tracks h data).nameStart := by
    rw [alignUp4]; rfl
  rw [hsz, hstart]
  generalize hH : (headerOf src h (metadataSize src.isTransform (sizesOf s src tracks) != 0)) = H
  have hHl : H.bytes.length = 24 := Header.bytes_length _
  rw [hH] at hhdr
  clear hsz hm hstart hH
  have hdata : (layoutOf s src tracks h data).data = data := rfl
  have hname : (layoutOf s src tracks h data).name = if s.listName then src.listName ++ [0#8] else [] := rfl
  have hnames : (layoutOf s src tracks h data).names = if s.trackNames then namesSection tracks else [] := rfl
  have hparents : (layoutOf s src tracks h data).parents = if s.parents then ((parentWords src.mapping tracks).map bytesLE).flatten else [] := rfl
  have hdescs : (layoutOf s src tracks h data).descs = if s.descriptions then (tracks.map (descBytes src.isTransform)).flatten else [] := rfl
  have herrors : (layoutOf s src tracks h data).errors = if s.contributingError then (src.errors.map KeyframeError.bytes).flatten else [] := rfl
  generalize layoutOf s src tracks h data = l at *
  subst hdata
  have hlens : l.slots + 20 = [8, 24, l.data.length, (4 - (32 + l.data.length) % 4) % 4, l.name.length, (4 - l.name.length % 4) % 4,
      l.names.length, (4 - l.names.length % 4) % 4, l.parents.length, l.descs.length, l.errors.length, 4, 4, 4, 4, 4].sum := by
    unfold Layout.slots Layout.errorsStart Layout.descsStart Layout.parentsStart Layout.namesStart Layout.nameStart
    simp only [List.sum_cons, List.sum_nil]; omega
  have hmemo : List.replicate (l.slots + 20) 0#8 = [List.replicate 8 0#8, List.replicate 24 0#8, List.replicate l.data.length 0#8,
      pad4 (32 + l.data.length), List.replicate l.name.length 0#8, pad4 l.name.length,
      List.replicate l.names.length 0#8, pad4 l.names.length, List.replicate l.parents.length 0#8,
      List.replicate l.descs.length 0#8, List.replicate l.errors.length 0#8, List.replicate 4 0#8, List.replicate 4 0#8,
      List.replicate 4 0#8, List.replicate 4 0#8, List.replicate 4 0#8].flatten := by
    rw [hlens, zeros_flatten]; rfl
  rw [hmemo]
  rw [store_flatten _ 1 (List.replicate 24 0#8) H.bytes 8 rfl (by rw [hHl]; rfl) (by simp)]
  simp only [Option.bind_some, List.set_cons_succ, List.set_cons_zero]
  rw [store_flatten _ 2 (List.replicate l.data.length 0#8) l.data 32 rfl (by simp) (by simp [hHl])]
  simp only [Option.bind_some, List.set_cons_succ, List.set_cons_zero]
  have q1 : ∀ x, (if s.listName = true then x + (src.listName ++ [0#8]).length else x) = x + l.name.length := by
    intro x; rw [hname]; split <;> rfl
  have q2 : ∀ x, alignUp x 4 = l.namesStart →
      alignUp (if s.trackNames = true then alignUp x 4 + (namesSection tracks).length else x) 4 = l.parentsStart := by
    intro x hx
    unfold Layout.parentsStart
    rw [hnames]
    split
    · rw [hx, alignUp4]
      have : l.namesStart % 4 = 0 := by unfold Layout.namesStart Layout.nameStart; omega
      omega
    · rw [hx]; rfl
  have q3 : ∀ x, alignUp x 4 = l.parentsStart →
      alignUp (if s.parents = true then alignUp x 4 + ((parentWords src.mapping tracks).map bytesLE).flatten.length else x) 4 = l.descsStart := by
    intro x hx
    unfold Layout.descsStart
    have hp4 : l.parentsStart % 4 = 0 := by unfold Layout.parentsStart Layout.namesStart Layout.nameStart; omega
    rw [hparents] at m3 ⊢
    split
    · next hc => rw [if_pos hc] at m3; rw [hx, alignUp4]; omega
    · rw [hx]; rfl
  have q4 : ∀ x, alignUp x 4 = l.descsStart →
      alignUp (if s.descriptions = true then alignUp x 4 + (tracks.map (descBytes src.isTransform)).flatten.length else x) 4 = l.errorsStart := by
    intro x hx
    unfold Layout.errorsStart
    have hp4 : l.descsStart % 4 = 0 := by unfold Layout.descsStart Layout.parentsStart Layout.namesStart Layout.nameStart; omega
    rw [hdescs] at m4 ⊢
    split
    · next hc => rw [if_pos hc] at m4; rw [hx, alignUp4]; omega
    · rw [hx]; rfl
  have hsub : l.slots + 20 - 20 = l.slots := by omega
  rw [hsub]
  have a1 : alignUp (l.nameStart + l.name.length) 4 = l.namesStart := by
    rw [alignUp4]; unfold Layout.namesStart Layout.nameStart; omega
  have n0 : l.nameStart = 32 + l.data.length + (pad4 (32 + l.data.length)).length := by rw [pad4_length]; rfl
  have n1 : l.namesStart = l.nameStart + l.name.length + (pad4 l.name.length).length := by rw [pad4_length]; rfl
  have n2 : l.parentsStart = l.namesStart + l.names.length + (pad4 l.names.length).length := by rw [pad4_length]; rfl
  have n3 : l.descsStart = l.parentsStart + l.parents.length := rfl
  have n4 : l.errorsStart = l.descsStart + l.descs.length := rfl
  have n5 : l.slots = l.errorsStart + l.errors.length := rfl
  unfold Layout.pieces slotsOf
  rw [hhdr]
  clear hmemo hlens m3 m4 m5
  generalize pad4 (32 + l.data.length) = Z0 at *
  generalize pad4 l.name.length = Z1 at *
  generalize pad4 l.names.length = Z2 at *
  unfold writeMetadata
  rw [writeSection_flatten _ s.listName _ _ _ _ 11 4 (src.listName ++ [0#8]) (List.replicate l.name.length 0#8) (List.replicate 4 0#8) rfl rfl
    ?_ rfl (by rw [hname, List.length_replicate]) (by decide) ?_ (writes_listName src)]
  rotate_left 1
  · simp [hHl, bytesLE_length]; omega
  · intro _; simp [hHl, bytesLE_length]; omega
  simp only [Option.bind_eq_bind, Option.bind_some, List.set_cons_succ, List.set_cons_zero]
  rw [← hname, q1]
  generalize hp1 : l.nameStart + l.name.length = p1 at a1 ⊢
  rw [writeSection_flatten _ s.trackNames _ _ _ _ 12 6 (namesSection tracks) (List.replicate l.names.length 0#8) (List.replicate 4 0#8) rfl rfl
    ?_ rfl (by rw [hnames, List.length_replicate]) (by decide) ?_ (writes_names tracks)]
  rotate_left 1
  · simp [hHl, bytesLE_length]; omega
  · intro _; rw [a1]; simp [hHl, bytesLE_length]; omega
  simp only [Option.bind_some, List.set_cons_succ, List.set_cons_zero]
  have a2 := q2 p1 a1
  rw [← hnames]
  generalize (if s.trackNames = true then alignUp p1 4 + (namesSection tracks).length else p1) = p2 at a2 ⊢
  rw [writeSection_flatten _ s.parents _ _ _ _ 13 8 ((parentWords src.mapping tracks).map bytesLE).flatten (List.replicate l.parents.length 0#8) (List.replicate 4 0#8) rfl rfl
    ?_ rfl (by rw [hparents, List.length_replicate]) (by decide) ?_ (writes_parents _ tracks)]
  rotate_left 1
  · simp [hHl, bytesLE_length]; omega
  · intro _; rw [a2]; simp [hHl, bytesLE_length]; omega
  simp only [Option.bind_some, List.set_cons_succ, List.set_cons_zero]
  have a3 := q3 p2 a2
  rw [← hparents]
  generalize (if s.parents = true then alignUp p2 4 + ((parentWords src.mapping tracks).map bytesLE).flatten.length else p2) = p3 at a3 ⊢
  rw [writeSection_flatten _ s.descriptions _ _ _ _ 14 9 (tracks.map (descBytes src.isTransform)).flatten (List.replicate l.descs.length 0#8) (List.replicate 4 0#8) rfl rfl
    ?_ rfl (by rw [hdescs, List.length_replicate]) (by decide) ?_ (writes_descs _ tracks)]
  rotate_left 1
  · simp [hHl, bytesLE_length]; omega
  · intro _; rw [a3]; simp [hHl, bytesLE_length]; omega
  simp only [Option.bind_some, List.set_cons_succ, List.set_cons_zero]
  have a4 := q4 p3 a3
  rw [← hdescs]
  generalize (if s.descriptions = true then alignUp p3 4 + (tracks.map (descBytes src.isTransform)).flatten.length else p3) = p4 at a4 ⊢
  have fin : ∀ (w0 w1 w2 w3 w4 E : Bytes), E = l.errors → w0.length = 4 → w1.length = 4 → w2.length = 4 → w3.length = 4 → w4.length = 4 →
      finishBuffer [List.replicate 8 0#8, H.bytes, l.data, Z0, l.name, Z1, l.names,
        Z2, l.parents, l.descs, E, w0, w1, w2, w3, w4].flatten (l.slots + 20) =
      some (rawBytes [H.bytes, l.data, Z0, l.name, Z1, l.names,
        Z2, l.parents, l.descs, l.errors, w0, w1, w2, w3, w4].flatten ++ [H.bytes, l.data, Z0, l.name, Z1, l.names,
        Z2, l.parents, l.descs, l.errors, w0, w1, w2, w3, w4].flatten) := by
    intro w0 w1 w2 w3 w4 E hE h0 h1 h2 h3 h4
    subst hE
    rw [List.flatten_cons, finishBuffer_append _ _ _ (by simp)]
    simp [hHl, bytesLE_length]; omega
  cases htr : src.isTransform with
  | true =>
    simp only [if_true]
    rw [writeSection_flatten _ s.contributingError _ _ _ _ 15 10 (src.errors.map KeyframeError.bytes).flatten (List.replicate l.errors.length 0#8) (List.replicate 4 0#8) rfl rfl
      ?_ rfl (by rw [herrors, List.length_replicate]) (by decide) ?_ (writes_errors _)]
    rotate_left 1
    · simp [hHl, bytesLE_length]; omega
    · intro _; rw [a4]; simp [hHl, bytesLE_length]; omega
    simp only [Option.bind_some, List.set_cons_succ, List.set_cons_zero]
    rw [fin _ _ _ _ _ _ herrors.symm (bytesLE_length _) (bytesLE_length _) (bytesLE_length _) (bytesLE_length _) (bytesLE_length _)]
    unfold offsetWord
    rw [a1, a2, a3, a4]
  | false =>
    simp only [Bool.false_eq_true, if_false, Option.bind_some]
    have hE : List.replicate l.errors.length 0#8 = l.errors := by
      rw [herrors, (hs htr).2]; rfl
    rw [fin _ _ _ _ _ _ hE (bytesLE_length _) (bytesLE_length _) (bytesLE_length _) (bytesLE_length _) rfl]
    unfold offsetWord
    rw [a1, a2, a3]
    rfl

end Acl.Meta
