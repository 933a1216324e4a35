import Verif.Layout.MetadataLemmas
/-
Reads in a buffer given by its pieces.
-/
namespace Acl.Meta
open Acl.Headers Acl.DbBuffer

theorem byte_skip (A R : Bytes) (n : Nat) : (A ++ R)[A.length + n]? = R[n]? := by
  rw [List.getElem?_append_right (by omega)]; congr 1; omega

theorem header_loads (A C : Bytes) (h : Header) (hA : A.length = 8) : loadTracksHeader (A ++ (h.bytes ++ C)) = some h := by
  have r32 : ∀ n, load32 (A ++ (h.bytes ++ C)) (8 + n) = load32 (h.bytes ++ C) n := by
    intro n; have := load32_skip A (h.bytes ++ C) n; rwa [hA] at this
  have r16 : ∀ n, load16 (A ++ (h.bytes ++ C)) (8 + n) = load16 (h.bytes ++ C) n := by
    intro n; have := load16_skip A (h.bytes ++ C) n; rwa [hA] at this
  have rb : ∀ n, (A ++ (h.bytes ++ C))[8 + n]? = (h.bytes ++ C)[n]? := by
    intro n; have := byte_skip A (h.bytes ++ C) n; rwa [hA] at this
  unfold loadTracksHeader
  rw [show load32 (A ++ (h.bytes ++ C)) 8 = load32 (h.bytes ++ C) 0 from r32 0,
    show load16 (A ++ (h.bytes ++ C)) 12 = load16 (h.bytes ++ C) 4 from r16 4,
    show (A ++ (h.bytes ++ C))[14]? = (h.bytes ++ C)[6]? from rb 6,
    show (A ++ (h.bytes ++ C))[15]? = (h.bytes ++ C)[7]? from rb 7,
    show load32 (A ++ (h.bytes ++ C)) 16 = load32 (h.bytes ++ C) 8 from r32 8,
    show load32 (A ++ (h.bytes ++ C)) 20 = load32 (h.bytes ++ C) 12 from r32 12,
    show load32 (A ++ (h.bytes ++ C)) 24 = load32 (h.bytes ++ C) 16 from r32 16,
    show load32 (A ++ (h.bytes ++ C)) 28 = load32 (h.bytes ++ C) 20 from r32 20]
  have e : h.bytes ++ C = bytesLE h.tag ++ (bytesLE h.version ++ ([h.algorithm] ++ ([h.trackType] ++ (bytesLE h.numTracks ++
      (bytesLE h.numSamples ++ (bytesLE h.sampleRate ++ (bytesLE h.misc ++ C))))))) := by
    unfold Header.bytes; simp only [List.append_assoc]
  rw [e]
  have f0 : ∀ R : Bytes, load32 (bytesLE h.tag ++ R) 0 = some h.tag := fun R => load32_zero _ _
  have f1 : load16 (bytesLE h.tag ++ (bytesLE h.version ++ ([h.algorithm] ++ ([h.trackType] ++ (bytesLE h.numTracks ++
      (bytesLE h.numSamples ++ (bytesLE h.sampleRate ++ (bytesLE h.misc ++ C)))))))) 4 = some h.version := by
    rw [load16_skip4 _ _ 4 0 rfl, load16_zero]
  have g : ∀ (R : Bytes) k, (bytesLE h.tag ++ (bytesLE h.version ++ R))[6 + k]? = R[k]? := by
    intro R k
    have := byte_skip (bytesLE h.tag ++ bytesLE h.version) R k
    rwa [List.length_append, bytesLE_length, bytesLE_length, List.append_assoc] at this
  have g32 : ∀ (R : Bytes) k, load32 (bytesLE h.tag ++ (bytesLE h.version ++ ([h.algorithm] ++ ([h.trackType] ++ R)))) (8 + k) = load32 R k := by
    intro R k
    have := load32_skip (bytesLE h.tag ++ bytesLE h.version ++ [h.algorithm] ++ [h.trackType]) R k
    simpa [List.length_append, bytesLE_length, List.append_assoc] using this
  rw [f0, f1, show ∀ R : Bytes, (bytesLE h.tag ++ (bytesLE h.version ++ R))[6]? = R[0]? from fun R => g R 0,
    show ∀ R : Bytes, (bytesLE h.tag ++ (bytesLE h.version ++ R))[7]? = R[1]? from fun R => g R 1,
    show ∀ R : Bytes, load32 (bytesLE h.tag ++ (bytesLE h.version ++ ([h.algorithm] ++ ([h.trackType] ++ R)))) 8 = load32 R 0 from fun R => g32 R 0,
    show ∀ R : Bytes, load32 (bytesLE h.tag ++ (bytesLE h.version ++ ([h.algorithm] ++ ([h.trackType] ++ R)))) 12 = load32 R 4 from fun R => g32 R 4,
    show ∀ R : Bytes, load32 (bytesLE h.tag ++ (bytesLE h.version ++ ([h.algorithm] ++ ([h.trackType] ++ R)))) 16 = load32 R 8 from fun R => g32 R 8,
    show ∀ R : Bytes, load32 (bytesLE h.tag ++ (bytesLE h.version ++ ([h.algorithm] ++ ([h.trackType] ++ R)))) 20 = load32 R 12 from fun R => g32 R 12]
  have s4 := fun w R k => load32_skip4 w R (k+4) k rfl
  rw [load32_zero, s4 _ _ 0, load32_zero, s4 _ _ 4, s4 _ _ 0, load32_zero, s4 _ _ 8, s4 _ _ 4, s4 _ _ 0, load32_zero]
  rfl

/-- Word `i` of a table of words. -/
theorem load32_words (ws : List (BitVec 32)) (A C : Bytes) (i : Nat) (w : BitVec 32) (p : Nat) (hp : p = A.length + 4 * i)
    (hi : ws[i]? = some w) : load32 (A ++ ((ws.map bytesLE).flatten ++ C)) p = some w := by
  subst hp
  induction ws generalizing A i with
  | nil => simp at hi
  | cons v rest ih =>
    cases i with
    | zero =>
      simp only [List.getElem?_cons_zero, Option.some.injEq] at hi
      subst hi
      rw [List.map_cons, List.flatten_cons, List.append_assoc]
      exact load32_bytesLE A _ _ _ (by omega)
    | succ i =>
      rw [List.getElem?_cons_succ] at hi
      have := ih (A ++ bytesLE v) i hi
      rw [List.length_append, bytesLE_length] at this
      rw [List.map_cons, List.flatten_cons, List.append_assoc, ← List.append_assoc A]
      rw [← this]; congr 1; omega

theorem scanString_append (s : Bytes) (C : Bytes) (hs : 0#8 ∉ s) : scanString (s ++ (0#8 :: C)) = some s := by
  induction s with
  | nil => rw [List.nil_append, scanString, if_pos rfl]
  | cons b rest ih =>
    rw [List.cons_append, scanString, if_neg (fun hc => hs (by rw [hc]; exact List.mem_cons_self)),
      ih (fun hc => hs (List.mem_cons_of_mem _ hc))]
    rfl

theorem stringAt_append (A s C : Bytes) (p : Nat) (hp : p = A.length) (hs : 0#8 ∉ s) :
    stringAt (A ++ ((s ++ [0#8]) ++ C)) p = some (.str s) := by
  subst hp
  unfold stringAt
  rw [List.drop_left, List.append_assoc, List.singleton_append, scanString_append s C hs]
  rfl

/-- Offset of name `i` from the start of the names. -/
def nameOffset (tracks : List Track) (i : Nat) : Nat := ((tracks.take i).map fun t => t.name.length + 1).sum

theorem offsetWords_getElem (tracks : List Track) (o i : Nat) (hi : i < tracks.length) :
    (offsetWords tracks o)[i]? = some (BitVec.ofNat 32 (o + nameOffset tracks i)) := by
  induction tracks generalizing o i with
  | nil => simp at hi
  | cons t rest ih =>
    cases i with
    | zero => simp [offsetWords, nameOffset]
    | succ i =>
      rw [offsetWords, List.getElem?_cons_succ, ih _ _ (by simpa using hi)]
      unfold nameOffset
      rw [List.take_succ_cons, List.map_cons, List.sum_cons]
      congr 2; omega

theorem nameBlocks_split (tracks : List Track) (i : Nat) (t : Track) (hi : tracks[i]? = some t) :
    ∃ A C, (nameBlocks tracks).flatten = A ++ ((t.name ++ [0#8]) ++ C) ∧ A.length = nameOffset tracks i := by
  refine ⟨(nameBlocks (tracks.take i)).flatten, (nameBlocks (tracks.drop (i+1))).flatten, ?_, ?_⟩
  · obtain ⟨hlt, e⟩ := List.getElem?_eq_some_iff.1 hi
    conv_lhs => rw [← List.take_append_drop i tracks, List.drop_eq_getElem_cons hlt, e]
    unfold nameBlocks
    rw [List.map_append, List.map_cons, List.flatten_append, List.flatten_cons]
  · rw [nameBlocks_length]; rfl

/-! ### The buffer -/

/-- A buffer with a raw header. -/
def rawBuffer (P : List Bytes) : Bytes := rawBytes P.flatten ++ P.flatten

theorem rawBuffer_cons (P : List Bytes) : rawBuffer P = (rawBytes P.flatten :: P).flatten := by
  unfold rawBuffer; rw [List.flatten_cons]

theorem rawBuffer_length (P : List Bytes) : (rawBuffer P).length = 8 + P.flatten.length := by
  unfold rawBuffer; rw [List.length_append, rawBytes_length]

theorem rawBuffer_size (P : List Bytes) : load32 (rawBuffer P) 0 = some (BitVec.ofNat 32 (rawBuffer P).length) := by
  rw [rawBuffer_length]
  unfold rawBuffer rawBytes
  generalize P.flatten = b
  rw [List.append_assoc]
  exact load32_zero _ _

theorem rawBuffer_hash (P : List Bytes) : load32 (rawBuffer P) 4 = some (hash32 P.flatten) := by
  unfold rawBuffer rawBytes
  generalize P.flatten = b
  rw [List.append_assoc]
  exact load32_bytesLE _ _ _ 4 (by rw [bytesLE_length])

theorem rawBuffer_header (h : Header) (P : List Bytes) : loadTracksHeader (rawBuffer (h.bytes :: P)) = some h := by
  unfold rawBuffer
  exact header_loads _ _ _ (rawBytes_length _)

/-- The bytes before piece `k` and the rest. -/
theorem rawBuffer_split (P : List Bytes) (k : Nat) (B : Bytes) (hk : P[k]? = some B) :
    rawBuffer P = (rawBytes P.flatten ++ (P.take k).flatten) ++ (B ++ (P.drop (k+1)).flatten) := by
  unfold rawBuffer
  generalize rawBytes P.flatten = R
  conv_lhs => rw [flatten_split P k B hk]
  rw [List.append_assoc]

theorem rawBuffer_load32 (P : List Bytes) (k : Nat) (w : BitVec 32) (p : Nat) (hk : P[k]? = some (bytesLE w))
    (hp : p = 8 + (P.take k).flatten.length) : load32 (rawBuffer P) p = some w := by
  rw [rawBuffer_split P k _ hk]
  exact load32_bytesLE _ _ _ p (by rw [List.length_append, rawBytes_length]; exact hp)

theorem pieces_size (l : Layout) (ws : BitVec 32 × BitVec 32 × BitVec 32 × BitVec 32 × BitVec 32) :
    (rawBuffer (l.pieces ws)).length = l.slots + 20 := by
  rw [rawBuffer_length]
  unfold Layout.pieces Layout.slots Layout.errorsStart Layout.descsStart Layout.parentsStart Layout.namesStart Layout.nameStart
  simp [Header.bytes_length, pad4_length, bytesLE_length]
  omega

theorem pieces_field (l : Layout) (ws : BitVec 32 × BitVec 32 × BitVec 32 × BitVec 32 × BitVec 32)
    (hlen : (rawBuffer (l.pieces ws)).length < 2 ^ 32) :
    metadataField (rawBuffer (l.pieces ws)) 0 = some ws.1 ∧ metadataField (rawBuffer (l.pieces ws)) 1 = some ws.2.1 ∧
    metadataField (rawBuffer (l.pieces ws)) 2 = some ws.2.2.1 ∧ metadataField (rawBuffer (l.pieces ws)) 3 = some ws.2.2.2.1 ∧
    metadataField (rawBuffer (l.pieces ws)) 4 = some ws.2.2.2.2 := by
  have hsz : (BitVec.ofNat 32 (rawBuffer (l.pieces ws)).length).toNat = l.slots + 20 := by
    rw [BitVec.toNat_ofNat, Nat.mod_eq_of_lt hlen, pieces_size]
  unfold metadataField
  rw [rawBuffer_size]
  simp only [Option.bind_eq_bind, Option.bind_some]
  rw [hsz]
  have hsl : l.slots + 20 - 20 = l.slots := by omega
  rw [hsl]
  have n0 : l.slots = 32 + l.data.length + (pad4 (32 + l.data.length)).length + l.name.length + (pad4 l.name.length).length +
      l.names.length + (pad4 l.names.length).length + l.parents.length + l.descs.length + l.errors.length := by
    simp only [pad4_length]; rfl
  generalize hP : l.pieces ws = P
  unfold Layout.pieces at hP
  generalize pad4 (32 + l.data.length) = Z0 at *
  generalize pad4 l.name.length = Z1 at *
  generalize pad4 l.names.length = Z2 at *
  subst hP
  refine ⟨?_, ?_, ?_, ?_, ?_⟩
  · exact rawBuffer_load32 _ 10 _ _ rfl (by simp [Header.bytes_length, bytesLE_length]; omega)
  · exact rawBuffer_load32 _ 11 _ _ rfl (by simp [Header.bytes_length, bytesLE_length]; omega)
  · exact rawBuffer_load32 _ 12 _ _ rfl (by simp [Header.bytes_length, bytesLE_length]; omega)
  · exact rawBuffer_load32 _ 13 _ _ rfl (by simp [Header.bytes_length, bytesLE_length]; omega)
  · exact rawBuffer_load32 _ 14 _ _ rfl (by simp [Header.bytes_length, bytesLE_length]; omega)

/-- The sections are at their offsets. -/
theorem pieces_sections (l : Layout) (ws : BitVec 32 × BitVec 32 × BitVec 32 × BitVec 32 × BitVec 32) :
    (∃ A C, rawBuffer (l.pieces ws) = A ++ (l.name ++ C) ∧ A.length = l.nameStart) ∧
    (∃ A C, rawBuffer (l.pieces ws) = A ++ (l.names ++ C) ∧ A.length = l.namesStart) ∧
    (∃ A C, rawBuffer (l.pieces ws) = A ++ (l.parents ++ C) ∧ A.length = l.parentsStart) ∧
    (∃ A C, rawBuffer (l.pieces ws) = A ++ (l.descs ++ C) ∧ A.length = l.descsStart) ∧
    (∃ A C, rawBuffer (l.pieces ws) = A ++ (l.errors ++ C) ∧ A.length = l.errorsStart) := by
  have n0 : l.nameStart = 32 + l.data.length + (pad4 (32 + l.data.length)).length := by rw [pad4_length]; rfl
  have n1 : l.namesStart = l.nameStart + l.name.length + (pad4 l.name.length).length := by rw [pad4_length]; rfl
  have n2 : l.parentsStart = l.namesStart + l.names.length + (pad4 l.names.length).length := by rw [pad4_length]; rfl
  have n3 : l.descsStart = l.parentsStart + l.parents.length := rfl
  have n4 : l.errorsStart = l.descsStart + l.descs.length := rfl
  generalize hP : l.pieces ws = P
  unfold Layout.pieces at hP
  generalize pad4 (32 + l.data.length) = Z0 at *
  generalize pad4 l.name.length = Z1 at *
  generalize pad4 l.names.length = Z2 at *
  have main : ∀ k B, P[k]? = some B → ∃ A C, rawBuffer P = A ++ (B ++ C) ∧ A.length = 8 + (P.take k).flatten.length := by
    intro k B hk
    exact ⟨_, _, rawBuffer_split P k B hk, by rw [List.length_append, rawBytes_length]⟩
  refine ⟨?_, ?_, ?_, ?_, ?_⟩
  · obtain ⟨A, C, e, hl⟩ := main 3 l.name (by subst hP; rfl)
    exact ⟨A, C, e, by rw [hl]; subst hP; simp [Header.bytes_length, bytesLE_length]; omega⟩
  · obtain ⟨A, C, e, hl⟩ := main 5 l.names (by subst hP; rfl)
    exact ⟨A, C, e, by rw [hl]; subst hP; simp [Header.bytes_length, bytesLE_length]; omega⟩
  · obtain ⟨A, C, e, hl⟩ := main 7 l.parents (by subst hP; rfl)
    exact ⟨A, C, e, by rw [hl]; subst hP; simp [Header.bytes_length, bytesLE_length]; omega⟩
  · obtain ⟨A, C, e, hl⟩ := main 8 l.descs (by subst hP; rfl)
    exact ⟨A, C, e, by rw [hl]; subst hP; simp [Header.bytes_length, bytesLE_length]; omega⟩
  · obtain ⟨A, C, e, hl⟩ := main 9 l.errors (by subst hP; rfl)
    exact ⟨A, C, e, by rw [hl]; subst hP; simp [Header.bytes_length, bytesLE_length]; omega⟩

end Acl.Meta
