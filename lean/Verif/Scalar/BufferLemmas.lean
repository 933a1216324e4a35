import Verif.Scalar.Buffer
import Verif.Layout.ClipReads
import Verif.Props.C35
/-
The buffer of a scalar track list is what the sections say (for Props/C58.lean).
-/
namespace Acl.Scalar
open Acl.Headers

/-- The header and what follows the sections are carried over. -/
theorem compress_shape (t : TrackList) (header header' tail : List (BitVec 8)) (hl : header.length = header'.length) {c : Clip}
    (h : compress t header' [] = some c) :
    compress t header tail = some { c with bytes := header ++ (c.bytes.drop header'.length ++ tail) } := by
  unfold compress at h ⊢
  rw [Option.bind_eq_some_iff] at h
  obtain ⟨n, h1, h⟩ := h
  rw [h1, Option.bind_some]
  split at h
  · cases h
  next hn =>
  rw [if_neg hn]
  dsimp only at h ⊢
  rw [Option.bind_eq_some_iff] at h
  obtain ⟨⟨an, b⟩, h2, h⟩ := h
  rw [h2, Option.bind_some]
  dsimp only at h ⊢
  injection h with h
  subst h
  rw [hl]
  congr 2
  dsimp only
  rw [List.drop_left' rfl]
  simp only [List.append_assoc, List.append_nil]

theorem compress_facts (t : TrackList) (header tail : List (BitVec 8)) {c : Clip} (h : compress t header tail = some c) :
    c.isV2_0 = false ∧ c.trackType = t.trackType ∧ c.numTracks = t.outputIndices.length ∧
    c.numSamples = (if t.outputIndices.length ≠ 0 then t.numSamples else 0) ∧ c.numBitsPerFrame < 2 ^ 32 ∧
    c.metadataOffset = header.length ∧ c.metadataOffset ≤ c.constantOffset ∧ c.constantOffset ≤ c.rangeOffset ∧
    c.rangeOffset ≤ c.animatedOffset ∧ c.animatedOffset ≤ c.bytes.length := by
  unfold compress at h
  rw [Option.bind_eq_some_iff] at h
  obtain ⟨n, h1, h⟩ := h
  split at h
  · cases h
  next hn =>
  dsimp only at h
  rw [Option.bind_eq_some_iff] at h
  obtain ⟨⟨an, b⟩, h2, h⟩ := h
  dsimp only at h
  injection h with h
  subst h
  refine ⟨rfl, rfl, rfl, rfl, ?_, rfl, ?_, ?_, ?_, ?_⟩ <;> dsimp only
  · split
    · have := Nat.div_le_self n t.numSamples
      omega
    · omega
  · omega
  · omega
  · omega
  · simp only [List.length_append]; omega

theorem typeOf_number (t : TrackType) : typeOf (typeNumber t) = some t := by cases t <;> decide

theorem wraps_kept (b c : Bool) : getIsWrapOptimized (setHasMetadata (setIsWrapOptimized 0 b) c) = b := by
  revert b c; decide +kernel

theorem headerWords_length (c : Clip) : (headerWords c).length = 5 := rfl

theorem floatsBytes_length' (ws : List (BitVec 32)) : (floatsBytes ws).length = 4 * ws.length := by
  unfold floatsBytes
  rw [List.flatMap_def, Meta.words_length]

/-- What a context and the decompression functions see of a buffer. -/
structure Opened (t : TrackList) (rate : BitVec 32) (wraps : Bool) (m : List (BitVec 8)) (clip : Clip) : Prop where
  reads : openBuffer m = some clip
  same : ∃ header tail, header.length = 20 ∧ 15 ≤ tail.length ∧ compress t header tail = some clip
  tracks : ∀ supported : Nat → Bool, ∃ tr, tracksOf supported m = some tr ∧ tr.isValid = true ∧ tr.isVersionSupported = supported 10 ∧
    tr.numTracks = t.outputIndices.length ∧ tr.numBitsPerFrame = BitVec.ofNat 32 clip.numBitsPerFrame ∧
    (t.outputIndices ≠ [] → tr.clip = ⟨t.numSamples, F32.ofBits rate, false, wraps⟩)

theorem opened (s : Meta.Settings) (src : Meta.Source) (hv : C29.Valid src) (t : TrackList) (rate : BitVec 32) (wraps : Bool)
    (m : List (BitVec 8)) (hmap : src.mapping = t.outputIndices) (hn : t.numSamples < 2 ^ 32) (h : writeBuffer s src t rate wraps = some m)
    (hlen : m.length < 2 ^ 32) : ∃ clip, Opened t rate wraps m clip := by
  unfold writeBuffer at h
  rw [Option.bind_eq_some_iff] at h
  obtain ⟨d, hd, hm⟩ := h
  unfold dataOf at hd
  rw [Option.bind_eq_some_iff] at hd
  obtain ⟨c, hc, hd⟩ := hd
  injection hd with hd
  obtain ⟨b, T, he, hT⟩ := Clip.build_shape ⟨false, false⟩ s src (tracksHeader t rate wraps) d hv
  rw [he] at hm
  injection hm with hm
  have hsz := Meta.rawBuffer_length ((Meta.headerOf src (tracksHeader t rate wraps) b).bytes :: d :: T)
  have hload := Meta.rawBuffer_header (Meta.headerOf src (tracksHeader t rate wraps) b) (d :: T)
  have hhash := Meta.rawBuffer_hash ((Meta.headerOf src (tracksHeader t rate wraps) b).bytes :: d :: T)
  have hsplit := Meta.rawBuffer_split ((Meta.headerOf src (tracksHeader t rate wraps) b).bytes :: d :: T) 1 d rfl
  rw [hm] at hsz hload hhash hsplit
  have hA : ((DbBuffer.rawBytes (((Meta.headerOf src (tracksHeader t rate wraps) b).bytes :: d :: T).flatten)) ++
      (List.take 1 ((Meta.headerOf src (tracksHeader t rate wraps) b).bytes :: d :: T)).flatten).length = 32 := by
    rw [List.length_append, DbBuffer.rawBytes_length]
    simp [Meta.Header.bytes_length]
  rw [show List.drop (1 + 1) ((Meta.headerOf src (tracksHeader t rate wraps) b).bytes :: d :: T) = T from rfl] at hsplit
  have hvalid : tracksIsValid m true false = some .ok := by
    have hd := hload
    unfold Meta.loadTracksHeader at hd
    simp only [Option.bind_eq_bind, Option.bind_eq_some_iff, Option.some.injEq] at hd
    obtain ⟨tag, e1, version, e2, algo, e3, _, -, _, -, _, -, _, -, _, -, hq⟩ := hd
    unfold Meta.headerOf at hq
    injection hq with q1 q2 q3
    unfold tracksIsValid
    rw [e1, e2, e3, q1, q2, q3]
    rfl
  generalize DbBuffer.rawBytes _ ++ _ = A at hsplit hA
  obtain ⟨f1, f2, f3, f4, f5, f6, f7, f8, f9, f10⟩ := compress_facts t _ _ hc
  rw [List.length_replicate] at f6
  have hdl : d.length = c.bytes.length := by
    rw [← hd, List.length_append, floatsBytes_length', headerWords_length, List.length_drop]
    omega
  have hml : m.length = 32 + (d.length + T.flatten.length) := by rw [hsplit]; simp [hA]
  have word : ∀ k w, (headerWords c)[k]? = some w → load32 m (32 + 4 * k) = some w := by
    intro k w hk
    rw [hsplit, ← hd]
    unfold floatsBytes
    rw [List.flatMap_def, List.append_assoc]
    exact Meta.load32_words _ _ _ k w _ (by rw [hA]) hk
  have small : ∀ n, n < 2 ^ 32 → (BitVec.ofNat 32 n).toNat = n := fun n hn => by rw [BitVec.toNat_ofNat, Nat.mod_eq_of_lt hn]
  refine ⟨{ c with bytes := floatsBytes (headerWords c) ++ (c.bytes.drop 20 ++ T.flatten) }, ?_, ?_, ?_⟩
  · unfold openBuffer
    rw [hload, Option.bind_some]
    dsimp only [Meta.headerOf, tracksHeader]
    rw [typeOf_number, Option.bind_some, word 0 _ rfl, Option.bind_some, word 1 _ rfl, Option.bind_some, word 2 _ rfl, Option.bind_some,
      word 3 _ rfl, Option.bind_some, word 4 _ rfl, Option.bind_some, hmap, small _ f5, small c.metadataOffset (by omega),
      small c.constantOffset (by omega), small c.rangeOffset (by omega), small c.animatedOffset (by omega),
      small _ (by rw [← hmap]; exact hv.count), hsplit, List.drop_left' hA, ← hd, List.append_assoc]
    have e : (if t.outputIndices.length ≠ 0 then BitVec.ofNat 32 t.numSamples else 0#32).toNat = c.numSamples := by
      rw [f4]; split
      · exact small _ hn
      · rfl
    rw [e, ← f2, ← f3]
    congr 1
    obtain ⟨v, ty, nt, ns, nb, mo, co, ro, ao, by'⟩ := c
    dsimp only at f1
    subst f1
    rfl
  · refine ⟨floatsBytes (headerWords c), T.flatten, by rw [floatsBytes_length', headerWords_length], hT, ?_⟩
    have := compress_shape t (floatsBytes (headerWords c)) (List.replicate 20 0#8) T.flatten
      (by rw [floatsBytes_length', headerWords_length, List.length_replicate]) hc
    rw [List.length_replicate] at this
    exact this
  · intro supported
    unfold tracksOf
    rw [hload, Option.bind_some, hhash, Option.bind_some, hvalid, Option.bind_some, word 0 _ rfl, Option.bind_some]
    refine ⟨_, rfl, rfl, rfl, ?_, rfl, ?_⟩
    · dsimp only [Meta.headerOf]
      rw [small _ hv.count, hmap]
    · intro hne
      have hne' : src.mapping.length ≠ 0 := by rw [hmap]; exact fun h => hne (List.length_eq_zero_iff.1 h)
      dsimp only [Meta.headerOf, tracksHeader]
      rw [if_pos hne', if_pos hne', wraps_kept, small _ hn]
      rfl

end Acl.Scalar
