import Verif.Layout.Accessors
import Verif.Props.C06
import Verif.Props.C36
import Verif.Props.C47
import Verif.Props.C50
/-!
C51: the buffers the library makes are valid ones. What a compressor returns passes `is_valid` with the hash, is accepted by
`make_compressed_tracks`, says what was compressed, and no byte of it can be changed without `is_valid` noticing. The same for
databases that are built, split or stripped.
Specification vocabulary: `intervals` below.
-/
namespace Acl.C51
open Acl.Headers Acl.Interp Acl.F32
open Acl.Transform (ClipSource Compressed ClipFlags)

/-- Specification: the number of frame intervals that are played: a looping clip also goes back from the last to the first. -/
def intervals (loops : Bool) (numSamples : Nat) : Nat := if loops then numSamples else numSamples - 1

/-- Specification: whether a policy loops, `compressedLoops` is for as_compressed. -/
def loops (compressedLoops : Bool) : Looping → Bool
  | .asCompressed => compressedLoops
  | .wrap => true
  | .clamp => false

/-! ### Any buffer of the metadata writer -/

theorem drop_rawBuffer (P : List (List (BitVec 8))) : (Meta.rawBuffer P).drop 8 = P.flatten := by
  unfold Meta.rawBuffer
  rw [List.drop_left' (DbBuffer.rawBytes_length _)]

/-- A buffer with a header, its size and its hash is valid. -/
theorem valid_rawBuffer (h : Meta.Header) (P : List (List (BitVec 8))) (h1 : h.tag = 0xac11ac11#32) (h2 : h.version = 10#16) (h3 : h.algorithm = 0#8)
    (hlen : (Meta.rawBuffer (h.bytes :: P)).length < 2 ^ 32) : tracksIsValid (Meta.rawBuffer (h.bytes :: P)) true true = some .ok := by
  have hd := Meta.rawBuffer_header h P
  unfold Meta.loadTracksHeader at hd
  simp only [Option.bind_eq_bind, Option.bind_eq_some_iff, Option.some.injEq] at hd
  obtain ⟨tag, e1, version, e2, algo, e3, _, -, _, -, _, -, _, -, _, -, he⟩ := hd
  rw [← he] at h1 h2 h3
  dsimp only at h1 h2 h3
  have hs := Meta.rawBuffer_size (h.bytes :: P)
  have hh := Meta.rawBuffer_hash (h.bytes :: P)
  have hdr := drop_rawBuffer (h.bytes :: P)
  have hl := Meta.rawBuffer_length (h.bytes :: P)
  generalize h.bytes :: P = Q at *
  have hn : (BitVec.ofNat 32 (Meta.rawBuffer Q).length).toNat = (Meta.rawBuffer Q).length := by
    rw [BitVec.toNat_ofNat, Nat.mod_eq_of_lt hlen]
  unfold tracksIsValid
  rw [e1, e2, e3, h1, h2, h3, hs, hh]
  simp only [Option.bind_eq_bind, Option.bind_some, hn, hdr, Bool.not_true, Bool.false_eq_true, if_false]
  rw [List.take_of_length_le (by omega)]
  have c1 : (decide ((Meta.rawBuffer Q).length < 8) || decide ((Meta.rawBuffer Q).length < (Meta.rawBuffer Q).length)) = false := by
    simp; omega
  rw [if_pos trivial, c1]
  simp

/-- **Valid.** What a compressor returns is valid, for scalar and transform tracks, whatever the data, the metadata and the
settings: `is_valid(true)` has no error, `make_compressed_tracks` returns it, `get_size` is its size. -/
theorem C51_valid (e : Meta.Extra) (s : Meta.Settings) (src : Meta.Source) (h : Meta.Header) (data m : List (BitVec 8)) (hv : C29.Valid src)
    (hm : Meta.compress e s src h data = some m) (hlen : m.length < 2 ^ 32) :
    tracksIsValid m true true = some .ok ∧ (∀ w, ∃ v, Meta.makeCompressedTracks m true w = some (true, v)) ∧
      Meta.getSize m = some m.length := by
  obtain ⟨b, T, he, -⟩ := Clip.build_shape e s src h data hv
  rw [he] at hm
  injection hm with hm
  subst hm
  have hok := valid_rawBuffer (Meta.headerOf src h b) (data :: T) rfl rfl rfl hlen
  refine ⟨hok, ?_, ?_⟩
  · intro w
    unfold Meta.makeCompressedTracks
    cases w with
    | false => exact ⟨none, rfl⟩
    | true =>
      have hd := Meta.rawBuffer_header (Meta.headerOf src h b) (data :: T)
      unfold Meta.loadTracksHeader at hd
      simp only [Option.bind_eq_bind, Option.bind_eq_some_iff, Option.some.injEq] at hd
      obtain ⟨tag, e1, version, e2, algo, e3, _, -, _, -, _, -, _, -, _, -, hq⟩ := hd
      unfold Meta.headerOf at hq
      injection hq with q1 q2 q3
      refine ⟨some .ok, ?_⟩
      have : tracksIsValid (Meta.rawBuffer ((Meta.headerOf src h b).bytes :: data :: T)) true false = some .ok := by
        unfold tracksIsValid
        rw [e1, e2, e3, q1, q2, q3]
        rfl
      rw [if_pos rfl, this]
      rfl
  · unfold Meta.getSize
    rw [Meta.rawBuffer_size, Option.map_some, BitVec.toNat_ofNat, Nat.mod_eq_of_lt hlen]

/-- **Corruption.** Changing one byte of what a compressor returns, other than the four of the size, is an error. -/
theorem C51_corruption (e : Meta.Extra) (s : Meta.Settings) (src : Meta.Source) (h : Meta.Header) (data m : List (BitVec 8)) (hv : C29.Valid src)
    (hm : Meta.compress e s src h data = some m) (hlen : m.length < 2 ^ 32) (k : Nat) (hk : 4 ≤ k) (hk2 : k < m.length) (x : BitVec 8)
    (hx : m[k]? ≠ some x) : tracksIsValid (m.set k x) true true ≠ some .ok := by
  obtain ⟨h1, -, h3⟩ := C51_valid e s src h data m hv hm hlen
  unfold Meta.getSize at h3
  rw [Option.map_eq_some_iff] at h3
  obtain ⟨sz, h4, h5⟩ := h3
  obtain ⟨v, h6, h7⟩ := C06.C06_corruption_detected m true sz h4 h1 k x hk (by omega) hx
  rw [h6]; exact h7

/-! ### Transform clips -/

variable {c : ClipSource} {e : Meta.Extra} {s : Meta.Settings} {src : Meta.Source} {f : ClipFlags} {m : List (BitVec 8)}

theorem compress_meta (h : Compressed c e s src f m) : ∃ data, Meta.compress e s src (c.header f) data = some m := by
  obtain ⟨x, -, w⟩ := h.written
  have := w.result
  unfold Clip.compress at this
  simp only [Option.bind_eq_bind, Option.bind_eq_some_iff] at this
  obtain ⟨d, -, hd⟩ := this
  exact ⟨_, hd⟩

theorem misc_rest (c : ClipSource) (f : ClipFlags) (b : Bool) :
    getHasTrivialDefaultValues (setHasMetadata (c.misc f) b) = f.trivialDefaults ∧
    Headers.getDefaultScale (setHasMetadata (c.misc f) b) = if f.defaultScaleOne then 1 else 0 := by
  unfold ClipSource.misc
  generalize c.hasScale = x1
  generalize f.defaultScaleOne = x2
  generalize f.trivialDefaults = x3
  generalize c.stripped = x4
  generalize f.wrapOptimized = x5
  cases c.rotationFormat <;> cases c.translationFormat <;> cases c.scaleFormat <;> revert x1 x2 x3 x4 x5 b <;> decide +kernel

/-- **Transform clips.** A compressed transform clip is valid, and its accessors return what was compressed. -/
theorem C51_transform (h : Compressed c e s src f m) :
    tracksIsValid m true true = some .ok ∧ Meta.getSize m = some m.length ∧ Meta.getVersion m = some 10 ∧
    Meta.getNumTracks m = some c.bones.length ∧ Meta.getNumSamples m = some c.numSamples ∧ Meta.getTrackType m = some 12#8 ∧
    Meta.getSampleRate m = some f.sampleRate ∧ Meta.hasDatabase m = some false ∧ Meta.hasStrippedKeyframes m = some c.stripped ∧
    Meta.hasTrivialDefaultValues m = some f.trivialDefaults ∧
    Meta.getDefaultScale m = some (if f.defaultScaleOne then 1 else 0) ∧
    Meta.getLoopingPolicy m = some (if f.wrapOptimized then .wrap else .clamp) := by
  obtain ⟨data, hd⟩ := compress_meta h
  obtain ⟨v1, -, v3⟩ := C51_valid e s src _ data m h.metadata hd h.small
  obtain ⟨b, hb⟩ := h.header
  obtain ⟨d1, d2, d5⟩ := C50.misc_more c f b
  obtain ⟨d3, d4⟩ := misc_rest c f b
  have hN := h.clip.numSamples
  have hB := h.clip.bones
  refine ⟨v1, v3, ?_, ?_, ?_, ?_, ?_, ?_, ?_, ?_, ?_, ?_⟩
  · unfold Meta.getVersion; rw [hb]; rfl
  · unfold Meta.getNumTracks; rw [hb]
    show some (BitVec.ofNat 32 c.bones.length).toNat = _
    rw [BitVec.toNat_ofNat, Nat.mod_eq_of_lt hB.2]
  · unfold Meta.getNumSamples; rw [hb]
    show some (BitVec.ofNat 32 c.numSamples).toNat = _
    rw [BitVec.toNat_ofNat, Nat.mod_eq_of_lt (by omega)]
  · unfold Meta.getTrackType; rw [hb]; rfl
  · unfold Meta.getSampleRate; rw [hb]; rfl
  · unfold Meta.hasDatabase; rw [hb, Option.map_some]; exact congrArg some d1
  · unfold Meta.hasStrippedKeyframes; rw [hb, Option.map_some]; exact congrArg some d5
  · unfold Meta.hasTrivialDefaultValues; rw [hb, Option.map_some]; exact congrArg some d3
  · unfold Meta.getDefaultScale; rw [hb, Option.map_some]; exact congrArg some d4
  · unfold Meta.getLoopingPolicy
    rw [hb, Option.map_some]
    dsimp only
    rw [d2]
    rfl

/-- **Duration.** The duration of a compressed clip is its number of intervals over the sample rate, for every looping policy:
`get_finite_duration` is 0 and `get_duration` infinite without interval. -/
theorem C51_duration (h : Compressed c e s src f m) (p : Looping) (hn : c.numSamples < 2 ^ 24)
    (hfin : rnd ((intervals (loops f.wrapOptimized p) c.numSamples : ℚ) / ofBits f.sampleRate) < pow2 128) :
    Meta.getFiniteDuration m p = some (if intervals (loops f.wrapOptimized p) c.numSamples = 0 then .fin 0 else
      .fin (rnd ((intervals (loops f.wrapOptimized p) c.numSamples : ℚ) / ofBits f.sampleRate))) ∧
    Meta.getDuration m p = some (if intervals (loops f.wrapOptimized p) c.numSamples = 0 then .inf else
      .fin (rnd ((intervals (loops f.wrapOptimized p) c.numSamples : ℚ) / ofBits f.sampleRate))) := by
  obtain ⟨b, hb⟩ := h.header
  obtain ⟨-, d2, -⟩ := C50.misc_more c f b
  have hseg := Transform.segments_le h.clip
  have hsp := Transform.segments_pos h.clip
  have hpos : 1 ≤ c.numSamples := by omega
  have hds : Meta.durationSamples { c.header f with misc := setHasMetadata (c.misc f) b } p =
      intervals (loops f.wrapOptimized p) c.numSamples + 1 := by
    have hpol : Meta.durationPolicy { c.header f with misc := setHasMetadata (c.misc f) b } p =
        if loops f.wrapOptimized p then .wrap else .clamp := by
      unfold Meta.durationPolicy
      dsimp only
      rw [d2]
      cases p <;> unfold loops <;> simp [ClipSource.header]
    unfold Meta.durationSamples
    rw [hpol]
    show (if _ ∧ BitVec.ofNat 32 c.numSamples ≠ 0#32 then (BitVec.ofNat 32 c.numSamples + 1#32).toNat else (BitVec.ofNat 32 c.numSamples).toNat) = _
    have hnz : BitVec.ofNat 32 c.numSamples ≠ 0#32 := by
      intro hz
      have := congrArg BitVec.toNat hz
      rw [BitVec.toNat_ofNat, Nat.mod_eq_of_lt (by omega)] at this
      simp at this; omega
    unfold intervals
    cases hl : loops f.wrapOptimized p
    · simp only [Bool.false_eq_true, if_false]
      rw [if_neg (by simp), BitVec.toNat_ofNat, Nat.mod_eq_of_lt (by omega)]
      omega
    · simp only [if_true]
      rw [if_pos ⟨trivial, hnz⟩, BitVec.toNat_add, BitVec.toNat_ofNat]
      simp; omega
  unfold Meta.getFiniteDuration Meta.getDuration
  rw [hb, Option.map_some, Option.map_some, hds]
  show some (calculateFiniteDuration _ (ofBits f.sampleRate)) = _ ∧ some (calculateDuration _ (ofBits f.sampleRate)) = _
  have hof : intervals (loops f.wrapOptimized p) c.numSamples < 2 ^ 24 := by unfold intervals; split <;> omega
  generalize intervals (loops f.wrapOptimized p) c.numSamples = n at *
  unfold calculateFiniteDuration calculateDuration
  by_cases hz : n = 0
  · subst hz; exact ⟨rfl, rfl⟩
  · rw [if_neg (show ¬ n + 1 ≤ 1 by omega), if_neg (show ¬ n + 1 = 0 by omega), if_neg (show ¬ n + 1 = 1 by omega), if_neg hz, if_neg hz,
      Nat.add_sub_cancel]
    unfold fdivInf fdiv
    rw [ofNat_eq (by omega), if_pos hfin]
    exact ⟨rfl, rfl⟩

/-! ### Databases -/

/-- **Databases.** A database that was built is valid, so are what `split` and `strip` make of it, in any order. -/
theorem C51_database (d : DbBuffer.Content) (hsize : (C47.viewOf d).buffer.length < 2 ^ 32) :
    ∃ m, DbBuffer.build d = some m ∧ databaseIsValid m true true = some .ok ∧
      (∃ a b c, DbBuffer.split m = some (some (a, b, c)) ∧ databaseIsValid a true true = some .ok) ∧
      ∀ t a, DbBuffer.strip m t = some (some a) → databaseIsValid a true true = some .ok := by
  obtain ⟨m, h1, R, -, hw, hi⟩ := C47.C47_build_accessors d hsize
  have h2 := C47.C47_build d hsize
  rw [h2] at h1
  injection h1 with h1
  subst h1
  refine ⟨_, h2, R.valid, ⟨_, _, _, C36.C36_split _ hw.1 hi, DbBuffer.valid_buffer _ (C36.splitView_legal _ hw.1)⟩, ?_⟩
  intro t a ha
  have he := C36.C36_errors (C47.viewOf d) hw.1 ⟨by have := hw.2.1; omega, by have := hw.2.1; omega⟩
  by_cases ht : t = .highest
  · subst ht; rw [he.2.1] at ha; cases ha
  by_cases hne : (C47.viewOf d).bulk t = []
  · rw [he.2.2 t hne] at ha; cases ha
  rw [C36.C36_strip _ t hw ht hne] at ha
  injection ha with ha
  injection ha with ha
  subst ha
  exact DbBuffer.valid_buffer _ (C36.stripView_legal _ t hw)

/-- **Corruption of databases.** Changing one byte of a database that was built, other than the four of the size, is an error.
(The hash covers the bulk data too, as long as it is inline.) -/
theorem C51_database_corruption (d : DbBuffer.Content) (hsize : (C47.viewOf d).buffer.length < 2 ^ 32) (m : List (BitVec 8))
    (hm : DbBuffer.build d = some m) (k : Nat) (hk : 4 ≤ k) (hk2 : k < m.length) (x : BitVec 8) (hx : m[k]? ≠ some x) :
    databaseIsValid (m.set k x) true true ≠ some .ok := by
  obtain ⟨m', h1, R, -, hw, hi⟩ := C47.C47_build_accessors d hsize
  rw [hm] at h1
  injection h1 with h1
  subst h1
  have h2 := C47.C47_build d hsize
  rw [hm] at h2
  injection h2 with h2
  have hs : load32 m 0 = some (BitVec.ofNat 32 m.length) := by rw [h2]; exact DbBuffer.load_size _
  obtain ⟨v, h6, h7⟩ := C06.C06_database_corruption_detected m true _ hs R.valid k x hk
    (by rw [BitVec.toNat_ofNat, Nat.mod_eq_of_lt (by rw [h2]; exact hsize)]; exact hk2) hx
  rw [h6]; exact h7

/-! ### The hypotheses are met -/

/-- The clip of C49 is 6 frames at 30 Hz; as compressed it does not loop: 5 intervals. -/
example : (∀ m, C49.exClip.compress ⟨false, false⟩ ⟨true, true, true, true, true⟩ C29.exSource C49.exFlags = some m →
      tracksIsValid m true true = some .ok ∧ Meta.getNumSamples m = some 6 ∧ Meta.getFiniteDuration m .asCompressed = some (.fin (rnd (5 / 30))) ∧
      Meta.getFiniteDuration m .wrap = some (.fin (rnd (6 / 30))) ∧ tracksIsValid (m.set 40 0xff#8) true true = some .badHash) := by
  decide +kernel

end Acl.C51
