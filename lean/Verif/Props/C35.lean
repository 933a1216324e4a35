import Verif.Scalar.WriterLemmas
import Verif.Props.C34
/-!
C35: the scalar compressor and the scalar decompressor agree: the value decompressed for an output track at two key
frames is made of exactly the samples of that track at those key frames.
Specification vocabulary: `Quantized`, `sampleOf`, `valueOf`, `totalBits` below.
-/
namespace Acl.C35
open Acl.Scalar

/-- Specification: bits per component, for the bit rates of an animated track. -/
def bitsPerComponent (bitRate : Nat) : Nat := if bitRate = 24 then 32 else bitRate

/-- Specification: a track list as the quantizer leaves it. Every sample has the components of the track type, an
animated track has a bit rate from 1 to 24, the quantized components fit in their width. -/
structure Quantized (t : TrackList) : Prop where
  reference : ∀ i ∈ t.outputIndices, ∀ s, (t.reference i s).length = numSampleElements t.trackType
  quantized : ∀ i ∈ t.outputIndices, ∀ s, (t.quantized i s).length = numSampleElements t.trackType
  rangeMin : ∀ i ∈ t.outputIndices, (t.rangeMin i).length = numSampleElements t.trackType
  rangeExtent : ∀ i ∈ t.outputIndices, (t.rangeExtent i).length = numSampleElements t.trackType
  bitRate : ∀ i ∈ t.outputIndices, t.isConstant i = false → 1 ≤ t.bitRate i ∧ t.bitRate i ≤ 24
  fits : ∀ i ∈ t.outputIndices, t.isConstant i = false → t.bitRate i ≠ 24 →
    ∀ s, ∀ v ∈ t.quantized i s, v.toNat < 2 ^ t.bitRate i

/-- Specification: the sample of an animated track at a key frame. -/
def sampleOf (t : TrackList) (i frame : Nat) : Sample :=
  if t.bitRate i = 24 then .raw (t.reference i frame)
  else .quantized (t.bitRate i) (t.quantized i frame) (t.rangeMin i) (t.rangeExtent i)

/-- Specification: the value of a track between two key frames. -/
def valueOf (t : TrackList) (i frame0 frame1 : Nat) (alpha : Alpha) : Value :=
  if t.isConstant i then .constant (t.reference i 0)
  else .lerp (sampleOf t i frame0) (sampleOf t i frame1) alpha

/-- Specification: bits of a frame. -/
def frameBits (t : TrackList) : Nat :=
  (t.outputIndices.map fun i => if t.isConstant i then 0 else bitsPerComponent (t.bitRate i) * numSampleElements t.trackType).sum

/-- Specification: what a writer asks for. -/
def alphaOf (w : Writer) (rounding : Policy) (track : Nat) : Alpha :=
  if w.perTrackRounding then
    match w.policyOf rounding track with
    | .floor => .zero
    | .ceil => .one
    | .nearest => .roundedNearest
    | _ => .seek
  else .seek

theorem frameBits_eq (t : TrackList) : frameBits t = bitsOf t t.outputIndices := by
  unfold frameBits
  induction t.outputIndices with
  | nil => rfl
  | cons i l ih => rw [List.map_cons, List.sum_cons, bitsOf, ih]; rfl

theorem Quantized.ok {t : TrackList} (h : Quantized t) : ∀ i ∈ t.outputIndices, TrackOk t i := fun i hi =>
  ⟨h.reference i hi, h.quantized i hi, h.rangeMin i hi, h.rangeExtent i hi, h.bitRate i hi, h.fits i hi⟩

theorem writeConstants_append (t : TrackList) (a b : List Nat) :
    writeConstants t (a ++ b) = writeConstants t a ++ writeConstants t b := by
  induction a with
  | nil => rfl
  | cons i a ih =>
    rw [List.cons_append, writeConstants, writeConstants, ih]
    split
    · rw [List.append_assoc]
    · rfl

theorem writeRanges_append (t : TrackList) (a b : List Nat) :
    writeRanges t (a ++ b) = writeRanges t a ++ writeRanges t b := by
  induction a with
  | nil => rfl
  | cons i a ih =>
    rw [List.cons_append, writeRanges, writeRanges, ih]
    split
    · rfl
    · split
      · rfl
      · simp only [List.append_assoc]

/-- The clip as the compressor lays it out, with the facts about the animated section. -/
structure Layout (t : TrackList) (clip : Clip) (header tail animated : List (BitVec 8)) : Prop where
  v2 : clip.isV2_0 = false
  type : clip.trackType = t.trackType
  tracks : clip.numTracks = t.outputIndices.length
  frame : t.numSamples ≠ 0 → clip.numBitsPerFrame = bitsOf t t.outputIndices
  meta_ : clip.metadataOffset = header.length
  const : clip.constantOffset = header.length + (writeMetadata t).length + (padTo4 (header.length + (writeMetadata t).length)).length
  range : clip.rangeOffset = clip.constantOffset + (writeConstants t t.outputIndices).length
  anim : clip.animatedOffset = clip.rangeOffset + (writeRanges t t.outputIndices).length
  bytes : clip.bytes = header ++ (writeMetadata t ++ (padTo4 (header.length + (writeMetadata t).length) ++
    (writeConstants t t.outputIndices ++ (writeRanges t t.outputIndices ++ (animated ++ tail)))))
  size : t.numSamples * bitsOf t t.outputIndices ≤ 8 * animated.length
  total : t.numSamples * bitsOf t t.outputIndices < 4294967296
  holds : ∀ f, f < t.numSamples → ∀ pre i post, t.outputIndices = pre ++ i :: post → t.isConstant i = false →
    ∀ k (hk : k < (source t i f).length),
    Holds animated (f * bitsOf t t.outputIndices + bitsOf t pre + width (t.bitRate i) * k) (width (t.bitRate i)) (source t i f)[k]

theorem compress_layout (t : TrackList) (header tail : List (BitVec 8)) (h : ∀ i ∈ t.outputIndices, TrackOk t i)
    (hsize : t.numSamples * bitsOf t t.outputIndices < 4294967296) :
    ∃ clip animated, compress t header tail = some clip ∧ Layout t clip header tail animated := by
  unfold compress
  rw [countAnimated_eq t _ h, Option.bind_some, if_neg (by omega)]
  dsimp only
  obtain ⟨r, last, e, len, _, hold⟩ := writeFrames_spec t h t.numSamples 0
    (List.replicate ((t.numSamples * bitsOf t t.outputIndices + 7) / 8) 0#8) 0 (by rw [List.length_replicate]; omega)
  rw [e, Option.bind_some]
  rw [List.length_replicate] at len
  refine ⟨_, r, rfl, rfl, rfl, rfl, ?_, rfl, rfl, rfl, rfl, rfl, by omega, hsize, ?_⟩
  · intro hz
    show (if t.numSamples ≠ 0 then _ else _) = _
    rw [if_pos hz, Nat.mul_div_cancel_left _ (Nat.pos_of_ne_zero hz)]
  · intro f hf pre i post hsplit hi k hk
    have e0 : 0 + f = f := Nat.zero_add f
    have := hold f hf pre i post hsplit hi
    rw [e0, Nat.zero_add] at this
    exact this k hk

theorem numBitsOf_layout {t : TrackList} {clip : Clip} {header tail animated : List (BitVec 8)}
    (L : Layout t clip header tail animated) (h : ∀ i ∈ t.outputIndices, TrackOk t i) (pre post : List Nat) (i : Nat)
    (hs : t.outputIndices = pre ++ i :: post) :
    numBitsOf clip pre.length = some (if t.isConstant i then 0 else width (t.bitRate i)) := by
  have hm : (writeMetadata t)[pre.length]? = some (if t.isConstant i then 0#8 else BitVec.ofNat 8 (t.bitRate i)) := by
    unfold writeMetadata
    rw [List.getElem?_map, hs, List.getElem?_append_right (Nat.le_refl _), Nat.sub_self]
    rfl
  have hlt : pre.length < (writeMetadata t).length := (List.getElem?_eq_some_iff.1 hm).1
  unfold numBitsOf
  rw [L.bytes, L.meta_, List.getElem?_append_right (by omega), Nat.add_sub_cancel_left,
    List.getElem?_append_left hlt, hm, Option.bind_some, L.v2]
  cases hc : t.isConstant i with
  | true => rfl
  | false =>
    show (if (BitVec.ofNat 8 (t.bitRate i)).toNat < _ then _ else none) = some (width (t.bitRate i))
    obtain ⟨h1, h2⟩ := (h i (by rw [hs]; simp)).bitRate hc
    have key : ∀ r, r < 25 → (if (BitVec.ofNat 8 r).toNat < (scalarBitRateTable false).length then
        (scalarBitRateTable false)[(BitVec.ofNat 8 r).toNat]? else none) = some (width r) := by decide
    exact key _ (by omega)

theorem constants_step (t : TrackList) (i : Nat) (l : List Nat) (h : TrackOk t i) :
    (writeConstants t (i :: l)).length = (if t.isConstant i then 4 * numSampleElements t.trackType else 0) + (writeConstants t l).length := by
  rw [writeConstants]
  split
  · rw [List.length_append, floatsBytes_length, h.reference]
  · rw [Nat.zero_add]

theorem ranges_step (t : TrackList) (i : Nat) (l : List Nat) (h : TrackOk t i) :
    (writeRanges t (i :: l)).length =
      (if t.isConstant i then 0 else if t.bitRate i = 24 then 0 else 4 * (numSampleElements t.trackType * 2)) + (writeRanges t l).length := by
  rw [writeRanges, isRaw_iff]
  split
  · rw [Nat.zero_add]
  · by_cases h24 : t.bitRate i = 24
    · rw [if_pos h24, if_pos (by simpa using h24), Nat.zero_add]
    · rw [if_neg h24, if_neg (by simpa using h24), List.length_append, List.length_append, floatsBytes_length,
        floatsBytes_length, h.rangeMin, h.rangeExtent]
      omega

theorem scan_layout {t : TrackList} {clip : Clip} {header tail animated : List (BitVec 8)}
    (L : Layout t clip header tail animated) (h : ∀ i ∈ t.outputIndices, TrackOk t i) (todo : List Nat) :
    ∀ (done rest : List Nat) (s : Scan), t.outputIndices = done ++ (todo ++ rest) → s.bit + bitsOf t todo < 4294967296 →
    scanLoop clip todo.length done.length s =
      some ⟨s.constant + (writeConstants t todo).length, s.range + (writeRanges t todo).length, s.bit + bitsOf t todo⟩ := by
  induction todo with
  | nil => intro done rest s _ _; rfl
  | cons i todo ih =>
    intro done rest s hs hb
    have hi : TrackOk t i := h i (by rw [hs]; simp)
    rw [List.length_cons, C34.scanLoop_succ, numBitsOf_layout L h done (todo ++ rest) i hs, Option.bind_some, L.type,
      constants_step t i todo hi, ranges_step t i todo hi]
    have hd : done.length + 1 = (done ++ [i]).length := by simp
    rw [hd]
    rw [bitsOf] at hb ⊢
    cases hc : t.isConstant i with
    | true =>
      rw [hc, if_pos rfl] at hb
      rw [ih (done ++ [i]) rest _ (by rw [hs]; simp) (by unfold C34.scanStep u32; simp; omega)]
      unfold C34.scanStep u32
      simp only [if_true, Nat.zero_mul, Nat.zero_mod]
      congr 2
      · omega
      · omega
      · omega
    | false =>
      rw [hc, if_neg (by decide)] at hb
      obtain ⟨h1, h2⟩ := hi.bitRate hc
      have hw : width (t.bitRate i) ≠ 0 := by unfold width; split <;> omega
      generalize hq : width (t.bitRate i) * numSampleElements t.trackType = q at hb ⊢
      have hwlt : (width (t.bitRate i) < 32) ↔ ¬ t.bitRate i = 24 := by
        unfold width; split <;> omega
      rw [ih (done ++ [i]) rest _ (by rw [hs]; simp) (by unfold C34.scanStep u32; dsimp only; rw [if_neg (by decide), hq]; omega)]
      unfold C34.scanStep u32
      simp only [Bool.false_eq_true, if_false, if_neg hw, hq, Nat.zero_add]
      congr 2
      · by_cases h24 : t.bitRate i = 24
        · rw [if_neg (by rw [hwlt]; exact not_not.2 h24), if_pos h24, Nat.zero_add]
        · rw [if_pos (hwlt.2 h24), if_neg h24]; omega
      · omega

theorem readSample_layout {t : TrackList} {clip : Clip} {header tail animated : List (BitVec 8)}
    (L : Layout t clip header tail animated) (h : ∀ i ∈ t.outputIndices, TrackOk t i) (htail : 15 ≤ tail.length)
    (pre post : List Nat) (i : Nat) (hs : t.outputIndices = pre ++ i :: post) (hc : t.isConstant i = false)
    (f : Nat) (hf : f < t.numSamples) :
    readSample (numSampleElements t.trackType) clip (width (t.bitRate i)) (clip.rangeOffset + (writeRanges t pre).length)
      (f * bitsOf t t.outputIndices + bitsOf t pre) = some (sampleOf t i f) := by
  have ok : TrackOk t i := h i (by rw [hs]; simp)
  obtain ⟨h1, h2⟩ := ok.bitRate hc
  obtain ⟨c1, c4⟩ := elements_range t.trackType
  have hdrop : clip.bytes.drop clip.animatedOffset = animated ++ tail := by
    rw [L.bytes, L.anim, L.range, L.const]
    generalize writeConstants t t.outputIndices = C
    generalize writeRanges t t.outputIndices = R
    generalize padTo4 (header.length + (writeMetadata t).length) = P
    generalize writeMetadata t = M
    have : header ++ (M ++ (P ++ (C ++ (R ++ (animated ++ tail))))) = (header ++ (M ++ (P ++ (C ++ R)))) ++ (animated ++ tail) := by
      simp only [List.append_assoc]
    rw [this, List.drop_left' (by simp only [List.length_append]; omega)]
  have htot : bitsOf t t.outputIndices = bitsOf t pre + (width (t.bitRate i) * numSampleElements t.trackType + bitsOf t post) := by
    conv_lhs => rw [hs, bitsOf_append, bitsOf, hc, if_neg (by decide)]
  have hlast : f * bitsOf t t.outputIndices + bitsOf t t.outputIndices ≤ 8 * animated.length := by
    have : (f + 1) * bitsOf t t.outputIndices ≤ t.numSamples * bitsOf t t.outputIndices := Nat.mul_le_mul_right _ hf
    rw [Nat.add_mul, Nat.one_mul] at this
    exact Nat.le_trans this L.size
  have hlen := source_length ok f
  have hold := L.holds f hf pre i post hs hc
  generalize f * bitsOf t t.outputIndices = base at *
  have hold' : ∀ k (hk : k < (source t i f).length),
      Holds (animated ++ tail) (base + bitsOf t pre + width (t.bitRate i) * k) (width (t.bitRate i)) (source t i f)[k] := by
    intro k hk
    have hk' : k < numSampleElements t.trackType := by rw [← hlen]; exact hk
    have hmul : width (t.bitRate i) * k + width (t.bitRate i) ≤ width (t.bitRate i) * numSampleElements t.trackType := by
      rw [← Nat.mul_succ]; exact Nat.mul_le_mul_left _ hk'
    exact Holds_append (hold k hk) _ (by omega)
  unfold readSample sampleOf
  by_cases h24 : t.bitRate i = 24
  · have hw : width (t.bitRate i) = 32 := by unfold width; rw [if_pos h24]
    have hsrc : source t i f = t.reference i f := by unfold source; rw [if_pos h24]
    rw [hw] at hold' htot ⊢
    rw [if_pos rfl, if_pos h24, hdrop]
    have := readRawFrom_holds (animated ++ tail) (base + bitsOf t pre) (source t i f) 0
      (by rw [hlen, List.length_append]; omega) (by intro k hk; rw [Nat.zero_add]; exact hold' k hk)
    rw [hlen, hsrc] at this
    rw [this]; rfl
  · have hw : width (t.bitRate i) = t.bitRate i := by unfold width; rw [if_neg h24]
    have hsrc : source t i f = t.quantized i f := by unfold source; rw [if_neg h24]
    rw [hw] at hold' htot ⊢
    rw [if_neg (by omega), if_neg h24, hdrop]
    have hmulc : t.bitRate i * (numSampleElements t.trackType - 1) + t.bitRate i = t.bitRate i * numSampleElements t.trackType := by
      rw [← Nat.mul_succ]; congr 1; omega
    have hq := readQuantized_holds (numSampleElements t.trackType) (t.bitRate i) (animated ++ tail) (base + bitsOf t pre) (source t i f)
      hlen c1 c4 h1 (by omega) (by rw [List.length_append]; generalize t.bitRate i * (numSampleElements t.trackType - 1) = q at *; omega)
      (by rw [hsrc]; exact ok.fits hc h24 f) hold'
    rw [hsrc] at hq
    rw [hq, Option.bind_some]
    have hr : writeRanges t t.outputIndices = writeRanges t pre ++
        (floatsBytes (t.rangeMin i) ++ (floatsBytes (t.rangeExtent i) ++ writeRanges t post)) := by
      conv_lhs => rw [hs, writeRanges_append, writeRanges, hc, if_neg (by decide), isRaw_iff, if_neg (by simpa using h24)]
    have hb1 : clip.bytes = (header ++ (writeMetadata t ++ (padTo4 (header.length + (writeMetadata t).length) ++
        (writeConstants t t.outputIndices ++ writeRanges t pre)))) ++ (floatsBytes (t.rangeMin i) ++
        (floatsBytes (t.rangeExtent i) ++ (writeRanges t post ++ (animated ++ tail)))) := by
      rw [L.bytes, hr]; simp only [List.append_assoc]
    have hb2 : clip.bytes = ((header ++ (writeMetadata t ++ (padTo4 (header.length + (writeMetadata t).length) ++
        (writeConstants t t.outputIndices ++ writeRanges t pre)))) ++ floatsBytes (t.rangeMin i)) ++
        (floatsBytes (t.rangeExtent i) ++ (writeRanges t post ++ (animated ++ tail))) := by
      rw [hb1]; simp only [List.append_assoc]
    have l1 := loadFloats_at (numSampleElements t.trackType) (t.rangeMin i) ok.rangeMin c1 c4
      (header ++ (writeMetadata t ++ (padTo4 (header.length + (writeMetadata t).length) ++
        (writeConstants t t.outputIndices ++ writeRanges t pre))))
      (floatsBytes (t.rangeExtent i) ++ (writeRanges t post ++ (animated ++ tail)))
      (clip.rangeOffset + (writeRanges t pre).length)
      (by rw [L.range, L.const]; simp only [List.length_append]; omega)
      (by simp only [List.length_append]; omega)
    have l2 := loadFloats_at (numSampleElements t.trackType) (t.rangeExtent i) ok.rangeExtent c1 c4
      ((header ++ (writeMetadata t ++ (padTo4 (header.length + (writeMetadata t).length) ++
        (writeConstants t t.outputIndices ++ writeRanges t pre)))) ++ floatsBytes (t.rangeMin i))
      (writeRanges t post ++ (animated ++ tail))
      (clip.rangeOffset + (writeRanges t pre).length + 4 * numSampleElements t.trackType)
      (by rw [L.range, L.const]; simp only [List.length_append, floatsBytes_length, ok.rangeMin]; omega)
      (by simp only [List.length_append]; omega)
    rw [← hb1] at l1
    rw [← hb2] at l2
    rw [l1, Option.bind_some, l2]
    rfl

theorem constant_layout {t : TrackList} {clip : Clip} {header tail animated : List (BitVec 8)}
    (L : Layout t clip header tail animated) (h : ∀ i ∈ t.outputIndices, TrackOk t i) (htail : 15 ≤ tail.length)
    (pre post : List Nat) (i : Nat) (hs : t.outputIndices = pre ++ i :: post) (hc : t.isConstant i = true) :
    loadFloats (numSampleElements t.trackType) clip.bytes (clip.constantOffset + (writeConstants t pre).length) =
      some (t.reference i 0) := by
  have ok : TrackOk t i := h i (by rw [hs]; simp)
  obtain ⟨c1, c4⟩ := elements_range t.trackType
  have hr : writeConstants t t.outputIndices = writeConstants t pre ++ (floatsBytes (t.reference i 0) ++ writeConstants t post) := by
    conv_lhs => rw [hs, writeConstants_append, writeConstants, hc, if_pos rfl]
  have hb1 : clip.bytes = (header ++ (writeMetadata t ++ (padTo4 (header.length + (writeMetadata t).length) ++
      writeConstants t pre))) ++ (floatsBytes (t.reference i 0) ++
      (writeConstants t post ++ (writeRanges t t.outputIndices ++ (animated ++ tail)))) := by
    rw [L.bytes, hr]; simp only [List.append_assoc]
  have l1 := loadFloats_at (numSampleElements t.trackType) (t.reference i 0) (ok.reference 0) c1 c4
    (header ++ (writeMetadata t ++ (padTo4 (header.length + (writeMetadata t).length) ++ writeConstants t pre)))
    (writeConstants t post ++ (writeRanges t t.outputIndices ++ (animated ++ tail)))
    (clip.constantOffset + (writeConstants t pre).length)
    (by rw [L.const]; simp only [List.length_append]; omega)
    (by simp only [List.length_append]; omega)
  rwa [← hb1] at l1

theorem alpha_eq (w : Writer) (r : Policy) (j : Nat) :
    (if w.perTrackRounding then applyRounding (w.policyOf r j) else Alpha.seek) = alphaOf w r j := by
  unfold alphaOf
  split
  · cases w.policyOf r j <;> rfl
  · rfl

/-- **C35.** Compressing a quantized scalar track list whose animated data fits in 32 bits of offset succeeds, and in
the clip produced, after seeking to any two key frames, decompressing output track `j` hands to the writer exactly
one value: the constant sample of the input track, or its two samples at those key frames with its own bit width and
range, interpolated as the writer asks. All reads are within the buffer when at least 15 bytes follow the animated
data. -/
theorem C35_round_trip (t : TrackList) (header tail : List (BitVec 8)) (hq : Quantized t)
    (hbits : t.numSamples * frameBits t < 2 ^ 32) (htail : 15 ≤ tail.length) :
    ∃ clip, compress t header tail = some clip ∧ clip.numTracks = t.outputIndices.length ∧
      ∀ (frame0 frame1 : Nat), frame0 < t.numSamples → frame1 < t.numSamples →
      ∀ (w : Writer) (rounding : Policy), w.supported t.trackType = true →
      ∀ (j : Nat) (hj : j < t.outputIndices.length), (w.perTrackRounding = true → w.policyOf rounding j ≠ .perTrack) →
        decompressTrack (seekTo clip rounding frame0 frame1) w j =
          some [⟨t.trackType, j, valueOf t t.outputIndices[j] frame0 frame1 (alphaOf w rounding j)⟩] := by
  rw [frameBits_eq] at hbits
  have ok := hq.ok
  obtain ⟨clip, animated, e, L⟩ := compress_layout t header tail ok hbits
  refine ⟨clip, e, L.tracks, ?_⟩
  intro f0 f1 h0 h1 w rounding hsup j hj hpol
  have hsplit : t.outputIndices = t.outputIndices.take j ++ t.outputIndices[j] :: t.outputIndices.drop (j + 1) := by
    rw [← List.drop_eq_getElem_cons hj, List.take_append_drop]
  have hjl : (t.outputIndices.take j).length = j := by rw [List.length_take]; omega
  generalize hi : t.outputIndices[j] = i at hsplit ⊢
  generalize hp : t.outputIndices.take j = pre at hsplit hjl
  generalize hpost : t.outputIndices.drop (j + 1) = post at hsplit
  subst hjl
  have hns : t.numSamples ≠ 0 := by omega
  have htot : bitsOf t t.outputIndices = bitsOf t pre + bitsOf t (i :: post) := by
    conv_lhs => rw [hsplit, bitsOf_append]
  have bound : ∀ f, f < t.numSamples → f * bitsOf t t.outputIndices + bitsOf t t.outputIndices < 4294967296 := by
    intro f hf
    have : (f + 1) * bitsOf t t.outputIndices ≤ t.numSamples * bitsOf t t.outputIndices := Nat.mul_le_mul_right _ hf
    rw [Nat.add_mul, Nat.one_mul] at this
    exact Nat.lt_of_le_of_lt this L.total
  have hscan := scan_layout L ok pre [] (i :: post) ⟨clip.constantOffset, clip.rangeOffset, 0⟩ hsplit
    (by have := bound f0 h0; dsimp only; omega)
  rw [List.length_nil] at hscan
  rw [C34.decompressTrack_eq _ _ _ rfl (by show _ < clip.numTracks; rw [L.tracks]; exact hj)]
  show (scanLoop clip pre.length 0 ⟨clip.constantOffset, clip.rangeOffset, 0⟩).bind _ = _
  rw [hscan, Option.bind_some]
  unfold C34.single
  dsimp only
  have hneg : (w.perTrackRounding && w.policyOf (seekTo clip rounding f0 f1).rounding pre.length == Policy.perTrack) = false := by
    cases hpt : w.perTrackRounding with
    | false => rfl
    | true =>
      show (w.policyOf rounding pre.length == Policy.perTrack) = false
      have := hpol hpt
      cases hx : w.policyOf rounding pre.length <;> first | rfl | exact absurd hx this
  rw [hneg, if_neg (by decide)]
  show (numBitsOf clip pre.length).bind _ = _
  rw [numBitsOf_layout L ok pre post i hsplit, Option.bind_some]
  show (if w.supported clip.trackType = true then _ else _) = _
  rw [L.type, if_pos hsup]
  unfold valueOf
  cases hc : t.isConstant i with
  | true =>
    rw [if_pos rfl, if_pos rfl, if_pos rfl]
    show (loadFloats (numSampleElements clip.trackType) clip.bytes _).bind (fun v => some [Event.mk clip.trackType _ _]) = _
    rw [L.type, constant_layout L ok htail pre post i hsplit hc]
    rfl
  | false =>
    have ⟨b1, b2⟩ := (ok i (by rw [hsplit]; simp)).bitRate hc
    have hw : width (t.bitRate i) ≠ 0 := by unfold width; split <;> omega
    simp only [Bool.false_eq_true, if_false, if_neg hw]
    have off : ∀ f, f < t.numSamples → u32 (u32 (f * clip.numBitsPerFrame) + (0 + bitsOf t pre)) =
        f * bitsOf t t.outputIndices + bitsOf t pre := by
      intro f hf
      have := bound f hf
      rw [L.frame hns]
      unfold u32
      generalize f * bitsOf t t.outputIndices = base at *
      omega
    show ((readSample (numSampleElements clip.trackType) clip _ _ (u32 (u32 (f0 * clip.numBitsPerFrame) + (0 + bitsOf t pre)))).bind fun a =>
      (readSample (numSampleElements clip.trackType) clip _ _ (u32 (u32 (f1 * clip.numBitsPerFrame) + (0 + bitsOf t pre)))).bind fun b =>
      some [Event.mk clip.trackType pre.length <| .lerp a b (if w.perTrackRounding then applyRounding (w.policyOf rounding pre.length) else .seek)]) = _
    rw [L.type, off f0 h0, off f1 h1, readSample_layout L ok htail pre post i hsplit hc f0 h0, Option.bind_some,
      readSample_layout L ok htail pre post i hsplit hc f1 h1, Option.bind_some, alpha_eq]

/-- **C35.** The same for the whole list: every output track that is not skipped gets its value, in order. -/
theorem C35_round_trip_pose (t : TrackList) (header tail : List (BitVec 8)) (hq : Quantized t)
    (hbits : t.numSamples * frameBits t < 2 ^ 32) (htail : 15 ≤ tail.length) :
    ∃ clip, compress t header tail = some clip ∧
      ∀ (frame0 frame1 : Nat), frame0 < t.numSamples → frame1 < t.numSamples →
      ∀ (w : Writer) (rounding : Policy), w.supported t.trackType = true →
      (∀ j, w.perTrackRounding = true → w.policyOf rounding j ≠ .perTrack) →
        decompressTracks (seekTo clip rounding frame0 frame1) w =
          some ((List.range t.outputIndices.length).flatMap fun j => if w.skip j then [] else
            [⟨t.trackType, j, valueOf t (t.outputIndices.getD j 0) frame0 frame1 (alphaOf w rounding j)⟩]) := by
  obtain ⟨clip, e, hn, H⟩ := C35_round_trip t header tail hq hbits htail
  refine ⟨clip, e, ?_⟩
  intro f0 f1 h0 h1 w rounding hsup hpol
  refine (C34.C34_pose_is_tracks _ w _ rfl (Nat.mod_lt _ (by decide)) (Nat.mod_lt _ (by decide))).2
    ⟨fun j => [⟨t.trackType, j, valueOf t (t.outputIndices.getD j 0) f0 f1 (alphaOf w rounding j)⟩], ?_, ?_⟩
  · intro j hj
    have hj' : j < t.outputIndices.length := by rw [← hn]; exact hj
    dsimp only
    rw [H f0 f1 h0 h1 w rounding hsup j hj' (hpol j), List.getD_eq_getElem?_getD, List.getElem?_eq_getElem hj']
    rfl
  · show _ = (List.range clip.numTracks).flatMap _
    rw [hn]

/-- A list of float3 tracks: stripped track 1, constant track 0, quantized tracks 2 (7 bits) and 4 (19 bits), raw
track 3. -/
def example_list : TrackList where
  trackType := .float3f
  numSamples := 5
  outputIndices := [3, 0, 4, 2]
  isConstant := fun i => i == 0
  bitRate := fun i => if i = 2 then 7 else if i = 3 then 24 else 19
  reference := fun i s => [BitVec.ofNat 32 (0x3f800000 + i), BitVec.ofNat 32 s, BitVec.ofNat 32 (i * s)]
  quantized := fun _ s => [BitVec.ofNat 32 (s % 128), 100#32, 127#32]
  rangeMin := fun i => [BitVec.ofNat 32 i, 1#32, 2#32]
  rangeExtent := fun i => [BitVec.ofNat 32 i, 3#32, 4#32]

/-- The hypotheses of the theorems hold of it. -/
theorem example_ok : Quantized example_list ∧ example_list.numSamples * frameBits example_list < 2 ^ 32 := by
  refine ⟨⟨fun _ _ _ => rfl, fun _ _ _ => rfl, fun _ _ => rfl, fun _ _ => rfl, ?_, ?_⟩, by decide⟩
  · intro i hi _
    show 1 ≤ (if i = 2 then 7 else if i = 3 then 24 else 19) ∧ (if i = 2 then 7 else if i = 3 then 24 else 19) ≤ 24
    split
    · omega
    · split <;> omega
  · intro i hi _ h24 s v hv
    have h7 : v.toNat < 2 ^ 7 := by
      have hv' : v ∈ [BitVec.ofNat 32 (s % 128), 100#32, 127#32] := hv
      simp only [List.mem_cons, List.not_mem_nil, or_false] at hv'
      rcases hv' with rfl | rfl | rfl
      · rw [BitVec.toNat_ofNat]
        have : s % 128 < 128 := Nat.mod_lt _ (by decide)
        exact Nat.lt_of_le_of_lt (Nat.mod_le _ _) this
      · decide
      · decide
    refine Nat.lt_of_lt_of_le h7 (Nat.pow_le_pow_right (by decide) ?_)
    show 7 ≤ (if i = 2 then 7 else if i = 3 then 24 else 19)
    split
    · omega
    · split <;> omega

/-- The example list compresses, and both paths decompress it (this also meets the hypotheses of C34). -/
example : ∃ clip es, compress example_list (List.replicate 20 0#8) (List.replicate 15 0#8) = some clip ∧
    decompressTracks (seekTo clip .none 2 3) ⟨fun _ => true, false, fun p _ => p, fun j => j == 2⟩ = some es := by
  obtain ⟨clip, e, h⟩ := C35_round_trip_pose example_list (List.replicate 20 0#8) (List.replicate 15 0#8) example_ok.1
    example_ok.2 (by decide)
  exact ⟨clip, _, e, h 2 3 (by decide) (by decide) _ .none rfl (fun _ => nofun)⟩

end Acl.C35
