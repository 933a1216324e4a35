import Verif.Transform.AnimatedFrames
import Verif.Transform.AnimatedSpec
/-
The readers of the animated sub-tracks find what the writers have written.
-/
namespace Acl.Transform

/-- The bytes `B` are in `m` at `p`. -/
def At (m : List (BitVec 8)) (p : Nat) (B : List (BitVec 8)) : Prop := ∀ (j : Nat) (b : BitVec 8), B[j]? = some b → m[p + j]? = some b

theorem at_of_load {m : List (BitVec 8)} {p : Nat} {B : List (BitVec 8)} (h : loadBytes m p B.length = some B) : At m p B := by
  unfold loadBytes at h
  split at h
  · injection h with h
    intro j b hj
    have hlt := (List.getElem?_eq_some_iff.mp hj).1
    rw [← h, List.getElem?_take_of_lt hlt, List.getElem?_drop] at hj
    exact hj
  · cases h

theorem at_append {m : List (BitVec 8)} {p : Nat} {A B : List (BitVec 8)} : At m p (A ++ B) ↔ At m p A ∧ At m (p + A.length) B := by
  constructor
  · intro h
    refine ⟨fun j b hj => h j b ?_, fun j b hj => ?_⟩
    · rw [List.getElem?_append_left (List.getElem?_eq_some_iff.mp hj).1]; exact hj
    · rw [Nat.add_assoc]
      exact h (A.length + j) b (by rw [List.getElem?_append_right (by omega), Nat.add_sub_cancel_left]; exact hj)
  · rintro ⟨h1, h2⟩ j b hj
    by_cases hlt : j < A.length
    · rw [List.getElem?_append_left hlt] at hj; exact h1 j b hj
    · rw [List.getElem?_append_right (by omega)] at hj
      have := h2 _ b hj
      rwa [show p + A.length + (j - A.length) = p + j by omega] at this

theorem at_load {m : List (BitVec 8)} {p : Nat} {B : List (BitVec 8)} (h : At m p B) {i : Nat} {v : BitVec 32} (hv : loadLE32 B i = some v) :
    loadLE32 m (p + i) = some v := by
  unfold loadLE32 at hv ⊢
  cases h0 : B[i]? with
  | none => rw [h0] at hv; cases hv
  | some b0 =>
    cases h1 : B[i + 1]? with
    | none => rw [h0, h1] at hv; cases hv
    | some b1 =>
      cases h2 : B[i + 2]? with
      | none => rw [h0, h1, h2] at hv; cases hv
      | some b2 =>
        cases h3 : B[i + 3]? with
        | none => rw [h0, h1, h2, h3] at hv; cases hv
        | some b3 =>
          rw [h0, h1, h2, h3] at hv
          rw [h i b0 h0, Nat.add_assoc, h _ b1 h1, Nat.add_assoc, h _ b2 h2, Nat.add_assoc, h _ b3 h3]
          exact hv

theorem at_length {m : List (BitVec 8)} {p : Nat} {B : List (BitVec 8)} (h : At m p B) (h0 : B ≠ []) : p + B.length ≤ m.length := by
  have hl : 0 < B.length := List.length_pos_iff.mpr h0
  have := h (B.length - 1) _ (List.getElem?_eq_getElem (by omega))
  have := (List.getElem?_eq_some_iff.mp this).1
  omega

theorem at_byte {m : List (BitVec 8)} {p : Nat} {B : List (BitVec 8)} (h : At m p B) {j : Nat} {b : BitVec 8} (hj : B[j]? = some b) :
    byteAt m (p + j) = some b := h j b hj

/-! ### Samples -/

theorem readQuantized_found {data : List (BitVec 8)} {off r : Nat} {x y z : BitVec 32} (h1 : 1 ≤ r) (h2 : r ≤ 23)
    (hx : x.toNat < 2 ^ r) (hy : y.toNat < 2 ^ r) (hz : z.toNat < 2 ^ r)
    (h : HasBits data off (RawSample.quantized r x y z).bits) (hl : (off + 3 * r - 1) / 8 + 1 + 3 ≤ data.length) :
    readQuantized r data off = some (.quantized r x y z) := by
  simp only [RawSample.bits] at h
  rw [hasBits_append, hasBits_append] at h
  simp only [List.length_append, beBits_length, hasBits_beBits] at h
  obtain ⟨⟨cx, cy⟩, cz⟩ := h
  unfold readQuantized unpackVector3
  rw [readComponent_holds h1 h2 (by omega) hx cx]
  dsimp only [Option.bind_some]
  rw [readComponent_holds h1 h2 (by omega) hy cy]
  dsimp only [Option.bind_some]
  rw [Nat.add_assoc, readComponent_holds h1 h2 (by omega) hz cz]
  rfl

theorem readFloat3_found {data : List (BitVec 8)} {off : Nat} {v : Vec3} (h : HasBits data off (RawSample.float3 v).bits)
    (hl : (off + 96 - 1) / 8 + 1 + 4 ≤ data.length) : readFloat3 data off = some (.float3 v) := by
  simp only [RawSample.bits] at h
  rw [hasBits_append, hasBits_append] at h
  simp only [List.length_append, beBits_length, hasBits_beBits] at h
  obtain ⟨⟨cx, cy⟩, cz⟩ := h
  unfold readFloat3
  rw [readRaw_holds (i := 0) (by omega) cx, readRaw_holds (i := 1) (by omega) cy, readRaw_holds (i := 2) (by omega) cz]
  rfl

theorem readFloat4_found {data : List (BitVec 8)} {off : Nat} {v : Vec4} (h : HasBits data off (RawSample.float4 v).bits)
    (hl : (off + 128 - 1) / 8 + 1 + 4 ≤ data.length) : readFloat4 data off = some (.float4 v) := by
  simp only [RawSample.bits] at h
  rw [hasBits_append, hasBits_append, hasBits_append] at h
  simp only [List.length_append, beBits_length, hasBits_beBits] at h
  obtain ⟨⟨⟨cx, cy⟩, cz⟩, cw⟩ := h
  unfold readFloat4
  rw [readRaw_holds (i := 0) (by omega) cx, readRaw_holds (i := 1) (by omega) cy, readRaw_holds (i := 2) (by omega) cz,
    readRaw_holds (i := 3) (by omega) cw]
  rfl

/-! ### Ranges -/

/-- Component `c` of a range. -/
theorem clipGroup_load (g : List RangeF) (c i : Nat) (r : RangeF) (w : BitVec 32) (hg : g[i]? = some r) (hw : r.words[c]? = some w) :
    loadLE32 (clipGroup g) (4 * (g.length * c + i)) = some w := by
  have hfl : clipGroup g = floatBytes ((List.range 6).flatMap fun c => g.map fun r => r.words.getD c 0) := by
    unfold clipGroup
    simp only [← floatBytes_append]
    congr 1
    simp [List.range_succ, RangeF.words]
  have hi : i < g.length := (List.getElem?_eq_some_iff.mp hg).1
  have hc : c < 6 := (List.getElem?_eq_some_iff.mp hw).1
  have hget := getElem?_flatMap_const (fun c => g.map fun r => r.words.getD c 0) g.length (List.range 6) (by simp) c i hi
  rw [List.getElem?_range hc, Option.bind_some, List.getElem?_map, hg, Option.map_some, List.getD_eq_getElem?_getD, hw, Option.getD_some] at hget
  obtain ⟨hlt, he⟩ := List.getElem?_eq_some_iff.mp hget
  rw [hfl]
  have := loadLE32_floatBytes _ [] [] _ hlt
  rw [he] at this
  simpa using this

theorem readClipRangeAt_found {m : List (BitVec 8)} {p : Nat} {l : List RangeF} {k : Nat} {r : RangeF}
    (h : At m p (soa clipGroup l)) (hk : l[k]? = some r) :
    readClipRangeAt m (p + 96 * (k / 4) + 4 * (k % 4)) (min (l.length - 4 * (k / 4)) 4) = some r := by
  obtain ⟨hlt, -⟩ := List.getElem?_eq_some_iff.mp hk
  obtain ⟨A, C, g, e, hA, hg, hgk⟩ := soa_split clipGroup 96 (fun g hg => by rw [clipGroup_length, hg]) l k hlt
  rw [e, at_append, at_append] at h
  rw [hk] at hgk
  have hat := h.2.1
  rw [hA] at hat
  have hl : ∀ c w, r.words[c]? = some w → loadLE32 m (p + 96 * (k / 4) + 4 * (k % 4) + g.length * c * 4) = some w := by
    intro c w hw
    have := at_load hat (clipGroup_load g c (k % 4) r w hgk hw)
    rw [← this]; congr 1; rw [Nat.mul_add]; omega
  rw [← hg]
  unfold readClipRangeAt
  rw [hl 0 _ rfl, hl 1 _ rfl, hl 2 _ rfl, hl 3 _ rfl, hl 4 _ rfl, hl 5 _ rfl]
  rfl

theorem readClipRange_found {m : List (BitVec 8)} {p : Nat} {l : List RangeF} {k : Nat} {r : RangeF}
    (h : At m p (l.flatMap fun r => floatBytes r.words)) (hk : l[k]? = some r) (hpad : p + 24 * l.length + 4 ≤ m.length) :
    readClipRange m (p + 24 * k) (p + 24 * k + 12) = some r := by
  obtain ⟨hlt, hr⟩ := List.getElem?_eq_some_iff.mp hk
  have hl : ∀ c (hc : c < 6), loadLE32 m (p + (24 * k + 4 * c)) = some ((r.words)[c]'(by exact hc)) := by
    intro c hc
    have := records_load 6 RangeF.words (fun _ => rfl) l [] [] k c hlt hc
    simp only [List.nil_append, List.append_nil, List.length_nil, Nat.zero_add, Nat.reduceMul, hr] at this
    exact at_load h this
  unfold readClipRange
  obtain ⟨w, hw⟩ := loadLE32_isSome (m := m) (k := p + 24 * k + 12 + 12) (by omega)
  rw [loadVec4_eq (k := p + 24 * k) (hl 0 (by decide)) (hl 1 (by decide)) (hl 2 (by decide)) (hl 3 (by decide)),
    loadVec4_eq (k := p + 24 * k + 12) (hl 3 (by decide)) (hl 4 (by decide)) (hl 5 (by decide)) hw]
  rfl

theorem segment_bytes {m : List (BitVec 8)} {p : Nat} {l : List (List (BitVec 8))} {k : Nat} {bytes : List (BitVec 8)}
    (h : At m p (soa segmentGroup l)) (hk : l[k]? = some bytes) (hb : bytes.length = 6) :
    ∀ c b, bytes[c]? = some b → byteAt m (p + 24 * (k / 4) + k % 4 + 4 * c) = some b := by
  intro c b hc
  obtain ⟨hlt, -⟩ := List.getElem?_eq_some_iff.mp hk
  have hc6 : c < 6 := by have := (List.getElem?_eq_some_iff.mp hc).1; omega
  obtain ⟨A, C, g, e, hA, hg, hgk⟩ := soa_split segmentGroup 24 (fun g hg => segmentGroup_length g) l k hlt
  rw [e, at_append, at_append] at h
  rw [hk] at hgk
  have hat := h.2.1
  rw [hA] at hat
  have := segmentGroup_get g c (k % 4) bytes hc6 (by omega) hgk
  rw [List.getD_eq_getElem?_getD, hc, Option.getD_some] at this
  have := at_byte hat this
  rw [← this]; congr 1; omega

/-- The six bytes of a sub-track in the segment ranges. -/
def Stream.rangeBytes (kind : Kind) (t : Stream) (r : Range8) : List (BitVec 8) :=
  if t.bitRate = some 0 then
    match t.value 0 with
    | .const16 x y z =>
      if kind = .rotation then
        [x.extractLsb' 8 8, x.extractLsb' 0 8, y.extractLsb' 8 8, y.extractLsb' 0 8, z.extractLsb' 8 8, z.extractLsb' 0 8]
      else [x.extractLsb' 0 8, x.extractLsb' 8 8, y.extractLsb' 0 8, y.extractLsb' 8 8, z.extractLsb' 0 8, z.extractLsb' 8 8]
    | _ => []
  else [r.minX, r.minY, r.minZ, r.extentX, r.extentY, r.extentZ]

/-- A sub-track that is constant in its segment has a 16 bit value. -/
def Stream.ConstOk (t : Stream) : Prop := t.bitRate = some 0 → (t.memory 0).length = 16 ∧ ∃ x y z, t.value 0 = .const16 x y z

theorem rangeBytes_length {kind : Kind} {t : Stream} {r : Range8} (h : t.ConstOk) : (t.rangeBytes kind r).length = 6 := by
  unfold Stream.rangeBytes
  split
  · next h0 =>
    obtain ⟨-, x, y, z, hv⟩ := h h0
    rw [hv]; dsimp only; split <;> rfl
  · rfl

theorem segmentRangeBytes_eq {kind : Kind} {t : Stream} {r : Range8} (h : t.ConstOk) :
    segmentRangeBytes kind t r = some (t.rangeBytes kind r) := by
  unfold segmentRangeBytes Stream.rangeBytes
  by_cases h0 : t.bitRate = some 0
  · rw [if_pos h0, if_pos h0]
    obtain ⟨hm, x, y, z, hv⟩ := h h0
    have hlen : (bytesLE x ++ bytesLE y ++ bytesLE z).length = 6 := by simp [bytesLE_length]
    have e : t.rawSample 0 = some ((bytesLE x ++ bytesLE y ++ bytesLE z) ++ (t.memory 0).drop 6) := by
      unfold Stream.rawSample; rw [hv]; dsimp only
      rw [writeFront_some _ _ (by rw [hlen, hm]; decide), hlen]
    have hb : ∀ v : BitVec 16, bytesLE v = [v.extractLsb' 0 8, v.extractLsb' 8 8] := fun v => rfl
    rw [e, Option.bind_some, hb, hb, hb, hv]
    simp only [byteAt, List.cons_append, List.nil_append, List.getElem?_cons_zero, List.getElem?_cons_succ, Option.bind_some]
  · rw [if_neg h0, if_neg h0]

theorem join_bytes16 (v : BitVec 16) : (v.extractLsb' 8 8 ++ v.extractLsb' 0 8 : BitVec 16) = v := by
  apply BitVec.eq_of_getLsbD_eq
  intro i hi
  simp only [BitVec.getLsbD_append, BitVec.getLsbD_extractLsb']
  by_cases h0 : i < 8
  · simp [h0]
  · simp [h0, show i - 8 < 8 by omega, show 8 + (i - 8) = i by omega]

/-! ### The sample of a sub-track -/

/-- Specification: the sample the decoder must see for sub-track `t` at key frame `i`: the value, with the segment range when
the clip has several segments, and the clip range; a value at full precision has no range. -/
def Stream.sample (t : Stream) (multi : Bool) (i : Nat) (segment : Range8) (clip : RangeF) : Sample :=
  match t.bitRate with
  | none => ⟨t.value i, none, none⟩
  | some r =>
    if r = 0 then ⟨t.value 0, none, some clip⟩
    else if r = 24 then ⟨t.value i, none, none⟩
    else ⟨t.value i, if multi then some segment else none, some clip⟩

theorem rateByte_toNat {r : Nat} (h : r ≤ 24) : (rateByte r).toNat = if r = 24 then 31 else r := by
  unfold rateByte
  rw [BitVec.toNat_ofNat, Nat.mod_eq_of_lt]
  split <;> omega

theorem rateByte_bits {r : Nat} (h : r ≤ 24) : componentBits 31 (rateByte r) = if r = 24 then 32 else r := by
  unfold componentBits
  rw [rateByte_toNat h]
  split <;> split <;> omega

theorem Stream.Ok.rate {t : Stream} {i r : Nat} (h : t.Ok i) (hr : t.bitRate = some r) : r ≤ 24 := by
  obtain ⟨-, h⟩ := h
  rw [hr] at h
  dsimp only at h
  split at h <;> omega

/-- The bits of the sub-tracks before sub-track `k`, from their format bytes. -/
theorem bitsBefore_eq {m : List (BitVec 8)} {fmt : Nat} (ts : List Stream) (i : Nat) (hok : ∀ t ∈ ts, t.Ok i)
    (hvar : ∀ t ∈ ts, t.bitRate.isSome = true) (hf : At m fmt (ts.map Stream.byte)) :
    ∀ k, k ≤ ts.length → bitsBefore 31 m fmt k = ((ts.take k).flatMap fun t => t.bits i).length := by
  intro k
  induction k with
  | zero => intro _; simp [bitsBefore]
  | succ k ih =>
    intro hk
    have hlt : k < ts.length := hk
    have hmem := List.getElem_mem hlt
    obtain ⟨r, hr⟩ := Option.isSome_iff_exists.mp (hvar _ hmem)
    have hb : (ts.map Stream.byte)[k]? = some (rateByte r) := by
      rw [List.getElem?_map, List.getElem?_eq_getElem hlt, Option.map_some]
      unfold Stream.byte; rw [hr]
    have := hf k _ hb
    rw [bitsBefore, ih (by omega), List.getD_eq_getElem?_getD, this, Option.getD_some, rateByte_bits ((hok _ hmem).rate hr),
      List.take_succ_eq_append_getElem hlt, List.flatMap_append, List.length_append]
    simp only [List.flatMap_cons, List.flatMap_nil, List.append_nil]
    rw [Stream.bits_length (hok _ hmem)]
    unfold Stream.width
    rw [hr]

/-- What the streams of a kind look like in a format: with a bit rate, or `packed` bytes. -/
def FormatOk (isVariable : Bool) (packed : Nat) (t : Stream) : Prop :=
  if isVariable then t.bitRate.isSome = true else t.bitRate = none ∧ t.packedSize = packed

theorem full_bits {ts : List Stream} {i w : Nat} (hok : ∀ t ∈ ts, t.Ok i) (hw : ∀ t ∈ ts, t.width = w) (k : Nat) (hk : k ≤ ts.length) :
    ((ts.take k).flatMap fun t => t.bits i).length = w * k := by
  induction k with
  | zero => simp
  | succ k ih =>
    have hlt : k < ts.length := hk
    rw [List.take_succ_eq_append_getElem hlt, List.flatMap_append, List.length_append, ih (by omega)]
    simp only [List.flatMap_cons, List.flatMap_nil, List.append_nil]
    rw [Stream.bits_length (hok _ (List.getElem_mem hlt)), hw _ (List.getElem_mem hlt), Nat.mul_succ]

theorem take_flatMap_room {α : Type} (f : α → List Bool) {l : List α} {k : Nat} {a : α} (hk : l[k]? = some a) :
    ((l.take k).flatMap f).length + (f a).length ≤ (l.flatMap f).length := by
  obtain ⟨hlt, rfl⟩ := List.getElem?_eq_some_iff.mp hk
  have := prefix_flatMap_length f (List.take_prefix (k + 1) l)
  rw [List.take_succ_eq_append_getElem hlt, List.flatMap_append, List.length_append] at this
  simpa using this

/-- **Rotations.** What the reader finds for rotation `k` is the sample of its stream. -/
theorem rotation_found {m data : List (BitVec 8)} {fmtAt segAt bit clipAt i L0 : Nat} {multi single : Bool} {fmt : RotationFormat}
    {ts : List Stream} {segs : List Range8} {clips : List RangeF} {k : Nat} {t : Stream} {sr : Range8} {cr : RangeF}
    (hok : ∀ t ∈ ts, t.Ok i) (hconst : ∀ t ∈ ts, t.ConstOk)
    (hform : ∀ t ∈ ts, FormatOk (fmt = .dropWVariable) (packedRotationSize fmt) t)
    (hone : multi = false → ∀ t ∈ ts, t.bitRate ≠ some 0)
    (hls : segs.length = ts.length) (hlc : clips.length = ts.length)
    (hF : fmt = .dropWVariable → At m fmtAt (ts.map Stream.byte))
    (hS : fmt = .dropWVariable → multi = true → At m segAt (soa segmentGroup (List.zipWith (Stream.rangeBytes .rotation) ts segs)))
    (hC : fmt = .dropWVariable → At m clipAt (soa clipGroup clips))
    (hD : HasBits data bit (ts.flatMap fun t => t.bits i)) (hroom : bit + (ts.flatMap fun t => t.bits i).length ≤ 8 * L0)
    (hlen : L0 + 4 ≤ data.length)
    (ht : ts[k]? = some t) (hsr : segs[k]? = some sr) (hcr : clips[k]? = some cr) :
    rotationSampleAt ⟨31, multi, single⟩ fmt m clipAt ts.length ⟨fmtAt, segAt, data, bit⟩ k = some (t.sample multi i sr cr) := by
  obtain ⟨hlt, htk⟩ := List.getElem?_eq_some_iff.mp ht
  have hmem : t ∈ ts := htk ▸ List.getElem_mem hlt
  have hbits := hasBits_flatMap (fun t => t.bits i) hD ht
  have hrm := take_flatMap_room (fun t => t.bits i) ht
  have hto := hok t hmem
  have htl := Stream.bits_length hto
  have hform_t := hform t hmem
  unfold FormatOk at hform_t
  cases hfmt : fmt with
  | quatfFull =>
    subst hfmt
    rw [if_neg (by decide)] at hform_t
    have hw : ∀ t ∈ ts, t.width = 128 := by
      intro t ht
      have := hform t ht
      unfold FormatOk at this
      rw [if_neg (by decide)] at this
      unfold Stream.width; rw [this.1]; dsimp only; rw [this.2]; rfl
    rw [full_bits hok hw k (by omega)] at hbits hrm
    have hwt := hw t hmem
    obtain ⟨-, hto⟩ := hto
    rw [hform_t.1] at hto
    dsimp only at hto
    rw [if_pos (show t.packedSize = 16 from hform_t.2)] at hto
    obtain ⟨v, hv⟩ := hto
    have hb : t.bits i = (RawSample.float4 v).bits := by unfold Stream.bits; rw [if_neg (by rw [hform_t.1]; simp), hv]
    rw [hb] at hbits
    rw [htl, hwt] at hrm
    unfold rotationSampleAt Stream.sample
    dsimp only
    rw [readFloat4_found hbits (by omega), hform_t.1, hv]
    rfl
  | dropWFull =>
    subst hfmt
    rw [if_neg (by decide)] at hform_t
    have hw : ∀ t ∈ ts, t.width = 96 := by
      intro t ht
      have := hform t ht
      unfold FormatOk at this
      rw [if_neg (by decide)] at this
      unfold Stream.width; rw [this.1]; dsimp only; rw [this.2]; rfl
    rw [full_bits hok hw k (by omega)] at hbits hrm
    have hwt := hw t hmem
    obtain ⟨-, hto⟩ := hto
    rw [hform_t.1] at hto
    dsimp only at hto
    rw [if_neg (by rw [hform_t.2]; decide)] at hto
    obtain ⟨-, v, hv⟩ := hto
    have hb : t.bits i = (RawSample.float3 v).bits := by unfold Stream.bits; rw [if_neg (by rw [hform_t.1]; simp), hv]
    rw [hb] at hbits
    rw [htl, hwt] at hrm
    unfold rotationSampleAt Stream.sample
    dsimp only
    rw [readFloat3_found hbits (by omega), hform_t.1, hv]
    rfl
  | dropWVariable =>
    subst hfmt
    rw [if_pos (by decide)] at hform_t
    have hvar : ∀ t ∈ ts, t.bitRate.isSome = true := by
      intro t ht
      have := hform t ht
      unfold FormatOk at this
      rwa [if_pos (by decide)] at this
    obtain ⟨r, hr⟩ := Option.isSome_iff_exists.mp hform_t
    have hr24 := hto.rate hr
    have hbb := bitsBefore_eq ts i hok hvar (hF rfl) k (by omega)
    have hbyte : byteAt m (fmtAt + k) = some (rateByte r) := by
      refine at_byte (hF rfl) ?_
      rw [List.getElem?_map, ht, Option.map_some]
      unfold Stream.byte; rw [hr]
    have hclip : readClipRangeAt m (clipAt + 96 * (k / 4) + 4 * (k % 4)) (min (ts.length - 4 * (k / 4)) 4) = some cr := by
      have := readClipRangeAt_found (hC rfl) hcr
      rwa [hlc] at this
    have hsegb : multi = true → ∀ c b, (t.rangeBytes .rotation sr)[c]? = some b → byteAt m (segAt + 24 * (k / 4) + k % 4 + 4 * c) = some b := by
      intro hmu
      refine segment_bytes (hS rfl hmu) ?_ (rangeBytes_length (hconst t hmem))
      rw [List.getElem?_zipWith, ht, hsr]
    have hw : t.width = 3 * (if r = 24 then 32 else r) := by unfold Stream.width; rw [hr]
    rw [← hbb] at hbits hrm
    rw [htl, hw] at hrm
    unfold rotationSampleAt Stream.sample
    simp only []
    rw [hbyte, Option.bind_some, rateByte_toNat hr24, hr]
    dsimp only
    by_cases h0 : r = 0
    · subst h0
      have hmu : multi = true := by
        cases hm : multi with
        | true => rfl
        | false => exact absurd hr (hone hm t hmem)
      obtain ⟨-, x, y, z, hv⟩ := hconst t hmem hr
      have hrb : t.rangeBytes .rotation sr = [x.extractLsb' 8 8, x.extractLsb' 0 8, y.extractLsb' 8 8, y.extractLsb' 0 8,
          z.extractLsb' 8 8, z.extractLsb' 0 8] := by
        unfold Stream.rangeBytes; rw [if_pos hr, hv]; rfl
      have hs := hsegb hmu
      rw [hrb] at hs
      have hread : readConstantRotation m (segAt + 24 * (k / 4) + k % 4) = some (.const16 x y z) := by
        unfold readConstantRotation
        rw [hs 0 _ rfl, hs 1 _ rfl, hs 2 _ rfl, hs 3 _ rfl, hs 4 _ rfl, hs 5 _ rfl]
        simp only [Option.bind_some, join_bytes16]
      rw [show (if (0 : Nat) = 24 then 31 else 0) = 0 from rfl, if_pos rfl, if_pos rfl, hread, Option.bind_some, hclip, Option.bind_some, hv]
    · rw [if_neg h0]
      by_cases h24 : r = 24
      · subst h24
        rw [if_pos rfl, if_neg (by decide), if_pos rfl, if_pos rfl]
        obtain ⟨-, hto⟩ := hto
        rw [hr] at hto
        dsimp only at hto
        rw [if_pos rfl] at hto
        obtain ⟨v, hv⟩ := hto
        have hb : t.bits i = (RawSample.float3 v).bits := by unfold Stream.bits; rw [if_neg (by rw [hr]; simp), hv]
        rw [hb] at hbits
        rw [if_pos rfl] at hrm
        rw [readFloat3_found hbits (by omega), Option.bind_some, hv]
      · rw [if_neg h24, if_neg h0, if_neg (by omega), if_neg h24]
        obtain ⟨-, hto⟩ := hto
        rw [hr] at hto
        dsimp only at hto
        rw [if_neg h24, if_neg h0] at hto
        obtain ⟨h23, x, y, z, hv, hx, hy, hz⟩ := hto
        have hb : t.bits i = (RawSample.quantized r x y z).bits := by
          unfold Stream.bits; rw [if_neg (by rw [hr]; simpa using h0), hv]
        rw [hb] at hbits
        rw [if_neg h24] at hrm
        rw [readQuantized_found (by omega) h23 hx hy hz hbits (by omega), Option.bind_some]
        cases hm : multi with
        | false => rw [if_neg (by decide), if_neg (by decide), Option.bind_some, hclip, Option.bind_some, hv]
        | true =>
          have hrb : t.rangeBytes .rotation sr = [sr.minX, sr.minY, sr.minZ, sr.extentX, sr.extentY, sr.extentZ] := by
            unfold Stream.rangeBytes; rw [if_neg (by rw [hr]; simpa using h0)]
          have hs := hsegb hm
          rw [hrb] at hs
          have hread : readSegmentRangeAt m (segAt + 24 * (k / 4) + k % 4) = some sr := by
            unfold readSegmentRangeAt
            rw [hs 0 _ rfl, hs 1 _ rfl, hs 2 _ rfl, hs 3 _ rfl, hs 4 _ rfl, hs 5 _ rfl]
            rfl
          rw [if_pos rfl, if_pos rfl, hread, Option.map_some, Option.bind_some, hclip, Option.bind_some, hv]

/-- **Translations and scales.** What the reader finds for sub-track `k` is the sample of its stream. -/
theorem vector_found {m data : List (BitVec 8)} {fmtAt segAt bit clipAt i L0 : Nat} {multi single : Bool} {fmt : VectorFormat} {kind : Kind}
    {ts : List Stream} {segs : List Range8} {clips : List RangeF} {k : Nat} {t : Stream} {sr : Range8} {cr : RangeF}
    (hkind : kind ≠ .rotation)
    (hok : ∀ t ∈ ts, t.Ok i) (hconst : ∀ t ∈ ts, t.ConstOk)
    (hform : ∀ t ∈ ts, FormatOk (fmt = .varBits) 12 t)
    (hone : multi = false → ∀ t ∈ ts, t.bitRate ≠ some 0)
    (hls : segs.length = ts.length) (hlc : clips.length = ts.length)
    (hF : fmt = .varBits → At m fmtAt (ts.map Stream.byte))
    (hS : fmt = .varBits → multi = true → At m segAt ((List.zipWith (Stream.rangeBytes kind) ts segs).flatMap id))
    (hC : fmt = .varBits → At m clipAt (clips.flatMap fun r => floatBytes r.words))
    (hpS : fmt = .varBits → multi = true → segAt + 6 * ts.length + 13 ≤ m.length)
    (hpC : fmt = .varBits → clipAt + 24 * ts.length + 4 ≤ m.length)
    (hD : HasBits data bit (ts.flatMap fun t => t.bits i)) (hroom : bit + (ts.flatMap fun t => t.bits i).length ≤ 8 * L0)
    (hlen : L0 + 4 ≤ data.length)
    (ht : ts[k]? = some t) (hsr : segs[k]? = some sr) (hcr : clips[k]? = some cr) :
    vectorSampleAt ⟨31, multi, single⟩ fmt m clipAt ⟨fmtAt, segAt, data, bit⟩ k = some (t.sample multi i sr cr) := by
  obtain ⟨hlt, htk⟩ := List.getElem?_eq_some_iff.mp ht
  have hmem : t ∈ ts := htk ▸ List.getElem_mem hlt
  have hbits := hasBits_flatMap (fun t => t.bits i) hD ht
  have hrm := take_flatMap_room (fun t => t.bits i) ht
  have hto := hok t hmem
  have htl := Stream.bits_length hto
  have hform_t := hform t hmem
  unfold FormatOk at hform_t
  cases hfmt : fmt with
  | full =>
    subst hfmt
    rw [if_neg (by decide)] at hform_t
    have hw : ∀ t ∈ ts, t.width = 96 := by
      intro t ht
      have := hform t ht
      unfold FormatOk at this
      rw [if_neg (by decide)] at this
      unfold Stream.width; rw [this.1]; dsimp only; rw [this.2]
    rw [full_bits hok hw k (by omega)] at hbits hrm
    have hwt := hw t hmem
    obtain ⟨-, hto⟩ := hto
    rw [hform_t.1] at hto
    dsimp only at hto
    rw [if_neg (by rw [hform_t.2]; decide)] at hto
    obtain ⟨-, v, hv⟩ := hto
    have hb : t.bits i = (RawSample.float3 v).bits := by unfold Stream.bits; rw [if_neg (by rw [hform_t.1]; simp), hv]
    rw [hb] at hbits
    rw [htl, hwt] at hrm
    unfold vectorSampleAt Stream.sample
    dsimp only
    rw [readFloat3_found hbits (by omega), hform_t.1, hv]
    rfl
  | varBits =>
    subst hfmt
    rw [if_pos (by decide)] at hform_t
    have hvar : ∀ t ∈ ts, t.bitRate.isSome = true := by
      intro t ht
      have := hform t ht
      unfold FormatOk at this
      rwa [if_pos (by decide)] at this
    obtain ⟨r, hr⟩ := Option.isSome_iff_exists.mp hform_t
    have hr24 := hto.rate hr
    have hbb := bitsBefore_eq ts i hok hvar (hF rfl) k (by omega)
    have hbyte : byteAt m (fmtAt + k) = some (rateByte r) := by
      refine at_byte (hF rfl) ?_
      rw [List.getElem?_map, ht, Option.map_some]
      unfold Stream.byte; rw [hr]
    have hclip : readClipRange m (clipAt + 24 * k) (clipAt + 24 * k + 12) = some cr :=
      readClipRange_found (hC rfl) hcr (by rw [hlc]; exact hpC rfl)
    have hsegb : multi = true → ∀ c b, (t.rangeBytes kind sr)[c]? = some b → m[segAt + 6 * k + c]? = some b := by
      intro hmu c b hc
      have hc6 : c < 6 := by have := (List.getElem?_eq_some_iff.mp hc).1; rwa [rangeBytes_length (hconst t hmem)] at this
      have hg := getElem?_flatMap_const id 6 (List.zipWith (Stream.rangeBytes kind) ts segs) (by
        intro a ha
        rw [List.mem_iff_getElem] at ha
        obtain ⟨j, hj, rfl⟩ := ha
        rw [List.getElem_zipWith]
        exact rangeBytes_length (hconst _ (List.getElem_mem _))) k c hc6
      rw [List.getElem?_zipWith, ht, hsr] at hg
      dsimp only [Option.bind_some, id] at hg
      rw [hc] at hg
      have := hS rfl hmu _ _ hg
      rw [← this]; congr 1; omega
    have hw : t.width = 3 * (if r = 24 then 32 else r) := by unfold Stream.width; rw [hr]
    rw [← hbb] at hbits hrm
    rw [htl, hw] at hrm
    unfold vectorSampleAt Stream.sample
    simp only []
    rw [hbyte, Option.bind_some, rateByte_toNat hr24, hr]
    dsimp only
    by_cases h0 : r = 0
    · subst h0
      have hmu : multi = true := by
        cases hm : multi with
        | true => rfl
        | false => exact absurd hr (hone hm t hmem)
      obtain ⟨-, x, y, z, hv⟩ := hconst t hmem hr
      have hrb : t.rangeBytes kind sr = [x.extractLsb' 0 8, x.extractLsb' 8 8, y.extractLsb' 0 8, y.extractLsb' 8 8,
          z.extractLsb' 0 8, z.extractLsb' 8 8] := by
        unfold Stream.rangeBytes; rw [if_pos hr, hv]; dsimp only; rw [if_neg hkind]
      have hs := hsegb hmu
      rw [hrb] at hs
      have hp := hpS rfl hmu
      have hread : readConstantVector3 m (segAt + 6 * k) = some (.const16 x y z) := by
        unfold readConstantVector3 loadBlock
        rw [if_pos (by omega), Option.bind_some]
        have s0 := hs 0 _ rfl
        rw [Nat.add_zero] at s0
        simp only [List.getD_eq_getElem?_getD, Nat.add_zero, s0, hs 1 _ rfl, hs 2 _ rfl, hs 3 _ rfl, hs 4 _ rfl, hs 5 _ rfl,
          Option.getD_some, join_bytes16]
      rw [show (if (0 : Nat) = 24 then 31 else 0) = 0 from rfl, if_pos rfl, if_pos rfl, hread, Option.bind_some, hclip, Option.bind_some, hv]
    · rw [if_neg h0]
      by_cases h24 : r = 24
      · subst h24
        rw [if_pos rfl, if_neg (by decide), if_pos rfl, if_pos rfl]
        obtain ⟨-, hto⟩ := hto
        rw [hr] at hto
        dsimp only at hto
        rw [if_pos rfl] at hto
        obtain ⟨v, hv⟩ := hto
        have hb : t.bits i = (RawSample.float3 v).bits := by unfold Stream.bits; rw [if_neg (by rw [hr]; simp), hv]
        rw [hb] at hbits
        rw [if_pos rfl] at hrm
        rw [readFloat3_found hbits (by omega), Option.bind_some, hv]
      · rw [if_neg h24, if_neg h0, if_neg (by omega), if_neg h24]
        obtain ⟨-, hto⟩ := hto
        rw [hr] at hto
        dsimp only at hto
        rw [if_neg h24, if_neg h0] at hto
        obtain ⟨h23, x, y, z, hv, hx, hy, hz⟩ := hto
        have hb : t.bits i = (RawSample.quantized r x y z).bits := by
          unfold Stream.bits; rw [if_neg (by rw [hr]; simpa using h0), hv]
        rw [hb] at hbits
        rw [if_neg h24] at hrm
        rw [readQuantized_found (by omega) h23 hx hy hz hbits (by omega), Option.bind_some]
        cases hm : multi with
        | false => rw [if_neg (by decide), if_neg (by decide), Option.bind_some, hclip, Option.bind_some, hv]
        | true =>
          have hrb : t.rangeBytes kind sr = [sr.minX, sr.minY, sr.minZ, sr.extentX, sr.extentY, sr.extentZ] := by
            unfold Stream.rangeBytes; rw [if_neg (by rw [hr]; simpa using h0)]
          have hs := hsegb hm
          rw [hrb] at hs
          have hp := hpS rfl hm
          have hread : readRange24 m (segAt + 6 * k) (segAt + 6 * k + 3) = some sr := by
            unfold readRange24 loadBlock
            rw [if_pos (by omega), Option.bind_some, if_pos (by omega), Option.bind_some]
            have s0 := hs 0 _ rfl
            have s3 := hs 3 _ rfl
            have s4 := hs 4 _ rfl
            have s5 := hs 5 _ rfl
            rw [Nat.add_zero] at s0
            simp only [List.getD_eq_getElem?_getD, Nat.add_zero, s0, hs 1 _ rfl, hs 2 _ rfl, s3,
              show segAt + 6 * k + 3 + 1 = segAt + 6 * k + 4 from rfl, show segAt + 6 * k + 3 + 2 = segAt + 6 * k + 5 from rfl, s4, s5,
              Option.getD_some]
          rw [if_pos rfl, if_pos rfl, hread, Option.map_some, Option.bind_some, hclip, Option.bind_some, hv]

end Acl.Transform
