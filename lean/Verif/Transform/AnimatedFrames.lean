import Verif.Transform.AnimatedWriterLemmas
import Verif.Props.C09
/-
The bit stream of the key frames: what the writer of the animated samples writes, and that the readers find it.
-/
namespace Acl.Transform

/-- The bits of an `n` bit value, most significant first. -/
def beBits (n : Nat) (v : BitVec 32) : List Bool := (List.range n).map fun j => v.getLsbD (n - 1 - j)

theorem beBits_length (n : Nat) (v : BitVec 32) : (beBits n v).length = n := by simp [beBits]

/-- A buffer has these bits at a bit offset. -/
def HasBits (m : List (BitVec 8)) (off : Nat) (L : List Bool) : Prop :=
  ∀ (j : Nat) (b : Bool), L[j]? = some b → bufBit m (off + j) = b

theorem hasBits_nil (m : List (BitVec 8)) (off : Nat) : HasBits m off [] := fun j b h => by simp at h

theorem hasBits_append {m : List (BitVec 8)} {off : Nat} {A B : List Bool} :
    HasBits m off (A ++ B) ↔ HasBits m off A ∧ HasBits m (off + A.length) B := by
  constructor
  · intro h
    refine ⟨fun j b hj => h j b ?_, fun j b hj => ?_⟩
    · rw [List.getElem?_append_left (List.getElem?_eq_some_iff.mp hj).1]; exact hj
    · rw [Nat.add_assoc]
      exact h (A.length + j) b (by rw [List.getElem?_append_right (by omega), Nat.add_sub_cancel_left]; exact hj)
  · rintro ⟨h1, h2⟩ j b hj
    by_cases hlt : j < A.length
    · rw [List.getElem?_append_left hlt] at hj; exact h1 j b hj
    · rw [List.getElem?_append_right (by omega)] at hj
      have := h2 _ b hj
      rwa [show off + A.length + (j - A.length) = off + j by omega] at this

theorem hasBits_beBits {m : List (BitVec 8)} {off n : Nat} {v : BitVec 32} : HasBits m off (beBits n v) ↔ Holds m off n v := by
  constructor
  · intro h j hj
    refine h j _ ?_
    unfold beBits
    rw [List.getElem?_map, List.getElem?_range hj]; rfl
  · intro h j b hj
    have hlt : j < n := by have := (List.getElem?_eq_some_iff.mp hj).1; rwa [beBits_length] at this
    unfold beBits at hj
    rw [List.getElem?_map, List.getElem?_range hlt, Option.map_some, Option.some.injEq] at hj
    rw [← hj]; exact h j hlt

theorem hasBits_congr {a b : List (BitVec 8)} {off : Nat} {L : List Bool} (h : HasBits a off L)
    (hab : ∀ i, off ≤ i → i < off + L.length → bufBit b i = bufBit a i) : HasBits b off L := by
  intro j x hj
  have := (List.getElem?_eq_some_iff.mp hj).1
  rw [hab _ (by omega) (by omega)]
  exact h j x hj

theorem hasBits_flatMap {α : Type} {m : List (BitVec 8)} {off : Nat} (f : α → List Bool) {l : List α} {k : Nat} {a : α}
    (h : HasBits m off (l.flatMap f)) (hk : l[k]? = some a) :
    HasBits m (off + ((l.take k).flatMap f).length) (f a) := by
  obtain ⟨hlt, rfl⟩ := List.getElem?_eq_some_iff.mp hk
  have e : l = l.take k ++ l[k] :: l.drop (k + 1) := by rw [← List.drop_eq_getElem_cons hlt, List.take_append_drop]
  have h2 : l.flatMap f = (l.take k).flatMap f ++ (f l[k] ++ (l.drop (k + 1)).flatMap f) := by
    conv_lhs => rw [e]
    rw [List.flatMap_append, List.flatMap_cons]
  rw [h2, hasBits_append, hasBits_append] at h
  exact h.2.1

/-! ### Samples -/

/-- The bits of a value in the stream; a constant one has none. -/
def RawSample.bits : RawSample → List Bool
  | .const16 _ _ _ => []
  | .quantized n x y z => beBits n x ++ beBits n y ++ beBits n z
  | .float3 v => beBits 32 v.x ++ beBits 32 v.y ++ beBits 32 v.z
  | .float4 v => beBits 32 v.x ++ beBits 32 v.y ++ beBits 32 v.z ++ beBits 32 v.w

/-- What the quantizer must have computed for sample `i` of a stream: a value of the format of the stream, with components
that fit in their bits. -/
def Stream.Ok (t : Stream) (i : Nat) : Prop :=
  (t.memory i).length = 16 ∧
  match t.bitRate with
  | none => if t.packedSize = 16 then ∃ v, t.value i = .float4 v else t.packedSize = 12 ∧ ∃ v, t.value i = .float3 v
  | some r =>
    if r = 24 then ∃ v, t.value i = .float3 v
    else r ≤ 23 ∧ if r = 0 then True
      else ∃ x y z, t.value i = .quantized r x y z ∧ x.toNat < 2 ^ r ∧ y.toNat < 2 ^ r ∧ z.toNat < 2 ^ r

/-- The bits of sample `i` of a stream. -/
def Stream.bits (t : Stream) (i : Nat) : List Bool := if t.bitRate = some 0 then [] else (t.value i).bits

/-- The number of bits of a sample. -/
def Stream.width (t : Stream) : Nat :=
  match t.bitRate with
  | none => t.packedSize * 8
  | some r => 3 * (if r = 24 then 32 else r)

theorem Stream.bits_length {t : Stream} {i : Nat} (h : t.Ok i) : (t.bits i).length = t.width := by
  obtain ⟨-, h⟩ := h
  unfold Stream.bits Stream.width
  cases hr : t.bitRate with
  | none =>
    rw [hr] at h
    dsimp only at h
    rw [if_neg (by simp)]
    split at h
    · next hp => obtain ⟨v, hv⟩ := h; rw [hv]; simp [RawSample.bits, beBits_length, hp]
    · obtain ⟨hp, v, hv⟩ := h; rw [hv]; simp [RawSample.bits, beBits_length, hp]
  | some r =>
    rw [hr] at h
    dsimp only at h ⊢
    by_cases h24 : r = 24
    · subst h24
      rw [if_pos rfl] at h
      obtain ⟨v, hv⟩ := h
      rw [if_neg (by simp), hv]; simp [RawSample.bits, beBits_length]
    · rw [if_neg h24] at h ⊢
      by_cases h0 : r = 0
      · subst h0; simp
      · rw [if_neg h0] at h
        obtain ⟨-, x, y, z, hv, -⟩ := h
        rw [if_neg (by simpa using h0), hv]; simp [RawSample.bits, beBits_length]; omega

theorem Stream.width_le {t : Stream} {i : Nat} (h : t.Ok i) : t.width ≤ 128 := by
  obtain ⟨-, h⟩ := h
  unfold Stream.width
  cases hr : t.bitRate with
  | none =>
    rw [hr] at h
    dsimp only at h ⊢
    split at h <;> omega
  | some r =>
    rw [hr] at h
    dsimp only at h ⊢
    split at h
    · next h24 => rw [if_pos h24]; decide
    · next h24 => rw [if_neg h24]; omega

/-- The last case of `Stream.poseBits`. -/
theorem Stream.poseBits_eq {t : Stream} {i : Nat} (h : t.Ok i) : t.poseBits = some t.width := by
  obtain ⟨-, h⟩ := h
  unfold Stream.poseBits Stream.width
  cases hr : t.bitRate with
  | none => rfl
  | some r =>
    rw [hr] at h
    dsimp only at h ⊢
    have hle : r ≤ 24 := by split at h <;> omega
    have : ∀ r, r < 25 → getNumBitsAtBitRate r = some (if r = 24 then 32 else r) := by decide
    rw [this r (by omega), Option.map_some, Nat.mul_comm]

theorem writeFront_some (out bs : List (BitVec 8)) (h : bs.length ≤ out.length) :
    writeFront out bs = some (bs ++ out.drop bs.length) := by
  unfold writeFront; rw [if_pos h]

theorem loadLE32_words (fs : List (BitVec 32)) (rest : List (BitVec 8)) (i : Nat) (hi : i < fs.length) :
    loadLE32 (floatBytes fs ++ rest) (4 * i) = some fs[i] := by
  have := loadLE32_floatBytes fs [] rest i hi
  simpa using this

/-- `write_animated_sample` writes the bits of the sample and nothing else. -/
theorem writeAnimatedSample_spec (t : Stream) (i : Nat) (h : t.Ok i) (h0 : t.bitRate ≠ some 0) (dest : List (BitVec 8)) (bit : Nat)
    (hd : bit + t.width ≤ 8 * dest.length) :
    ∃ r, writeAnimatedSample t i dest bit = some (r, bit + t.width) ∧ r.length = dest.length ∧
      (∀ j, j < bit → bufBit r j = bufBit dest j) ∧ HasBits r bit (t.bits i) := by
  have hlen := Stream.bits_length h
  have hbits : t.bits i = (t.value i).bits := by unfold Stream.bits; rw [if_neg h0]
  obtain ⟨hmem, h⟩ := h
  unfold writeAnimatedSample
  have raw3 : ∀ v : Vec3, t.value i = .float3 v → t.width = 96 →
      ∃ raw, t.rawSample i = some raw ∧ loadLE32 raw 0 = some v.x ∧ loadLE32 raw 4 = some v.y ∧ loadLE32 raw 8 = some v.z ∧
        ∃ r, writeRawSample dest bit [v.x, v.y, v.z] = some (r, bit + t.width) ∧ r.length = dest.length ∧
          (∀ j, j < bit → bufBit r j = bufBit dest j) ∧ HasBits r bit (t.bits i) := by
    intro v hv hw
    refine ⟨_, by unfold Stream.rawSample; rw [hv]; exact writeFront_some _ _ (by rw [floatBytes_length, hmem]; simp), ?_, ?_, ?_, ?_⟩
    · exact loadLE32_words [v.x, v.y, v.z] _ 0 (by simp)
    · exact loadLE32_words [v.x, v.y, v.z] _ 1 (by simp)
    · exact loadLE32_words [v.x, v.y, v.z] _ 2 (by simp)
    · obtain ⟨r, e, l, f, hh⟩ := C09.writeRaw_spec [v.x, v.y, v.z] dest bit (by simp only [List.length_cons, List.length_nil]; omega)
      simp only [List.length_cons, List.length_nil] at e f hh
      refine ⟨r, by rw [e, hw], l, fun j hj => f j (Or.inl hj), ?_⟩
      rw [hbits, hv]
      simp only [RawSample.bits]
      rw [hasBits_append, hasBits_append]
      simp only [List.length_append, beBits_length, hasBits_beBits]
      exact ⟨⟨hh 0 (by omega), hh 1 (by omega)⟩, hh 2 (by omega)⟩
  cases hr : t.bitRate with
  | none =>
    rw [hr] at h
    dsimp only at h ⊢
    by_cases hp : t.packedSize = 16
    · rw [if_pos hp] at h
      obtain ⟨v, hv⟩ := h
      have hw : t.width = 128 := by unfold Stream.width; rw [hr]; dsimp only; rw [hp]
      have e1 : t.rawSample i = some (floatBytes [v.x, v.y, v.z, v.w] ++ (t.memory i).drop (floatBytes [v.x, v.y, v.z, v.w]).length) := by
        unfold Stream.rawSample; rw [hv]; exact writeFront_some _ _ (by rw [floatBytes_length, hmem]; simp)
      have l0 := loadLE32_words [v.x, v.y, v.z, v.w] ((t.memory i).drop (floatBytes [v.x, v.y, v.z, v.w]).length) 0 (by simp)
      have l1 := loadLE32_words [v.x, v.y, v.z, v.w] ((t.memory i).drop (floatBytes [v.x, v.y, v.z, v.w]).length) 1 (by simp)
      have l2 := loadLE32_words [v.x, v.y, v.z, v.w] ((t.memory i).drop (floatBytes [v.x, v.y, v.z, v.w]).length) 2 (by simp)
      have l3 := loadLE32_words [v.x, v.y, v.z, v.w] ((t.memory i).drop (floatBytes [v.x, v.y, v.z, v.w]).length) 3 (by simp)
      simp only [Nat.reduceMul, List.getElem_cons_zero, List.getElem_cons_succ] at l0 l1 l2 l3
      rw [e1, Option.bind_some, l0, Option.bind_some, l1, Option.bind_some, l2, Option.bind_some, if_pos hp, l3, Option.bind_some]
      obtain ⟨r, e, l, f, hh⟩ := C09.writeRaw_spec [v.x, v.y, v.z, v.w] dest bit (by simp only [List.length_cons, List.length_nil]; omega)
      simp only [List.length_cons, List.length_nil] at e f hh
      refine ⟨r, by rw [e, hw], l, fun j hj => f j (Or.inl hj), ?_⟩
      rw [hbits, hv]
      simp only [RawSample.bits]
      rw [hasBits_append, hasBits_append, hasBits_append]
      simp only [List.length_append, beBits_length, hasBits_beBits]
      exact ⟨⟨⟨hh 0 (by omega), hh 1 (by omega)⟩, hh 2 (by omega)⟩, hh 3 (by omega)⟩
    · rw [if_neg hp] at h
      obtain ⟨hp12, v, hv⟩ := h
      obtain ⟨raw, e1, l0, l1, l2, hw⟩ := raw3 v hv (by unfold Stream.width; rw [hr]; dsimp only; rw [hp12])
      rw [e1, Option.bind_some, l0, Option.bind_some, l1, Option.bind_some, l2, Option.bind_some, if_neg hp]
      exact hw
  | some r =>
    rw [hr] at h
    dsimp only at h ⊢
    have hr0 : r ≠ 0 := fun e => h0 (by rw [hr, e])
    have hnb : ∀ r, r < 25 → getNumBitsAtBitRate r = some (if r = 24 then 32 else r) := by decide
    by_cases h24 : r = 24
    · subst h24
      rw [if_pos rfl] at h
      obtain ⟨v, hv⟩ := h
      obtain ⟨raw, e1, l0, l1, l2, hw⟩ := raw3 v hv (by unfold Stream.width; rw [hr]; rfl)
      rw [e1, Option.bind_some, hnb 24 (by decide), Option.bind_some, if_neg (by decide), if_pos (by decide), l0, Option.bind_some, l1, Option.bind_some, l2,
        Option.bind_some]
      exact hw
    · rw [if_neg h24] at h
      obtain ⟨h23, h⟩ := h
      rw [if_neg hr0] at h
      obtain ⟨x, y, z, hv, hx, hy, hz⟩ := h
      obtain ⟨raw, e1, l1, hx', hy', hz'⟩ := C09.pack3_holds x y z r (t.memory i) (by omega) h23 hx hy hz (by omega)
      have hw : t.width = r * 3 := by unfold Stream.width; rw [hr]; dsimp only; rw [if_neg h24]; omega
      have e2 : t.rawSample i = some raw := by unfold Stream.rawSample; rw [hv]; exact e1
      rw [e2, Option.bind_some, hnb r (by omega), Option.bind_some, if_neg h24,
        if_neg (by unfold isConstantBitRate; simpa using hr0), if_neg (by unfold isRawBitRate; simpa [kHighestBitRate, kBitRateNumBits] using h24)]
      obtain ⟨m, e3, l3, b⟩ := memcpyBits_spec (r * 3) dest bit raw 0 (by omega) (by omega)
      unfold writeQuantizedSample
      rw [e3, Option.bind_some, hw]
      refine ⟨m, rfl, l3, fun j hj => by rw [b, if_neg (by omega)], ?_⟩
      rw [hbits, hv]
      simp only [RawSample.bits]
      rw [hasBits_append, hasBits_append]
      simp only [List.length_append, beBits_length, hasBits_beBits]
      refine ⟨⟨?_, ?_⟩, ?_⟩
      · intro j hj
        rw [b, if_pos (by omega), ← hx' j hj]; congr 1; omega
      · intro j hj
        rw [b, if_pos (by omega), ← hy' j hj]; congr 1; omega
      · intro j hj
        rw [b, if_pos (by omega), ← hz' j hj]; congr 1; omega

/-! ### Key frames -/

/-- The bits of the sub-tracks of a kind in key frame `i`. -/
def kindBits (bones : List Bone) (seg : Nat) (kind : Kind) (i : Nat) : List Bool :=
  (entries bones kind).flatMap fun b => (b.stream seg kind).bits i

/-- The bits of key frame `i`. -/
def frameBits (bones : List Bone) (seg i : Nat) : List Bool :=
  kindBits bones seg .rotation i ++ kindBits bones seg .translation i ++ kindBits bones seg .scale i

/-- Every animated stream of the segment is well formed at sample `i`. -/
def FrameOk (bones : List Bone) (seg i : Nat) : Prop := ∀ kind, ∀ b ∈ entries bones kind, (b.stream seg kind).Ok i

theorem flatMap_length_le {α : Type} (f : α → List Bool) (n : Nat) (l : List α) (h : ∀ a ∈ l, (f a).length ≤ n) :
    (l.flatMap f).length ≤ n * l.length := by
  induction l with
  | nil => simp
  | cons a l ih =>
    rw [List.flatMap_cons, List.length_append, List.length_cons, Nat.mul_succ]
    have := ih fun b hb => h b (List.mem_cons_of_mem _ hb)
    have := h a List.mem_cons_self
    omega

theorem prefix_flatMap_length {α : Type} (f : α → List Bool) {a b : List α} (h : a <+: b) :
    (a.flatMap f).length ≤ (b.flatMap f).length := by
  obtain ⟨c, rfl⟩ := h
  rw [List.flatMap_append, List.length_append]; omega

/-- A key frame is appended to the bits written so far. -/
theorem writeFrame_spec (hasScale : Bool) (bones : List Bone) (seg i : Nat) (hscale : hasScale = false → entries bones .scale = [])
    (hok : FrameOk bones seg i) (s : AnimOut) (L : List Bool) (hg : s.group.length = 64) (hgb : s.groupBit = 0)
    (hb : s.bit = L.length) (hL : HasBits s.dest 0 L) (hroom : L.length + (frameBits bones seg i).length ≤ 8 * s.dest.length) :
    ∃ s', writeFrame hasScale bones seg i s = some s' ∧ s'.group.length = 64 ∧ s'.groupBit = 0 ∧
      s'.bit = (L ++ frameBits bones seg i).length ∧ s'.dest.length = s.dest.length ∧ HasBits s'.dest 0 (L ++ frameBits bones seg i) := by
  let pre (kind : Kind) : List Bool := match kind with
    | .rotation => L
    | .translation => L ++ kindBits bones seg .rotation i
    | .scale => L ++ kindBits bones seg .rotation i ++ kindBits bones seg .translation i
  have hfilter : ∀ kind, (entries bones kind).filter (fun _ => true) = entries bones kind := by intro kind; simp
  have hpreroom : ∀ kind l, l <+: entries bones kind →
      (pre kind).length + (l.flatMap fun b => (b.stream seg kind).bits i).length ≤ 8 * s.dest.length := by
    intro kind l hl
    have h1 := prefix_flatMap_length (fun b => (b.stream seg kind).bits i) hl
    have h2 : (frameBits bones seg i).length = (kindBits bones seg .rotation i).length + (kindBits bones seg .translation i).length +
        (kindBits bones seg .scale i).length := by unfold frameBits; simp only [List.length_append]
    have h3 : ((entries bones kind).flatMap fun b => (b.stream seg kind).bits i).length = (kindBits bones seg kind i).length := rfl
    cases kind <;> simp only [pre, List.length_append] <;> omega
  let P (kind : Kind) (done pend : List Bone) (t : AnimOut) : Prop :=
    t.dest.length = s.dest.length ∧ t.group.length = 64 ∧
    HasBits t.dest 0 (pre kind ++ done.flatMap fun b => (b.stream seg kind).bits i) ∧
    t.bit = (pre kind).length + (done.flatMap fun b => (b.stream seg kind).bits i).length ∧
    HasBits t.group 0 (pend.flatMap fun b => (b.stream seg kind).bits i) ∧
    t.groupBit = (pend.flatMap fun b => (b.stream seg kind).bits i).length ∧
    t.groupBit ≤ 128 * pend.length
  obtain ⟨t, e, p1, p2, p3, p4, p5, p6, -⟩ := groupWriter_spec hasScale bones (fun _ _ => true)
    (fun kind _ b (s : AnimOut) =>
      if (b.stream seg kind).bitRate ≠ some 0 then
        (writeAnimatedSample (b.stream seg kind) i s.group s.groupBit).map fun (group, groupBit) =>
          { s with group := group, groupBit := groupBit }
      else some s)
    (fun _ _ s =>
      (memcpyBits s.dest s.bit s.group 0 s.groupBit).map fun dest =>
        { s with dest := dest, bit := s.bit + s.groupBit, groupBit := 0 })
    s P
    (by
      rintro kind done pend b t hp hd hpre ⟨h1, h2, h3, h4, h5, h6, h7⟩
      rw [hfilter] at hpre
      have hbm : b ∈ entries bones kind := hpre.subset (by simp)
      have hbo := hok kind b hbm
      have hbl := Stream.bits_length hbo
      have hw := Stream.width_le hbo
      have hfl : (pend ++ [b]).flatMap (fun b => (b.stream seg kind).bits i) =
          (pend.flatMap fun b => (b.stream seg kind).bits i) ++ (b.stream seg kind).bits i := by simp
      have hpl : (pend ++ [b]).length = pend.length + 1 := by simp
      by_cases h0 : (b.stream seg kind).bitRate = some 0
      · have hnil : (b.stream seg kind).bits i = [] := by unfold Stream.bits; rw [if_pos h0]
        rw [if_neg (by simpa using h0)]
        refine ⟨t, rfl, h1, h2, h3, h4, ?_, ?_, ?_⟩
        · rw [hfl, hnil, List.append_nil]; exact h5
        · rw [hfl, hnil, List.append_nil]; exact h6
        · rw [hpl]; omega
      · obtain ⟨r, e, l, f, hh⟩ := writeAnimatedSample_spec (b.stream seg kind) i hbo h0 t.group t.groupBit (by omega)
        rw [if_pos h0, e, Option.map_some]
        refine ⟨_, rfl, h1, by simpa [l] using h2, h3, h4, ?_, ?_, ?_⟩
        · rw [hfl, hasBits_append]
          refine ⟨hasBits_congr h5 fun j _ hj => f j (by omega), ?_⟩
          rw [Nat.zero_add, ← h6]
          exact hh
        · rw [hfl, List.length_append, hbl, ← h6]
        · simp only [hpl]; omega)
    (by
      rintro kind done pend t h0 h4' hd hpre ⟨h1, h2, h3, h4, h5, h6, h7⟩
      rw [hfilter] at hpre
      have hroom' := hpreroom kind _ hpre
      rw [List.flatMap_append, List.length_append] at hroom'
      obtain ⟨r, e, l, b⟩ := memcpyBits_spec t.groupBit t.dest t.bit t.group 0 (by omega) (by omega)
      rw [e, Option.map_some]
      refine ⟨_, rfl, by simp only [l]; exact h1, h2, ?_, ?_, hasBits_nil _ _, rfl, by simp⟩
      · rw [List.flatMap_append, ← List.append_assoc, hasBits_append]
        constructor
        · refine hasBits_congr h3 fun j _ hj => ?_
          rw [List.length_append] at hj
          rw [b, if_neg (by omega)]
        · rw [List.length_append, Nat.zero_add, ← h4]
          intro j x hj
          have hlt := (List.getElem?_eq_some_iff.mp hj).1
          rw [b, if_pos (by omega), ← h5 j x hj]
          congr 1; omega
      · simp only [List.flatMap_append, List.length_append]; omega)
    (by
      rintro t ⟨h1, h2, h3, h4, h5, h6, h7⟩
      rw [hfilter] at h3 h4
      refine ⟨h1, h2, ?_, ?_, hasBits_nil _ _, h6, h7⟩
      · rw [List.flatMap_nil, List.append_nil]; exact h3
      · rw [h4]; simp [pre, kindBits])
    (by
      rintro t ⟨h1, h2, h3, h4, h5, h6, h7⟩
      rw [hfilter] at h3 h4
      refine ⟨h1, h2, ?_, ?_, hasBits_nil _ _, h6, h7⟩
      · rw [List.flatMap_nil, List.append_nil]; exact h3
      · rw [h4]; simp only [pre, kindBits, List.length_append, List.flatMap_nil, List.length_nil, Nat.add_zero])
    ⟨rfl, hg, by rw [List.flatMap_nil, List.append_nil]; exact hL, by rw [hb]; rfl, hasBits_nil _ _, hgb, by rw [hgb]; exact Nat.zero_le _⟩
    hscale
  rw [hfilter] at p3 p4
  have hpre : pre .scale ++ (entries bones .scale).flatMap (fun b => (b.stream seg .scale).bits i) = L ++ frameBits bones seg i := by
    simp only [pre, frameBits, kindBits, List.append_assoc]
  rw [hpre] at p3
  refine ⟨t, e, p2, p6, ?_, p1, p3⟩
  rw [p4, ← hpre, List.length_append (as := pre .scale)]

/-- The key frames that are kept, from `i` on. -/
def keptFrom (keep : Nat → Bool) : Nat → Nat → List Nat
  | 0, _ => []
  | left + 1, i => if keep i then i :: keptFrom keep left (i + 1) else keptFrom keep left (i + 1)

theorem keptFrom_eq (keep : Nat → Bool) : ∀ (left i : Nat), keptFrom keep left i = (List.range' i left).filter keep := by
  intro left
  induction left with
  | zero => intro i; rfl
  | succ left ih =>
    intro i
    rw [keptFrom, List.range'_succ, List.filter_cons, ih]

theorem writeFrames_spec (hasScale : Bool) (bones : List Bone) (seg : Nat) (keep : Nat → Bool)
    (hscale : hasScale = false → entries bones .scale = []) : ∀ (left i : Nat) (s : AnimOut) (L : List Bool),
    (∀ j, i ≤ j → j < i + left → FrameOk bones seg j) → s.group.length = 64 → s.groupBit = 0 → s.bit = L.length → HasBits s.dest 0 L →
    (L ++ (keptFrom keep left i).flatMap (frameBits bones seg)).length ≤ 8 * s.dest.length →
    ∃ s', writeFrames hasScale bones seg keep left i s = some s' ∧ s'.dest.length = s.dest.length ∧
      HasBits s'.dest 0 (L ++ (keptFrom keep left i).flatMap (frameBits bones seg)) := by
  intro left
  induction left with
  | zero =>
    intro i s L _ _ _ _ hL _
    exact ⟨s, rfl, rfl, by simpa [keptFrom] using hL⟩
  | succ left ih =>
    intro i s L hok hg hgb hb hL hroom
    rw [writeFrames]
    rw [keptFrom] at hroom ⊢
    cases hk : keep i with
    | false =>
      rw [hk, if_neg (by decide)] at hroom
      rw [if_neg (by decide), if_neg (by decide), Option.bind_some]
      exact ih (i + 1) s L (fun j h1 h2 => hok j (by omega) (by omega)) hg hgb hb hL hroom
    | true =>
      rw [hk, if_pos rfl, List.flatMap_cons, ← List.append_assoc] at hroom
      rw [if_pos rfl, if_pos rfl, List.flatMap_cons, ← List.append_assoc]
      have hroom1 := hroom
      simp only [List.length_append] at hroom1
      obtain ⟨t, e, g1, g2, g3, g4, g5⟩ := writeFrame_spec hasScale bones seg i hscale (hok i (by omega) (by omega)) s L hg hgb hb hL (by omega)
      rw [e, Option.bind_some]
      obtain ⟨u, e2, k1, k2⟩ := ih (i + 1) t (L ++ frameBits bones seg i) (fun j h1 h2 => hok j (by omega) (by omega)) g1 g2 g3 g5
        (by rw [g4]; exact hroom)
      exact ⟨u, e2, by rw [k1, g4], k2⟩

/-- **Key frames.** The data of a segment is the bits of its kept key frames, one after the other. -/
theorem writeAnimated_spec (hasScale : Bool) (bones : List Bone) (seg : Nat) (keep : Nat → Bool) (numSamples size : Nat)
    (garbage : List (BitVec 8)) (hscale : hasScale = false → entries bones .scale = [])
    (hok : ∀ i, i < numSamples → FrameOk bones seg i) (hg : garbage.length = 64)
    (hsize : (((List.range numSamples).filter keep).flatMap (frameBits bones seg)).length ≤ 8 * size) :
    ∃ m, writeAnimated hasScale bones seg keep numSamples size garbage = some m ∧ m.length = size ∧
      HasBits m 0 (((List.range numSamples).filter keep).flatMap (frameBits bones seg)) := by
  have hkept : keptFrom keep numSamples 0 = (List.range numSamples).filter keep := by
    rw [keptFrom_eq, List.range_eq_range']
  obtain ⟨s, e, l, h⟩ := writeFrames_spec hasScale bones seg keep hscale numSamples 0 ⟨List.replicate size 0, 0, garbage, 0⟩ []
    (fun j _ hj => hok j (by omega)) hg rfl rfl (hasBits_nil _ _) (by rw [hkept, List.nil_append]; simpa using hsize)
  unfold writeAnimated
  rw [e, Option.map_some]
  rw [hkept, List.nil_append] at h
  exact ⟨_, rfl, by rw [l]; simp, h⟩

end Acl.Transform
