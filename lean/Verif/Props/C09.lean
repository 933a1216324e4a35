import Verif.Core.PackingLemmas
/-! C09: variable bit rate vectors survive packing at any bit offset.
`Holds m off n v` (Verif/Core/PackingLemmas.lean): buffer `m` holds the `n` bit value `v` at bit
offset `off`, most significant bit first. -/
namespace Acl.C09

/-- Two buffers have the same bits in a range. -/
def SameBits (a b : List (BitVec 8)) (off len : Nat) : Prop :=
  ∀ i, off ≤ i → i < off + len → bufBit a i = bufBit b i

theorem pack3_holds (x y z : BitVec 32) (n : Nat) (out : List (BitVec 8)) (h1 : 1 ≤ n) (h2 : n ≤ 23)
    (hx : x.toNat < 2 ^ n) (hy : y.toNat < 2 ^ n) (hz : z.toNat < 2 ^ n) (ho : 9 ≤ out.length) :
    ∃ raw, packVector3 x y z n out = some raw ∧ raw.length = out.length ∧
      Holds raw 0 n x ∧ Holds raw n n y ∧ Holds raw (2 * n) n z := by
  unfold packVector3
  rw [if_neg (by omega)]
  by_cases hc : n * 3 ≥ 64
  · rw [if_pos hc]
    simp only
    generalize hv : (x.setWidth 64 <<< (64 - n * 1) ||| y.setWidth 64 <<< (64 - n * 2)) = v
    have bv : ∀ j, j < 64 → v.getLsbD (63 - j) =
        ((decide (n * (1 - 1) ≤ j ∧ j < n * 1) && x.getLsbD (n - 1 - (j - n * (1 - 1)))) ||
         (decide (n * (2 - 1) ≤ j ∧ j < n * 2) && y.getLsbD (n - 1 - (j - n * (2 - 1))))) := by
      intro j hj
      rw [← hv, BitVec.getLsbD_or, field64 hx (by omega) (by omega) hj, field64 hy (by omega) (by omega) hj]
    obtain ⟨r, e, l, b⟩ := writeFront_bit out (bytesLE (byteSwap64 v)) (by rw [bytesLE_length]; omega)
    rw [bytesLE_length] at b
    rw [e]; simp only [Option.bind_some]
    obtain ⟨r2, e2, l2, b2⟩ := memcpyBits_spec n r (n * 2) (bytesLE (byteSwap32 (z <<< (32 - n)))) 0 (by omega)
      (by rw [bytesLE_length]; omega)
    refine ⟨r2, e2, by omega, ?_, ?_, ?_⟩
    · intro j hj
      rw [b2, if_neg (by omega), b _ (by omega), bytesBE64_bit _ _ (by omega), bv _ (by omega)]
      have a1 : (n * (1 - 1) ≤ 0 + j ∧ 0 + j < n * 1) := by omega
      have a2 : ¬ (n * (2 - 1) ≤ 0 + j ∧ 0 + j < n * 2) := by omega
      rw [decide_eq_true a1, decide_eq_false a2]
      simp only [Bool.true_and, Bool.false_and, Bool.or_false, Bool.false_or]
      congr 1; omega
    · intro j hj
      rw [b2, if_neg (by omega), b _ (by omega), bytesBE64_bit _ _ (by omega), bv _ (by omega)]
      have a1 : ¬ (n * (1 - 1) ≤ n + j ∧ n + j < n * 1) := by omega
      have a2 : (n * (2 - 1) ≤ n + j ∧ n + j < n * 2) := by omega
      rw [decide_eq_false a1, decide_eq_true a2]
      simp only [Bool.true_and, Bool.false_and, Bool.or_false, Bool.false_or]
      congr 1; omega
    · intro j hj
      rw [b2, if_pos (by omega), bytesBE32_bit _ _ (by omega), show 31 - (2 * n + j - n * 2 + 0) = 31 - j by omega,
        field32 (by omega) hj]
  · rw [if_neg hc]
    simp only
    generalize hv : (x.setWidth 64 <<< (64 - n * 1) ||| y.setWidth 64 <<< (64 - n * 2) |||
      z.setWidth 64 <<< (64 - n * 3)) = v
    have bv : ∀ j, j < 64 → v.getLsbD (63 - j) =
        ((decide (n * (1 - 1) ≤ j ∧ j < n * 1) && x.getLsbD (n - 1 - (j - n * (1 - 1)))) ||
         (decide (n * (2 - 1) ≤ j ∧ j < n * 2) && y.getLsbD (n - 1 - (j - n * (2 - 1)))) ||
         (decide (n * (3 - 1) ≤ j ∧ j < n * 3) && z.getLsbD (n - 1 - (j - n * (3 - 1))))) := by
      intro j hj
      rw [← hv, BitVec.getLsbD_or, BitVec.getLsbD_or, field64 hx (by omega) (by omega) hj,
        field64 hy (by omega) (by omega) hj, field64 hz (by omega) (by omega) hj]
    obtain ⟨r, e, l, b⟩ := writeFront_bit out (bytesLE (byteSwap64 v)) (by rw [bytesLE_length]; omega)
    rw [bytesLE_length] at b
    refine ⟨r, e, l, ?_, ?_, ?_⟩ <;> intro j hj <;>
      rw [b _ (by omega), bytesBE64_bit _ _ (by omega), bv _ (by omega)]
    · have a1 : (n * (1 - 1) ≤ 0 + j ∧ 0 + j < n * 1) := by omega
      have a2 : ¬ (n * (2 - 1) ≤ 0 + j ∧ 0 + j < n * 2) := by omega
      have a3 : ¬ (n * (3 - 1) ≤ 0 + j ∧ 0 + j < n * 3) := by omega
      rw [decide_eq_true a1, decide_eq_false a2, decide_eq_false a3]
      simp only [Bool.true_and, Bool.false_and, Bool.or_false, Bool.false_or]
      congr 1; omega
    · have a1 : ¬ (n * (1 - 1) ≤ n + j ∧ n + j < n * 1) := by omega
      have a2 : (n * (2 - 1) ≤ n + j ∧ n + j < n * 2) := by omega
      have a3 : ¬ (n * (3 - 1) ≤ n + j ∧ n + j < n * 3) := by omega
      rw [decide_eq_false a1, decide_eq_true a2, decide_eq_false a3]
      simp only [Bool.true_and, Bool.false_and, Bool.or_false, Bool.false_or]
      congr 1; omega
    · have a1 : ¬ (n * (1 - 1) ≤ 2 * n + j ∧ 2 * n + j < n * 1) := by omega
      have a2 : ¬ (n * (2 - 1) ≤ 2 * n + j ∧ 2 * n + j < n * 2) := by omega
      have a3 : (n * (3 - 1) ≤ 2 * n + j ∧ 2 * n + j < n * 3) := by omega
      rw [decide_eq_false a1, decide_eq_false a2, decide_eq_true a3]
      simp only [Bool.true_and, Bool.false_and, Bool.or_false, Bool.false_or]
      congr 1; omega

theorem holds_sub {a b : List (BitVec 8)} {offA offB n k : Nat} {v : BitVec 32} {len : Nat}
    (h : ∀ i, i < len → bufBit b (offB + i) = bufBit a (offA + i)) (hk : k + n ≤ len)
    (ha : Holds a (offA + k) n v) : Holds b (offB + k) n v := by
  intro j hj
  rw [Nat.add_assoc, h _ (by omega), ← Nat.add_assoc, ha j hj]

/-- **Quantized samples.** Three `n` bit components (1 ≤ n ≤ 23) packed by `pack_vector3_uXX_unsafe`
into a 16 byte scratch buffer with any content, then written by `write_animated_sample` at any bit
offset of the stream, are read back exactly by `unpack_vector3_uXX_unsafe` at that offset, in every
buffer `m` that still has those bits, whatever its other bits are. The read only needs
3 bytes past the last byte that holds sample bits. Bits outside the sample are not modified by the
write. -/
theorem C09_vector3_round_trip (x y z : BitVec 32) (n off : Nat) (scratch dest : List (BitVec 8))
    (h1 : 1 ≤ n) (h2 : n ≤ 23) (hx : x.toNat < 2 ^ n) (hy : y.toNat < 2 ^ n) (hz : z.toNat < 2 ^ n)
    (hs : scratch.length = 16) (hd : off + 3 * n ≤ 8 * dest.length) :
    ∃ raw r, packVector3 x y z n scratch = some raw ∧
      writeQuantizedSample dest off raw n = some (r, off + 3 * n) ∧ r.length = dest.length ∧
      (∀ i, (i < off ∨ off + 3 * n ≤ i) → bufBit r i = bufBit dest i) ∧
      ∀ m : List (BitVec 8), SameBits m r off (3 * n) → (off + 3 * n - 1) / 8 + 1 + 3 ≤ m.length →
        unpackVector3 n m off = some (x, y, z) := by
  obtain ⟨raw, e, l, bx, by', bz⟩ := pack3_holds x y z n scratch h1 h2 hx hy hz (by omega)
  obtain ⟨r, e2, l2, b2⟩ := memcpyBits_spec (n * 3) dest off raw 0 (by omega) (by omega)
  refine ⟨raw, r, e, ?_, l2, ?_, ?_⟩
  · unfold writeQuantizedSample; rw [e2]; simp only [Option.bind_some]; congr 2; omega
  · intro i hi; rw [b2, if_neg (by omega)]
  · intro m hm hlen
    have hbits : ∀ i, i < 3 * n → bufBit m (off + i) = bufBit raw (0 + i) := by
      intro i hi
      rw [hm _ (by omega) (by omega), b2, if_pos (by omega)]; congr 1; omega
    have cx := holds_sub (k := 0) (offA := 0) (offB := off) hbits (by omega) bx
    rw [Nat.add_zero] at cx
    have cy := holds_sub hbits (by omega : n + n ≤ 3 * n) (by rw [Nat.zero_add]; exact by')
    have cz := holds_sub hbits (by omega : 2 * n + n ≤ 3 * n) (by rw [Nat.zero_add]; exact bz)
    unfold unpackVector3
    rw [readComponent_holds h1 h2 (by omega) hx cx]
    dsimp only [Option.bind_some]
    rw [readComponent_holds h1 h2 (by omega) hy cy]
    dsimp only [Option.bind_some]
    rw [show off + n + n = off + 2 * n by omega, readComponent_holds h1 h2 (by omega) hz cz]
    rfl

theorem writeRaw_spec (cs : List (BitVec 32)) : ∀ (dest : List (BitVec 8)) (off : Nat),
    off + 32 * cs.length ≤ 8 * dest.length →
    ∃ r, writeRawSample dest off cs = some (r, off + 32 * cs.length) ∧ r.length = dest.length ∧
      (∀ i, (i < off ∨ off + 32 * cs.length ≤ i) → bufBit r i = bufBit dest i) ∧
      ∀ k (hk : k < cs.length), Holds r (off + 32 * k) 32 cs[k] := by
  induction cs with
  | nil => intro dest off _; exact ⟨dest, rfl, rfl, fun _ _ => rfl, fun k hk => absurd hk (by simp)⟩
  | cons c cs ih =>
    intro dest off hd
    simp only [List.length_cons] at hd
    obtain ⟨r, e, l, b⟩ := memcpyBits_spec 32 dest off (bytesLE (byteSwap32 c)) 0 (by omega)
      (by rw [bytesLE_length])
    obtain ⟨r2, e2, l2, f2, h2⟩ := ih r (off + 32) (by omega)
    refine ⟨r2, ?_, by omega, ?_, ?_⟩
    · unfold writeRawSample; rw [e]; dsimp only [Option.bind_some]; rw [e2]; congr 2
      simp only [List.length_cons]; omega
    · intro i hi
      simp only [List.length_cons] at hi
      rw [f2 i (by omega), b, if_neg (by omega)]
    · intro k hk
      cases k with
      | zero =>
        intro j hj
        rw [f2 _ (by omega), b, if_pos (by omega), bytesBE32_bit _ _ (by omega)]
        simp only [List.getElem_cons_zero]; congr 1; omega
      | succ k =>
        simp only [List.length_cons] at hk
        have := h2 k (by omega)
        rw [show off + 32 + 32 * k = off + 32 * (k + 1) by omega] at this
        simpa using this

/-- **Raw samples.** Full precision components (3 for the raw bit rate and `vector3f_full`, 4 for
`quatf_full`, any number in general) written at any bit offset are read back exactly, component by
component, by the 64 bit reads of `unpack_vector3_96_unsafe`, `unpack_vector4_128_unsafe`,
`unpack_vector2_64_unsafe` and `unpack_scalarf_32_unsafe`. The reads need at most 4 bytes past the last
byte of the sample. -/
theorem C09_raw_round_trip (cs : List (BitVec 32)) (off : Nat) (dest : List (BitVec 8))
    (hd : off + 32 * cs.length ≤ 8 * dest.length) :
    ∃ r, writeRawSample dest off cs = some (r, off + 32 * cs.length) ∧ r.length = dest.length ∧
      (∀ i, (i < off ∨ off + 32 * cs.length ≤ i) → bufBit r i = bufBit dest i) ∧
      ∀ m : List (BitVec 8), SameBits m r off (32 * cs.length) →
        (off + 32 * cs.length - 1) / 8 + 1 + 4 ≤ m.length →
        ∀ k (hk : k < cs.length), readRaw m off k = some cs[k] := by
  obtain ⟨r, e, l, f, h⟩ := writeRaw_spec cs dest off hd
  refine ⟨r, e, l, f, ?_⟩
  intro m hm hlen k hk
  apply readRaw_holds (by omega)
  intro j hj
  rw [hm _ (by omega) (by omega), h k hk j hj]

/-- Reading a zero bit component at a byte aligned offset shifts a 32 bit word by 32: undefined
behaviour, for every buffer. (The decoder must, and does, special case constant bit rates.) -/
theorem C09_zero_bits_undefined (m : List (BitVec 8)) (k : Nat) : unpackVector3 0 m (8 * k) = none := by
  unfold unpackVector3
  have : readComponent 0 m (8 * k) = none := by
    unfold readComponent
    cases loadLE32 m (8 * k / 8) with
    | none => rfl
    | some v => dsimp only [Option.bind_some]; rw [if_neg (by omega)]
  rw [this]; rfl

/-- The padding bounds are tight: dropping one of the 3 over-read bytes makes a read fail. -/
example : unpackVector3 1 (List.replicate 4 0xFF#8) 5 = some (1, 1, 1) ∧
    unpackVector3 1 (List.replicate 3 0xFF#8) 5 = none := by decide +kernel

/-- Instance: 23 bit components at bit offset 5 of a noisy stream (crosses the 64 bit split). -/
example : ∃ raw r, packVector3 0x7FFFFF#32 0x2AAAAA#32 0x000001#32 23 (List.replicate 16 0x5A#8) = some raw ∧
    writeQuantizedSample (List.replicate 20 0xC3#8) 5 raw 23 = some (r, 74) ∧
    unpackVector3 23 r 5 = some (0x7FFFFF#32, 0x2AAAAA#32, 0x000001#32) := by
  obtain ⟨raw, r, e1, e2, hl, _, h⟩ := C09_vector3_round_trip 0x7FFFFF#32 0x2AAAAA#32 0x000001#32 23 5
    (List.replicate 16 0x5A#8) (List.replicate 20 0xC3#8) (by decide) (by decide) (by decide) (by decide)
    (by decide) rfl (by decide)
  exact ⟨raw, r, e1, e2, h r (fun _ _ _ => rfl) (by rw [hl]; decide)⟩

/-- Instance: a raw sample at bit offset 3. -/
example : (writeRawSample (List.replicate 20 0xC3#8) 3 [0x3F800000#32, 0xBF000000#32, 0x12345678#32]).bind
    (fun p => readRaw p.1 3 1) = some 0xBF000000#32 := by decide +kernel

end Acl.C09
