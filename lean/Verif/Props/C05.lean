import Verif.Core.MemoryLemmas
/-! C05: memcpy_bits copies exactly the requested bits.
`bufBit m i` is bit `i` of a byte buffer, most significant bit of each byte first. -/
namespace Acl.C05

/-- For in-bounds bit ranges the copy is defined, keeps the buffer length, sets bit `dOff + k` to
source bit `sOff + k` for every `k < n` and leaves every other destination bit unchanged. -/
theorem C05_memcpy_bits (dest src : List (BitVec 8)) (dOff sOff n : Nat)
    (hd : dOff + n ≤ 8 * dest.length) (hs : sOff + n ≤ 8 * src.length) :
    ∃ r, memcpyBits dest dOff src sOff n = some r ∧ r.length = dest.length ∧
      (∀ k, k < n → bufBit r (dOff + k) = bufBit src (sOff + k)) ∧
      (∀ i, (i < dOff ∨ dOff + n ≤ i) → bufBit r i = bufBit dest i) := by
  obtain ⟨r, e, l, b⟩ := memcpyBits_spec n dest dOff src sOff hd hs
  refine ⟨r, e, l, ?_, ?_⟩
  · intro k hk
    rw [b, if_pos (by omega)]; congr 1; omega
  · intro i hi
    rw [b, if_neg (by omega)]

/-- Bytes wholly outside the destination bit range are unchanged. -/
theorem C05_memcpy_bits_frame (dest src : List (BitVec 8)) (dOff sOff n j : Nat) (r : List (BitVec 8))
    (hd : dOff + n ≤ 8 * dest.length) (hs : sOff + n ≤ 8 * src.length)
    (hr : memcpyBits dest dOff src sOff n = some r)
    (hj : 8 * j + 8 ≤ dOff ∨ dOff + n ≤ 8 * j) : r[j]? = dest[j]? := by
  obtain ⟨r', e, l, _, b⟩ := C05_memcpy_bits dest src dOff sOff n hd hs
  rw [e] at hr; have hr := Option.some.inj hr; subst hr
  by_cases hlt : j < dest.length
  · have hlt' : j < r'.length := by omega
    rw [List.getElem?_eq_getElem hlt, List.getElem?_eq_getElem hlt']
    congr 1
    apply BitVec.eq_of_getLsbD_eq
    intro i hi
    have := b (8 * j + (7 - i)) (by omega)
    unfold bufBit at this
    have e1 : (8 * j + (7 - i)) / 8 = j := by omega
    have e2 : 7 - (8 * j + (7 - i)) % 8 = i := by omega
    rw [e1, e2] at this
    simpa [List.getElem?_eq_getElem hlt, List.getElem?_eq_getElem hlt'] using this
  · rw [List.getElem?_eq_none (by omega), List.getElem?_eq_none (by omega)]

example : memcpyBits [0xFF#8, 0x00#8, 0xAA#8] 5 [0x12#8, 0x34#8] 3 11 = some [0xFC#8, 0x8D#8, 0xAA#8] := by
  decide +kernel

end Acl.C05
