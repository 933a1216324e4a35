import Verif.Transform.AnimatedSpec
import Verif.Transform.ConstantCacheLemmas
namespace Acl.Transform

theorem bitsBefore_add (rb : Nat) (m : List (BitVec 8)) (f a : Nat) : ∀ b,
    bitsBefore rb m f (a + b) = bitsBefore rb m f a + bitsBefore rb m (f + a) b
  | 0 => rfl
  | b + 1 => by
    rw [← Nat.add_assoc, bitsBefore, bitsBefore_add rb m f a b, bitsBefore, Nat.add_assoc, Nat.add_assoc f a b]

theorem byteAt_some {m : List (BitVec 8)} {k : Nat} (h : k < m.length) : byteAt m k = some (m.getD k 0) := by
  unfold byteAt; rw [List.getD_eq_getElem?_getD, List.getElem?_eq_getElem h]; rfl

theorem byteAt_lt {m : List (BitVec 8)} {k : Nat} {b : BitVec 8} (h : byteAt m k = some b) : k < m.length :=
  (List.getElem?_eq_some_iff.1 h).1

theorem skipBits_spec (cfg : AnimCfg) (m : List (BitVec 8)) (f i : Nat) (hi : i < 4) (hb : f + i < m.length) :
    ∃ s, skipBits cfg m f i = some s ∧ s * 3 = bitsBefore cfg.rawBits m f i := by
  have hc : i = 0 ∨ i = 1 ∨ i = 2 ∨ i = 3 := by omega
  rcases hc with rfl | rfl | rfl | rfl
  · exact ⟨0, rfl, rfl⟩
  · refine ⟨componentBits cfg.rawBits (m.getD f 0), ?_, ?_⟩
    · simp only [skipBits, byteAt_some (show f < m.length by omega), Option.bind_some, componentBits]
    · simp only [bitsBefore, Nat.add_zero, Nat.zero_add]; omega
  · refine ⟨componentBits cfg.rawBits (m.getD (f + 1) 0) + componentBits cfg.rawBits (m.getD f 0), ?_, ?_⟩
    · simp only [skipBits, byteAt_some (show f < m.length by omega), byteAt_some (show f + 1 < m.length by omega), Option.bind_some, componentBits]
    · simp only [bitsBefore, Nat.add_zero, Nat.zero_add]; omega
  · refine ⟨componentBits cfg.rawBits (m.getD (f + 2) 0) + componentBits cfg.rawBits (m.getD (f + 1) 0) + componentBits cfg.rawBits (m.getD f 0), ?_, ?_⟩
    · simp only [skipBits, byteAt_some (show f < m.length by omega), byteAt_some (show f + 1 < m.length by omega),
        byteAt_some (show f + 2 < m.length by omega), Option.bind_some, componentBits]
    · simp only [bitsBefore, Nat.add_zero, Nat.zero_add]; omega

theorem loadBlock_some {m : List (BitVec 8)} {k n : Nat} (h : k + n ≤ m.length) :
    loadBlock m k n = some (fun i => m.getD (k + i) 0) := by
  unfold loadBlock; rw [if_pos h]

theorem countGroupBits_spec (cfg : AnimCfg) (m : List (BitVec 8)) (f : Nat) : ∀ (n g sum : Nat),
    (n ≠ 0 → f + (g + n) * 4 + 12 ≤ m.length) →
    ∃ s, countGroupBits cfg m f n g sum = some (sum + s) ∧ s * 3 = bitsBefore cfg.rawBits m (f + g * 4) (n * 4)
  | 0, _, sum, _ => ⟨0, rfl, by simp [bitsBefore]⟩
  | n + 1, g, sum, h => by
    have h := h (by omega)
    obtain ⟨s, hs, hs3⟩ := countGroupBits_spec cfg m f n (g + 1)
      (sum + (componentBits cfg.rawBits (m.getD (f + g * 4 + 0) 0) + componentBits cfg.rawBits (m.getD (f + g * 4 + 1) 0) +
        componentBits cfg.rawBits (m.getD (f + g * 4 + 2) 0) + componentBits cfg.rawBits (m.getD (f + g * 4 + 3) 0))) (by omega)
    refine ⟨(componentBits cfg.rawBits (m.getD (f + g * 4 + 0) 0) + componentBits cfg.rawBits (m.getD (f + g * 4 + 1) 0) +
        componentBits cfg.rawBits (m.getD (f + g * 4 + 2) 0) + componentBits cfg.rawBits (m.getD (f + g * 4 + 3) 0)) + s, ?_, ?_⟩
    · rw [countGroupBits, loadBlock_some (by omega), Option.bind_some]
      rw [← Nat.add_assoc sum, ← hs]
      rfl
    · rw [show (n + 1) * 4 = 4 + n * 4 by omega, bitsBefore_add, show f + g * 4 + 4 = f + (g + 1) * 4 by omega, ← hs3]
      simp only [bitsBefore, Nat.zero_add]
      omega

/-- Where a context is after `w` sub-tracks (a multiple of 4). -/
def SegCtx.rotAt (cfg : AnimCfg) (fmt : RotationFormat) (m : List (BitVec 8)) (c : SegCtx) (w : Nat) : SegCtx :=
  match fmt with
  | .quatfFull => { c with bit := c.bit + 128 * w }
  | .dropWFull => { c with bit := c.bit + 96 * w }
  | .dropWVariable => { c with fmt := c.fmt + w, seg := c.seg + 6 * w, bit := c.bit + bitsBefore cfg.rawBits m c.fmt w }

/-- Where the clip ranges are after `w` sub-tracks. -/
def clipRotAt (fmt : RotationFormat) (clip w : Nat) : Nat := if fmt = .dropWVariable then clip + 24 * w else clip

/-- The single reader, positioned at a group, follows the layout. -/
theorem unpackSingleQuat_spec (cfg : AnimCfg) (fmt : RotationFormat) (m : List (BitVec 8)) (clip N : Nat) (c : SegCtx)
    (w i : Nat) (hw : w % 4 = 0) (hi : i < 4) (s : Sample) (hs : rotationSampleAt cfg fmt m clip N c (w + i) = some s) :
    unpackSingleQuat cfg fmt m i (min (N - w) 4) (clipRotAt fmt clip w) (c.rotAt cfg fmt m w) = some s := by
  have h4 : (w + i) / 4 = w / 4 := by omega
  have hm4 : (w + i) % 4 = i := by omega
  have hw4 : 4 * (w / 4) = w := by omega
  cases fmt with
  | quatfFull =>
    unfold rotationSampleAt at hs
    unfold unpackSingleQuat SegCtx.rotAt
    rw [if_neg (by decide), if_pos rfl]
    dsimp only at hs ⊢
    rw [show c.bit + 128 * w + i * 128 = c.bit + 128 * (w + i) by omega, ← hs]
    cases readFloat4 c.data (c.bit + 128 * (w + i)) <;> rfl
  | dropWFull =>
    unfold rotationSampleAt at hs
    unfold unpackSingleQuat SegCtx.rotAt
    rw [if_neg (by decide), if_neg (by decide)]
    dsimp only at hs ⊢
    rw [show c.bit + 96 * w + i * 96 = c.bit + 96 * (w + i) by omega, ← hs]
    cases readFloat3 c.data (c.bit + 96 * (w + i)) <;> rfl
  | dropWVariable =>
    unfold rotationSampleAt at hs
    unfold unpackSingleQuat SegCtx.rotAt clipRotAt
    rw [if_pos rfl, if_pos rfl]
    dsimp only at hs ⊢
    rw [h4, hm4, hw4, show c.seg + 24 * (w / 4) + i = c.seg + 6 * w + i by omega,
      show clip + 96 * (w / 4) + 4 * i = clip + 24 * w + i * 4 by omega, bitsBefore_add, ← Nat.add_assoc, ← Nat.add_assoc] at hs
    have hb : c.fmt + w + i < m.length := by
      cases h : byteAt m (c.fmt + w + i) with
      | none => rw [h] at hs; cases hs
      | some b => exact byteAt_lt h
    obtain ⟨sk, hsk, hsk3⟩ := skipBits_spec cfg m (c.fmt + w) i hi hb
    rw [hsk, Option.bind_some, hsk3]
    rw [byteAt_some hb, Option.bind_some] at hs ⊢
    revert hs
    generalize m.getD (c.fmt + w + i) 0 = b
    by_cases h0 : b.toNat = 0
    · rw [if_pos h0, if_pos h0]
      cases readConstantRotation m (c.seg + 6 * w + i) with
      | none => intro h; cases h
      | some r =>
        simp only [Option.bind_some, Bool.not_true, Bool.and_false, Bool.false_eq_true, if_false, Bool.not_false, if_true]
        cases readClipRangeAt m (clip + 24 * w + i * 4) (min (N - w) 4) with
        | none => intro h; cases h
        | some cr => exact id
    · rw [if_neg h0, if_neg h0]
      by_cases hr : b.toNat = cfg.rawBits
      · rw [if_pos hr, if_pos hr]
        cases readFloat3 c.data (c.bit + bitsBefore cfg.rawBits m c.fmt w + bitsBefore cfg.rawBits m (c.fmt + w) i) with
        | none => intro h; cases h
        | some r =>
          simp only [Option.bind_some, Bool.not_true, Bool.and_false, Bool.false_eq_true, if_false]
          exact id
      · rw [if_neg hr, if_neg hr]
        cases readQuantized b.toNat c.data (c.bit + bitsBefore cfg.rawBits m c.fmt w + bitsBefore cfg.rawBits m (c.fmt + w) i) with
        | none => intro h; cases h
        | some r =>
          simp only [Option.bind_some, Bool.not_false, Bool.and_true, if_true]
          cases cfg.hasSegments with
          | true =>
            simp only [if_true]
            cases readSegmentRangeAt m (c.seg + 6 * w + i) with
            | none => intro h; cases h
            | some sr =>
              simp only [Option.bind_some, Option.map_some]
              cases readClipRangeAt m (clip + 24 * w + i * 4) (min (N - w) 4) with
              | none => intro h; cases h
              | some cr => exact id
          | false =>
            simp only [Bool.false_eq_true, if_false, Option.bind_some]
            cases readClipRangeAt m (clip + 24 * w + i * 4) (min (N - w) 4) with
            | none => intro h; cases h
            | some cr => exact id

/-- The ranges the group reader loads, against the byte loads. -/
theorem unpackSegmentRange_spec {m : List (BitVec 8)} {p : Nat} (h : p + 32 ≤ m.length) :
    ∃ r, unpackSegmentRange m p = some r ∧ ∀ i, i < 4 → readSegmentRangeAt m (p + i) = some (r i) := by
  refine ⟨_, by rw [unpackSegmentRange, loadBlock_some (by omega), Option.bind_some, loadBlock_some (by omega), Option.bind_some], ?_⟩
  intro i hi
  have hb : ∀ j, j < 24 → byteAt m (p + j) = some (m.getD (p + j) 0) := fun j hj => byteAt_some (by omega)
  unfold readSegmentRangeAt
  rw [Nat.add_zero, hb i (by omega), show p + i + 4 = p + (4 + i) by omega, hb (4 + i) (by omega),
    show p + i + 8 = p + (8 + i) by omega, hb (8 + i) (by omega), show p + i + 12 = p + (12 + i) by omega, hb (12 + i) (by omega),
    show p + i + 16 = p + (16 + i) by omega, hb (16 + i) (by omega), show p + i + 20 = p + (20 + i) by omega, hb (20 + i) (by omega)]
  simp only [Option.bind_some]
  rw [show p + (16 + i) = p + 16 + i by omega, show p + (20 + i) = p + 16 + (4 + i) by omega]

theorem loadVec4_lane {m : List (BitVec 8)} {p : Nat} (h : p + 16 ≤ m.length) :
    ∃ v, loadVec4 m p = some v ∧ ∀ i, i < 4 → loadLE32 m (p + 4 * i) = some (v.lane i) := by
  obtain ⟨x, hx⟩ := loadLE32_isSome (m := m) (k := p) (by omega)
  obtain ⟨y, hy⟩ := loadLE32_isSome (m := m) (k := p + 4) (by omega)
  obtain ⟨z, hz⟩ := loadLE32_isSome (m := m) (k := p + 8) (by omega)
  obtain ⟨u, hu⟩ := loadLE32_isSome (m := m) (k := p + 12) (by omega)
  refine ⟨⟨x, y, z, u⟩, loadVec4_eq hx hy hz hu, ?_⟩
  intro i hi
  have hc : i = 0 ∨ i = 1 ∨ i = 2 ∨ i = 3 := by omega
  rcases hc with rfl | rfl | rfl | rfl
  · exact hx
  · exact hy
  · exact hz
  · exact hu

theorem loadClipRange4_spec {m : List (BitVec 8)} {p n : Nat} (hn : n ≤ 4) (h : p + 20 * n + 16 ≤ m.length) :
    ∃ r, loadClipRange4 m p n = some r ∧ ∀ i, i < n → readClipRangeAt m (p + i * 4) n = some (r i) := by
  obtain ⟨a, ha, ha'⟩ := loadVec4_lane (m := m) (p := p + n * 4 * 0) (by omega)
  obtain ⟨b, hb, hb'⟩ := loadVec4_lane (m := m) (p := p + n * 4 * 1) (by omega)
  obtain ⟨c, hc, hc'⟩ := loadVec4_lane (m := m) (p := p + n * 4 * 2) (by omega)
  obtain ⟨d, hd, hd'⟩ := loadVec4_lane (m := m) (p := p + n * 4 * 3) (by omega)
  obtain ⟨e, he, he'⟩ := loadVec4_lane (m := m) (p := p + n * 4 * 4) (by omega)
  obtain ⟨f, hf, hf'⟩ := loadVec4_lane (m := m) (p := p + n * 4 * 5) (by omega)
  refine ⟨_, by rw [loadClipRange4, ha, Option.bind_some, hb, Option.bind_some, hc, Option.bind_some, hd,
    Option.bind_some, he, Option.bind_some, hf, Option.bind_some], ?_⟩
  intro i hi
  unfold readClipRangeAt
  rw [show p + i * 4 + n * 0 * 4 = p + n * 4 * 0 + 4 * i by omega, ha' i (by omega),
    show p + i * 4 + n * 1 * 4 = p + n * 4 * 1 + 4 * i by omega, hb' i (by omega),
    show p + i * 4 + n * 2 * 4 = p + n * 4 * 2 + 4 * i by omega, hc' i (by omega),
    show p + i * 4 + n * 3 * 4 = p + n * 4 * 3 + 4 * i by omega, hd' i (by omega),
    show p + i * 4 + n * 4 * 4 = p + n * 4 * 4 + 4 * i by omega, he' i (by omega),
    show p + i * 4 + n * 5 * 4 = p + n * 4 * 5 + 4 * i by omega, hf' i (by omega)]
  rfl

end Acl.Transform
