import Verif.Math.FixedLemmas
import Verif.Transform.RotationLemmas
/-!
# C86: vectors and rotations in the formats of a fixed size

`InRange` is what a format holds and `tolerance` how close a component comes back: half the distance between two values of the format and some
float rounding. Packing writes exactly the bytes of the format.
-/
namespace Acl.C86
open Acl.F32 Acl.ScalarPacking Acl.Lerp Acl.Fixed

attribute [local irreducible] maxValue

/-- Packing wrote `n` bytes at the front of the buffer and nothing else. -/
def WroteFront (n : Nat) (before after : Buffer) : Prop :=
  after.length = before.length ∧ after.drop n = before.drop n ∧ ∀ b ∈ after.take n, b < 256

/-- A buffer holds bytes. -/
def Bytes (m : Buffer) : Prop := ∀ b ∈ m, b < 256

theorem split_list (n : Nat) : ∀ {m : Buffer}, n ≤ m.length → ∃ a r, m = a ++ r ∧ a.length = n := fun {m} h =>
  ⟨m.take n, m.drop n, (List.take_append_drop n m).symm, by simp; omega⟩

theorem eight {m : Buffer} (h : 8 ≤ m.length) : ∃ a b c d e f g i r, m = a :: b :: c :: d :: e :: f :: g :: i :: r := by
  rcases m with _ | ⟨a, _ | ⟨b, _ | ⟨c, _ | ⟨d, _ | ⟨e, _ | ⟨f, _ | ⟨g, _ | ⟨i, r⟩⟩⟩⟩⟩⟩⟩⟩
  all_goals first | (exact ⟨_, _, _, _, _, _, _, _, _, rfl⟩) | (simp at h)

theorem six {m : Buffer} (h : 6 ≤ m.length) : ∃ a b c d e f r, m = a :: b :: c :: d :: e :: f :: r := by
  rcases m with _ | ⟨a, _ | ⟨b, _ | ⟨c, _ | ⟨d, _ | ⟨e, _ | ⟨f, r⟩⟩⟩⟩⟩⟩
  all_goals first | (exact ⟨_, _, _, _, _, _, _, rfl⟩) | (simp at h)

theorem four {m : Buffer} (h : 4 ≤ m.length) : ∃ a b c d r, m = a :: b :: c :: d :: r := by
  rcases m with _ | ⟨a, _ | ⟨b, _ | ⟨c, _ | ⟨d, r⟩⟩⟩⟩
  all_goals first | (exact ⟨_, _, _, _, _, rfl⟩) | (simp at h)

theorem three {m : Buffer} (h : 3 ≤ m.length) : ∃ a b c r, m = a :: b :: c :: r := by
  rcases m with _ | ⟨a, _ | ⟨b, _ | ⟨c, r⟩⟩⟩
  all_goals first | (exact ⟨_, _, _, _, rfl⟩) | (simp at h)

theorem safe16_lt {k : Nat} (h : k < 2 ^ 16) : safe16 k = some k := if_pos h
theorem safe8_lt {k : Nat} (h : k < 2 ^ 8) : safe8 k = some k := if_pos h

/-- pack_vector4_64 writes eight bytes, and unpack_vector4_64 gives every component back within the precision of 16 bits. -/
theorem C86_vector4_64 (isUnsigned : Bool) (v : V4) (m : Buffer) (hm : 8 ≤ m.length)
    (hx : InRange isUnsigned v.x) (hy : InRange isUnsigned v.y) (hz : InRange isUnsigned v.z) (hw : InRange isUnsigned v.w) :
    ∃ m' r, packVector4_64 v isUnsigned m = some m' ∧ WroteFront 8 m m' ∧ unpackVector4_64 m' isUnsigned = some r ∧
      |r.x - v.x| ≤ tolerance isUnsigned 16 ∧ |r.y - v.y| ≤ tolerance isUnsigned 16 ∧
      |r.z - v.z| ≤ tolerance isUnsigned 16 ∧ |r.w - v.w| ≤ tolerance isUnsigned 16 := by
  obtain ⟨a0, a1, a2, a3, a4, a5, a6, a7, rest, rfl⟩ := eight hm
  obtain ⟨x, px, lx, ex⟩ := pack_component (n := 16) (by decide) (by decide) hx
  obtain ⟨y, py, ly, ey⟩ := pack_component (n := 16) (by decide) (by decide) hy
  obtain ⟨z, pz, lz, ez⟩ := pack_component (n := 16) (by decide) (by decide) hz
  obtain ⟨w, pw, lw, ew⟩ := pack_component (n := 16) (by decide) (by decide) hw
  refine ⟨x % 256 :: x / 256 :: y % 256 :: y / 256 :: z % 256 :: z / 256 :: w % 256 :: w / 256 :: rest,
    ⟨unpackLane isUnsigned x 16, unpackLane isUnsigned y 16, unpackLane isUnsigned z 16, unpackLane isUnsigned w 16⟩, ?_, ?_, ?_, ex, ey, ez, ew⟩
  · simp [packVector4_64, px, py, pz, pw, safe16_lt lx, safe16_lt ly, safe16_lt lz, safe16_lt lw, storeWord, storeByte]
  · refine ⟨by simp, by simp, ?_⟩
    intro b hb
    simp at hb
    omega
  · simp [unpackVector4_64, loadWord, Nat.mod_add_div]

/-- Any eight bytes are a value of the format, and packing it again gives the same bytes. -/
theorem C86_vector4_64_stable (isUnsigned : Bool) (m : Buffer) (hm : 8 ≤ m.length) (hb : Bytes m) :
    ∃ r, unpackVector4_64 m isUnsigned = some r ∧ packVector4_64 r isUnsigned m = some m ∧
      InRange isUnsigned r.x ∧ InRange isUnsigned r.y ∧ InRange isUnsigned r.z ∧ InRange isUnsigned r.w := by
  obtain ⟨a0, a1, a2, a3, a4, a5, a6, a7, rest, rfl⟩ := eight hm
  have hb' : ∀ b ∈ [a0, a1, a2, a3, a4, a5, a6, a7], b < 256 := fun b h => hb b (by simp at h ⊢; tauto)
  simp at hb'
  obtain ⟨h0, h1, h2, h3, h4, h5, h6, h7⟩ := hb'
  have lx : a0 + 256 * a1 < 2 ^ 16 := by omega
  have ly : a2 + 256 * a3 < 2 ^ 16 := by omega
  have lz : a4 + 256 * a5 < 2 ^ 16 := by omega
  have lw : a6 + 256 * a7 < 2 ^ 16 := by omega
  obtain ⟨ix, px⟩ := unpack_component (isUnsigned := isUnsigned) (n := 16) (by decide) (by decide) lx
  obtain ⟨iy, py⟩ := unpack_component (isUnsigned := isUnsigned) (n := 16) (by decide) (by decide) ly
  obtain ⟨iz, pz⟩ := unpack_component (isUnsigned := isUnsigned) (n := 16) (by decide) (by decide) lz
  obtain ⟨iw, pw⟩ := unpack_component (isUnsigned := isUnsigned) (n := 16) (by decide) (by decide) lw
  refine ⟨⟨unpackLane isUnsigned (a0 + 256 * a1) 16, unpackLane isUnsigned (a2 + 256 * a3) 16, unpackLane isUnsigned (a4 + 256 * a5) 16,
    unpackLane isUnsigned (a6 + 256 * a7) 16⟩, by simp [unpackVector4_64, loadWord], ?_, ix, iy, iz, iw⟩
  simp [packVector4_64, px, py, pz, pw, safe16_lt lx, safe16_lt ly, safe16_lt lz, safe16_lt lw, storeWord, storeByte]
  omega

/-- pack_vector4_32 writes four bytes, and unpack_vector4_32 gives every component back within the precision of 8 bits. -/
theorem C86_vector4_32 (isUnsigned : Bool) (v : V4) (m : Buffer) (hm : 4 ≤ m.length)
    (hx : InRange isUnsigned v.x) (hy : InRange isUnsigned v.y) (hz : InRange isUnsigned v.z) (hw : InRange isUnsigned v.w) :
    ∃ m' r, packVector4_32 v isUnsigned m = some m' ∧ WroteFront 4 m m' ∧ unpackVector4_32 m' isUnsigned = some r ∧
      |r.x - v.x| ≤ tolerance isUnsigned 8 ∧ |r.y - v.y| ≤ tolerance isUnsigned 8 ∧
      |r.z - v.z| ≤ tolerance isUnsigned 8 ∧ |r.w - v.w| ≤ tolerance isUnsigned 8 := by
  obtain ⟨a0, a1, a2, a3, rest, rfl⟩ := four hm
  obtain ⟨x, px, lx, ex⟩ := pack_component (n := 8) (by decide) (by decide) hx
  obtain ⟨y, py, ly, ey⟩ := pack_component (n := 8) (by decide) (by decide) hy
  obtain ⟨z, pz, lz, ez⟩ := pack_component (n := 8) (by decide) (by decide) hz
  obtain ⟨w, pw, lw, ew⟩ := pack_component (n := 8) (by decide) (by decide) hw
  refine ⟨x :: y :: z :: w :: rest,
    ⟨unpackLane isUnsigned x 8, unpackLane isUnsigned y 8, unpackLane isUnsigned z 8, unpackLane isUnsigned w 8⟩, ?_, ?_, ?_, ex, ey, ez, ew⟩
  · simp [packVector4_32, px, py, pz, pw, safe8_lt lx, safe8_lt ly, safe8_lt lz, safe8_lt lw, storeByte]
  · refine ⟨by simp, by simp, ?_⟩
    intro b hb
    simp at hb
    omega
  · simp [unpackVector4_32]

/-- Any four bytes are a value of the format, and packing it again gives the same bytes. -/
theorem C86_vector4_32_stable (isUnsigned : Bool) (m : Buffer) (hm : 4 ≤ m.length) (hb : Bytes m) :
    ∃ r, unpackVector4_32 m isUnsigned = some r ∧ packVector4_32 r isUnsigned m = some m ∧
      InRange isUnsigned r.x ∧ InRange isUnsigned r.y ∧ InRange isUnsigned r.z ∧ InRange isUnsigned r.w := by
  obtain ⟨a0, a1, a2, a3, rest, rfl⟩ := four hm
  have hb' : ∀ b ∈ [a0, a1, a2, a3], b < 2 ^ 8 := fun b h => hb b (by simp at h ⊢; tauto)
  obtain ⟨ix, px⟩ := unpack_component (isUnsigned := isUnsigned) (n := 8) (by decide) (by decide) (hb' a0 (by simp))
  obtain ⟨iy, py⟩ := unpack_component (isUnsigned := isUnsigned) (n := 8) (by decide) (by decide) (hb' a1 (by simp))
  obtain ⟨iz, pz⟩ := unpack_component (isUnsigned := isUnsigned) (n := 8) (by decide) (by decide) (hb' a2 (by simp))
  obtain ⟨iw, pw⟩ := unpack_component (isUnsigned := isUnsigned) (n := 8) (by decide) (by decide) (hb' a3 (by simp))
  refine ⟨⟨unpackLane isUnsigned a0 8, unpackLane isUnsigned a1 8, unpackLane isUnsigned a2 8, unpackLane isUnsigned a3 8⟩,
    by simp [unpackVector4_32], ?_, ix, iy, iz, iw⟩
  simp [packVector4_32, px, py, pz, pw, safe8_lt (hb' a0 (by simp)), safe8_lt (hb' a1 (by simp)), safe8_lt (hb' a2 (by simp)),
    safe8_lt (hb' a3 (by simp)), storeByte]

/-- What unpacks a vector of 48 bits. -/
def unpack48 (isUnsigned fused : Bool) (m : Buffer) : Option V3 :=
  if isUnsigned then unpackVector3_u48 m else unpackVector3_s48 fused m

/-- What unpacks a vector of 24 bits. -/
def unpack24 (isUnsigned fused : Bool) (m : Buffer) : Option V3 :=
  if isUnsigned then unpackVector3_u24 m else unpackVector3_s24 fused m

theorem unpack48_eq (isUnsigned fused : Bool) {a b c d e f : Nat} {rest : Buffer} (hr : 10 ≤ rest.length)
    (hx : a + 256 * b < 2 ^ 16) (hy : c + 256 * d < 2 ^ 16) (hz : e + 256 * f < 2 ^ 16) :
    unpack48 isUnsigned fused (a :: b :: c :: d :: e :: f :: rest) =
      some ⟨unpackLane isUnsigned (a + 256 * b) 16, unpackLane isUnsigned (c + 256 * d) 16, unpackLane isUnsigned (e + 256 * f) 16⟩ := by
  have hl : ¬ (a :: b :: c :: d :: e :: f :: rest).length < 16 := by simp; omega
  have hu : unpackVector3_u48 (a :: b :: c :: d :: e :: f :: rest) =
      some ⟨unpackUnsigned (a + 256 * b) 16, unpackUnsigned (c + 256 * d) 16, unpackUnsigned (e + 256 * f) 16⟩ := by
    rw [unpackVector3_u48, if_neg hl, inv16]
    simp [loadWord, unpackUnsigned]
  cases isUnsigned with
  | true => simpa [unpack48, unpackLane] using hu
  | false =>
    simp only [unpack48, Bool.false_eq_true, if_false, unpackVector3_s48, hu, Option.map_some, toSigned, unpackLane]
    rw [toSigned_component fused (by decide) (by decide) hx, toSigned_component fused (by decide) (by decide) hy,
      toSigned_component fused (by decide) (by decide) hz]

theorem unpack24_eq (isUnsigned fused : Bool) {a b c : Nat} {rest : Buffer} (hr : 13 ≤ rest.length)
    (hx : a < 2 ^ 8) (hy : b < 2 ^ 8) (hz : c < 2 ^ 8) :
    unpack24 isUnsigned fused (a :: b :: c :: rest) =
      some ⟨unpackLane isUnsigned a 8, unpackLane isUnsigned b 8, unpackLane isUnsigned c 8⟩ := by
  have hl : ¬ (a :: b :: c :: rest).length < 16 := by simp; omega
  have hu : unpackVector3_u24 (a :: b :: c :: rest) = some ⟨unpackUnsigned a 8, unpackUnsigned b 8, unpackUnsigned c 8⟩ := by
    rw [unpackVector3_u24, if_neg hl, inv8]
    simp [unpackUnsigned]
  cases isUnsigned with
  | true => simpa [unpack24, unpackLane] using hu
  | false =>
    simp only [unpack24, Bool.false_eq_true, if_false, unpackVector3_s24, hu, Option.map_some, toSigned, unpackLane]
    rw [toSigned_component fused (by decide) (by decide) hx, toSigned_component fused (by decide) (by decide) hy,
      toSigned_component fused (by decide) (by decide) hz]

/-- The vectors of 48 bits, unsigned and signed: six bytes are written, and a padded buffer gives every component back. -/
theorem C86_vector3_48 (isUnsigned fused : Bool) (v : V3) (m : Buffer) (hm : 16 ≤ m.length)
    (hx : InRange isUnsigned v.x) (hy : InRange isUnsigned v.y) (hz : InRange isUnsigned v.z) :
    ∃ m' r, packVector3_48 isUnsigned v m = some m' ∧ WroteFront 6 m m' ∧ unpack48 isUnsigned fused m' = some r ∧
      |r.x - v.x| ≤ tolerance isUnsigned 16 ∧ |r.y - v.y| ≤ tolerance isUnsigned 16 ∧ |r.z - v.z| ≤ tolerance isUnsigned 16 := by
  obtain ⟨a0, a1, a2, a3, a4, a5, rest, rfl⟩ := six (m := m) (by omega)
  obtain ⟨x, px, lx, ex⟩ := pack_component (n := 16) (by decide) (by decide) hx
  obtain ⟨y, py, ly, ey⟩ := pack_component (n := 16) (by decide) (by decide) hy
  obtain ⟨z, pz, lz, ez⟩ := pack_component (n := 16) (by decide) (by decide) hz
  refine ⟨x % 256 :: x / 256 :: y % 256 :: y / 256 :: z % 256 :: z / 256 :: rest,
    ⟨unpackLane isUnsigned x 16, unpackLane isUnsigned y 16, unpackLane isUnsigned z 16⟩, ?_, ?_, ?_, ex, ey, ez⟩
  · simp [packVector3_48, px, py, pz, safe16_lt lx, safe16_lt ly, safe16_lt lz, storeWord, storeByte]
  · refine ⟨by simp, by simp, ?_⟩
    intro b hb
    simp at hb
    omega
  · rw [unpack48_eq isUnsigned fused (by simp at hm; omega) (by omega) (by omega) (by omega)]
    simp [Nat.mod_add_div]

/-- Any bytes are a value of the format, and packing it again gives the same bytes. -/
theorem C86_vector3_48_stable (isUnsigned fused : Bool) (m : Buffer) (hm : 16 ≤ m.length) (hb : Bytes m) :
    ∃ r, unpack48 isUnsigned fused m = some r ∧ packVector3_48 isUnsigned r m = some m ∧
      InRange isUnsigned r.x ∧ InRange isUnsigned r.y ∧ InRange isUnsigned r.z := by
  obtain ⟨a0, a1, a2, a3, a4, a5, rest, rfl⟩ := six (m := m) (by omega)
  have hb' : ∀ b ∈ [a0, a1, a2, a3, a4, a5], b < 256 := fun b h => hb b (by simp at h ⊢; tauto)
  simp at hb'
  obtain ⟨h0, h1, h2, h3, h4, h5⟩ := hb'
  have lx : a0 + 256 * a1 < 2 ^ 16 := by omega
  have ly : a2 + 256 * a3 < 2 ^ 16 := by omega
  have lz : a4 + 256 * a5 < 2 ^ 16 := by omega
  obtain ⟨ix, px⟩ := unpack_component (isUnsigned := isUnsigned) (n := 16) (by decide) (by decide) lx
  obtain ⟨iy, py⟩ := unpack_component (isUnsigned := isUnsigned) (n := 16) (by decide) (by decide) ly
  obtain ⟨iz, pz⟩ := unpack_component (isUnsigned := isUnsigned) (n := 16) (by decide) (by decide) lz
  refine ⟨_, unpack48_eq isUnsigned fused (by simp at hm; omega) lx ly lz, ?_, ix, iy, iz⟩
  simp [packVector3_48, px, py, pz, safe16_lt lx, safe16_lt ly, safe16_lt lz, storeWord, storeByte]
  omega

/-- The vectors of 24 bits, unsigned and signed: three bytes are written, and a padded buffer gives every component back. -/
theorem C86_vector3_24 (isUnsigned fused : Bool) (v : V3) (m : Buffer) (hm : 16 ≤ m.length)
    (hx : InRange isUnsigned v.x) (hy : InRange isUnsigned v.y) (hz : InRange isUnsigned v.z) :
    ∃ m' r, packVector3_24 isUnsigned v m = some m' ∧ WroteFront 3 m m' ∧ unpack24 isUnsigned fused m' = some r ∧
      |r.x - v.x| ≤ tolerance isUnsigned 8 ∧ |r.y - v.y| ≤ tolerance isUnsigned 8 ∧ |r.z - v.z| ≤ tolerance isUnsigned 8 := by
  obtain ⟨a0, a1, a2, rest, rfl⟩ := three (m := m) (by omega)
  obtain ⟨x, px, lx, ex⟩ := pack_component (n := 8) (by decide) (by decide) hx
  obtain ⟨y, py, ly, ey⟩ := pack_component (n := 8) (by decide) (by decide) hy
  obtain ⟨z, pz, lz, ez⟩ := pack_component (n := 8) (by decide) (by decide) hz
  refine ⟨x :: y :: z :: rest,
    ⟨unpackLane isUnsigned x 8, unpackLane isUnsigned y 8, unpackLane isUnsigned z 8⟩, ?_, ?_, ?_, ex, ey, ez⟩
  · simp [packVector3_24, px, py, pz, safe8_lt lx, safe8_lt ly, safe8_lt lz, storeByte]
  · refine ⟨by simp, by simp, ?_⟩
    intro b hb
    simp at hb
    omega
  · exact unpack24_eq isUnsigned fused (by simp at hm; omega) lx ly lz

/-- Any bytes are a value of the format, and packing it again gives the same bytes. -/
theorem C86_vector3_24_stable (isUnsigned fused : Bool) (m : Buffer) (hm : 16 ≤ m.length) (hb : Bytes m) :
    ∃ r, unpack24 isUnsigned fused m = some r ∧ packVector3_24 isUnsigned r m = some m ∧
      InRange isUnsigned r.x ∧ InRange isUnsigned r.y ∧ InRange isUnsigned r.z := by
  obtain ⟨a0, a1, a2, rest, rfl⟩ := three (m := m) (by omega)
  have hb' : ∀ b ∈ [a0, a1, a2], b < 2 ^ 8 := fun b h => hb b (by simp at h ⊢; tauto)
  have lx := hb' a0 (by simp)
  have ly := hb' a1 (by simp)
  have lz := hb' a2 (by simp)
  obtain ⟨ix, px⟩ := unpack_component (isUnsigned := isUnsigned) (n := 8) (by decide) (by decide) lx
  obtain ⟨iy, py⟩ := unpack_component (isUnsigned := isUnsigned) (n := 8) (by decide) (by decide) ly
  obtain ⟨iz, pz⟩ := unpack_component (isUnsigned := isUnsigned) (n := 8) (by decide) (by decide) lz
  refine ⟨_, unpack24_eq isUnsigned fused (by simp at hm; omega) lx ly lz, ?_, ix, iy, iz⟩
  simp [packVector3_24, px, py, pz, safe8_lt lx, safe8_lt ly, safe8_lt lz, storeByte]

/-- The three widths of pack_vector3_32: they add up to 32 (the assert of the code) and a float holds each. -/
def Widths (xBits yBits zBits : Nat) : Prop :=
  xBits + yBits + zBits = 32 ∧ 1 ≤ xBits ∧ xBits ≤ 23 ∧ 1 ≤ yBits ∧ yBits ≤ 23 ∧ 1 ≤ zBits ∧ zBits ≤ 23

theorem pack32_eq {X Y Z x y z : Nat} {isUnsigned : Bool} {v : V3} (hW : Widths X Y Z) (px : packLane isUnsigned v.x X = some x)
    (py : packLane isUnsigned v.y Y = some y) (pz : packLane isUnsigned v.z Z = some z) (lx : x < 2 ^ X) (ly : y < 2 ^ Y) (lz : z < 2 ^ Z)
    (a b c d : Nat) (rest : Buffer) (u : Nat) (hu : u = x * 2 ^ (Y + Z) + y * 2 ^ Z + z) :
    u < 2 ^ 32 ∧ packVector3_32 v X Y Z isUnsigned (a :: b :: c :: d :: rest) =
      some (u / 2 ^ 16 % 256 :: u / 2 ^ 16 / 256 :: u % 2 ^ 16 % 256 :: u % 2 ^ 16 / 256 :: rest) := by
  obtain ⟨hs, hX, hX', hY, hY', hZ, hZ'⟩ := hW
  obtain ⟨ej, hj⟩ := join3 lx ly lz hs
  rw [← hu] at ej hj
  refine ⟨hj, ?_⟩
  have s1 : shl32 x (Y + Z) = some (x <<< (Y + Z) % 2 ^ 32) := if_pos (by omega)
  have s2 : shl32 y Z = some (y <<< Z % 2 ^ 32) := if_pos (by omega)
  have hand : u &&& 0xFFFF = u % 2 ^ 16 := Nat.and_two_pow_sub_one_eq_mod u 16
  simp only [packVector3_32, px, py, pz, s1, s2, Option.bind_some, ej, hand, Nat.shiftRight_eq_div_pow]
  rw [safe16_lt (show u / 2 ^ 16 < 2 ^ 16 by omega), safe16_lt (Nat.mod_lt _ (by decide))]
  simp [storeWord, storeByte]

theorem unpack32_eq {X Y Z x y z : Nat} (isUnsigned : Bool) (hW : Widths X Y Z) (lx : x < 2 ^ X) (ly : y < 2 ^ Y) (lz : z < 2 ^ Z)
    (a b c d : Nat) (rest : Buffer) (hlo : c + 256 * d < 2 ^ 16)
    (hu : (a + 256 * b) * 2 ^ 16 + (c + 256 * d) = x * 2 ^ (Y + Z) + y * 2 ^ Z + z) :
    unpackVector3_32 X Y Z isUnsigned (a :: b :: c :: d :: rest) =
      some ⟨unpackLane isUnsigned x X, unpackLane isUnsigned y Y, unpackLane isUnsigned z Z⟩ := by
  obtain ⟨hs, hX, hX', hY, hY', hZ, hZ'⟩ := hW
  obtain ⟨e1, e2, e3⟩ := split3 lx ly lz
  have ho : (a + 256 * b) <<< 16 ||| (c + 256 * d) = x * 2 ^ (Y + Z) + y * 2 ^ Z + z := by
    rw [← Nat.shiftLeft_add_eq_or_of_lt hlo, Nat.shiftLeft_eq, hu]
  have l0 : loadWord (a :: b :: c :: d :: rest) 0 = some (a + 256 * b) := by simp [loadWord]
  have l1 : loadWord (a :: b :: c :: d :: rest) 1 = some (c + 256 * d) := by simp [loadWord]
  simp only [unpackVector3_32, l0, l1, Option.bind_some, ho, shr32, if_pos (show Y + Z < 32 by omega), if_pos (show Z < 32 by omega),
    Option.map_some, e1, e2, e3]

/-- pack_vector3_32 writes four bytes, and unpack_vector3_32 gives every component back within the precision of its width. -/
theorem C86_vector3_32 (xBits yBits zBits : Nat) (isUnsigned : Bool) (hW : Widths xBits yBits zBits) (v : V3) (m : Buffer) (hm : 4 ≤ m.length)
    (hx : InRange isUnsigned v.x) (hy : InRange isUnsigned v.y) (hz : InRange isUnsigned v.z) :
    ∃ m' r, packVector3_32 v xBits yBits zBits isUnsigned m = some m' ∧ WroteFront 4 m m' ∧
      unpackVector3_32 xBits yBits zBits isUnsigned m' = some r ∧
      |r.x - v.x| ≤ tolerance isUnsigned xBits ∧ |r.y - v.y| ≤ tolerance isUnsigned yBits ∧ |r.z - v.z| ≤ tolerance isUnsigned zBits := by
  obtain ⟨a0, a1, a2, a3, rest, rfl⟩ := four hm
  obtain ⟨hs, hX, hX', hY, hY', hZ, hZ'⟩ := id hW
  obtain ⟨x, px, lx, ex⟩ := pack_component hX hX' hx
  obtain ⟨y, py, ly, ey⟩ := pack_component hY hY' hy
  obtain ⟨z, pz, lz, ez⟩ := pack_component hZ hZ' hz
  obtain ⟨hu, hp⟩ := pack32_eq hW px py pz lx ly lz a0 a1 a2 a3 rest _ rfl
  generalize hU : x * 2 ^ (yBits + zBits) + y * 2 ^ zBits + z = u at *
  refine ⟨_, _, hp, ⟨by simp, by simp, ?_⟩, unpack32_eq isUnsigned hW lx ly lz _ _ _ _ rest ?_ ?_, ex, ey, ez⟩
  · intro b hb
    simp at hb
    omega
  · omega
  · omega

/-- Any four bytes are a value of the format, and packing it again gives the same bytes. -/
theorem C86_vector3_32_stable (xBits yBits zBits : Nat) (isUnsigned : Bool) (hW : Widths xBits yBits zBits) (m : Buffer) (hm : 4 ≤ m.length)
    (hb : Bytes m) :
    ∃ r, unpackVector3_32 xBits yBits zBits isUnsigned m = some r ∧ packVector3_32 r xBits yBits zBits isUnsigned m = some m ∧
      InRange isUnsigned r.x ∧ InRange isUnsigned r.y ∧ InRange isUnsigned r.z := by
  obtain ⟨a0, a1, a2, a3, rest, rfl⟩ := four hm
  obtain ⟨hs, hX, hX', hY, hY', hZ, hZ'⟩ := id hW
  have hb' : ∀ b ∈ [a0, a1, a2, a3], b < 256 := fun b h => hb b (by simp at h ⊢; tauto)
  simp at hb'
  obtain ⟨h0, h1, h2, h3⟩ := hb'
  obtain ⟨x, y, z, lx, ly, lz, hu⟩ := parts3 (u := (a0 + 256 * a1) * 2 ^ 16 + (a2 + 256 * a3)) (by omega) hs
  obtain ⟨ix, px⟩ := unpack_component (isUnsigned := isUnsigned) hX hX' lx
  obtain ⟨iy, py⟩ := unpack_component (isUnsigned := isUnsigned) hY hY' ly
  obtain ⟨iz, pz⟩ := unpack_component (isUnsigned := isUnsigned) hZ hZ' lz
  refine ⟨_, unpack32_eq isUnsigned hW lx ly lz a0 a1 a2 a3 rest (by omega) hu, ?_, ix, iy, iz⟩
  rw [(pack32_eq (v := ⟨unpackLane isUnsigned x xBits, unpackLane isUnsigned y yBits, unpackLane isUnsigned z zBits⟩) hW px py pz lx ly lz a0 a1 a2 a3 rest _ hu).2]
  congr 2
  · omega
  congr 1
  · omega
  congr 1
  · omega
  congr 1
  omega

/-- Finding: a width of 24 passes the asserts, but one carries into the next component: (0, 1, 0) comes back as (1/15, 0, 0), rounded. -/
theorem C86_wide_finding : (packVector3_32 ⟨0, 1, 0⟩ 4 24 4 true [0, 0, 0, 0]).bind (unpackVector3_32 4 24 4 true) =
    some ⟨unpackUnsigned 1 4, 0, 0⟩ ∧ unpackUnsigned 1 4 ≠ 0 := by decide +kernel

/-- A rotation of which every component is in [-1, 1]. -/
def QuatInRange (q : Quat) : Prop := InRange false q.x ∧ InRange false q.y ∧ InRange false q.z

theorem positive_range {q : Quat} (h : QuatInRange q) :
    InRange false (positiveXyz q).x ∧ InRange false (positiveXyz q).y ∧ InRange false (positiveXyz q).z := by
  obtain ⟨⟨a, b⟩, ⟨c, d⟩, ⟨e, f⟩⟩ := h
  simp only [Bool.false_eq_true, if_false] at a c e
  unfold positiveXyz InRange
  simp only [Bool.false_eq_true, if_false]
  split <;> (refine ⟨⟨?_, ?_⟩, ⟨?_, ?_⟩, ⟨?_, ?_⟩⟩ <;> simp <;> linarith)

/-- The sign under which a rotation is stored. -/
def sign (q : Quat) : ℚ := if q.w ≥ 0 then 1 else -1

theorem positive_eq (q : Quat) : positiveXyz q = ⟨sign q * q.x, sign q * q.y, sign q * q.z⟩ := by
  unfold positiveXyz sign; split <;> simp

/-- pack_quat_48 and unpack_quat_48: the same rotation, as q or -q, with a w that is not negative. -/
theorem C86_quat_48 (fused : Bool) (sqrt : ℚ → ℚ) (hs : ∀ x, 0 ≤ sqrt x) (q : Quat) (hq : QuatInRange q) (m : Buffer) (hm : 16 ≤ m.length) :
    ∃ m' r, packQuat_48 q m = some m' ∧ WroteFront 6 m m' ∧ unpackQuat_48 fused sqrt m' = some r ∧
      |r.x - sign q * q.x| ≤ tolerance false 16 ∧ |r.y - sign q * q.y| ≤ tolerance false 16 ∧ |r.z - sign q * q.z| ≤ tolerance false 16 ∧
      0 ≤ r.w ∧ 0 ≤ sign q * q.w := by
  obtain ⟨hx, hy, hz⟩ := positive_range hq
  obtain ⟨m', r, hp, hw, hu, ex, ey, ez⟩ := C86_vector3_48 false fused (positiveXyz q) m hm hx hy hz
  rw [positive_eq] at ex ey ez
  refine ⟨m', fromPositiveW fused sqrt r, hp, hw, ?_, ex, ey, ez, hs _, ?_⟩
  · simp only [unpack48, Bool.false_eq_true, if_false] at hu
    simp [unpackQuat_48, hu]
  · unfold sign; split <;> linarith

/-- pack_quat_32 and unpack_quat_32: the same rotation, as q or -q, with a w that is not negative. -/
theorem C86_quat_32 (fused : Bool) (sqrt : ℚ → ℚ) (hs : ∀ x, 0 ≤ sqrt x) (q : Quat) (hq : QuatInRange q) (m : Buffer) (hm : 4 ≤ m.length) :
    ∃ m' r, packQuat_32 q m = some m' ∧ WroteFront 4 m m' ∧ unpackQuat_32 fused sqrt m' = some r ∧
      |r.x - sign q * q.x| ≤ tolerance false 11 ∧ |r.y - sign q * q.y| ≤ tolerance false 11 ∧ |r.z - sign q * q.z| ≤ tolerance false 10 ∧
      0 ≤ r.w ∧ 0 ≤ sign q * q.w := by
  obtain ⟨hx, hy, hz⟩ := positive_range hq
  obtain ⟨m', r, hp, hw, hu, ex, ey, ez⟩ := C86_vector3_32 11 11 10 false ⟨by decide, by decide, by decide, by decide, by decide, by decide, by decide⟩
    (positiveXyz q) m hm hx hy hz
  rw [positive_eq] at ex ey ez
  refine ⟨m', fromPositiveW fused sqrt r, hp, hw, ?_, ex, ey, ez, hs _, ?_⟩
  · simp [unpackQuat_32, hu]
  · unfold sign; split <;> linarith

theorem w_close (fused : Bool) {sqrt : ℚ → ℚ} (hs : Rotation.SqrtLaw sqrt) {q : Quat} {x y z tol eta : ℚ} (hw : 0 ≤ q.w)
    (hu : |q.x * q.x + q.y * q.y + q.z * q.z + q.w * q.w - 1| ≤ eta) (heta : eta ≤ 1 / 4) (ht : tol ≤ 1 / 8)
    (hx : |x - q.x| ≤ tol) (hy : |y - q.y| ≤ tol) (hz : |z - q.z| ≤ tol) :
    ((fromPositiveW fused sqrt ⟨x, y, z⟩).w - q.w) ^ 2 ≤ 2 * tol * (|q.x| + |q.y| + |q.z|) + 3 * tol ^ 2 + 2 * eta + 1 / 2 ^ 18 := by
  have hsq : ∀ a : ℚ, a * a ≤ 25 / 16 → |a| ≤ 5 / 4 := by
    intro a ha
    rw [abs_le]; constructor <;> nlinarith
  have nx := mul_self_nonneg q.x
  have ny := mul_self_nonneg q.y
  have nz := mul_self_nonneg q.z
  have nw := mul_self_nonneg q.w
  have hu' := abs_le.1 hu
  have bound : ∀ {v a : ℚ}, |v - a| ≤ tol → a * a ≤ 25 / 16 → |v| ≤ 3 / 2 := by
    intro v a h1 h2
    have := hsq a h2
    rw [abs_le] at *
    constructor <;> linarith
  have hW := Rotation.positiveW_close fused hs (bound hx (by linarith)) (bound hy (by linarith)) (bound hz (by linarith))
  have diff : ∀ {v a : ℚ}, |v - a| ≤ tol → |v * v - a * a| ≤ 2 * tol * |a| + tol ^ 2 := by
    intro v a h
    rw [show v * v - a * a = (v - a) * (2 * a + (v - a)) by ring, abs_mul]
    have h2 : |2 * a + (v - a)| ≤ 2 * |a| + tol := (abs_add_le _ _).trans (by rw [abs_mul, abs_of_pos (by norm_num : (0 : ℚ) < 2)]; linarith)
    have h3 := mul_le_mul h h2 (abs_nonneg _) ((abs_nonneg _).trans h)
    nlinarith
  have dx := abs_le.1 (diff hx)
  have dy := abs_le.1 (diff hy)
  have dz := abs_le.1 (diff hz)
  have hWn : 0 ≤ Convert.positiveW fused sqrt x y z := hs.nonneg _
  have e : (fromPositiveW fused sqrt ⟨x, y, z⟩).w = Convert.positiveW fused sqrt x y z := rfl
  rw [e]
  generalize Convert.positiveW fused sqrt x y z = W at *
  have hW' := abs_le.1 hW
  have heta0 : 0 ≤ eta := (abs_nonneg _).trans hu
  have key : |W * W - q.w * q.w| ≤ 2 * tol * (|q.x| + |q.y| + |q.z|) + 3 * tol ^ 2 + 2 * eta + 1 / 2 ^ 18 := by
    rw [abs_le]
    have ax : 2 * tol * (|q.x| + |q.y| + |q.z|) = 2 * tol * |q.x| + 2 * tol * |q.y| + 2 * tol * |q.z| := by ring
    rw [ax]
    rcases le_total (x * x + y * y + z * z) 1 with h1 | h1
    · rw [abs_of_nonneg (by linarith)] at hW'
      constructor <;> linarith
    · rw [abs_of_nonpos (by linarith)] at hW'
      constructor <;> linarith
  refine le_trans ?_ key
  rw [show W * W - q.w * q.w = (W - q.w) * (W + q.w) by ring, abs_mul, abs_of_nonneg (by linarith : 0 ≤ W + q.w), ← sq_abs, pow_two]
  refine mul_le_mul_of_nonneg_left ?_ (abs_nonneg _)
  rw [abs_le]
  constructor <;> linarith

theorem w_close_sign (fused : Bool) {sqrt : ℚ → ℚ} (hs : Rotation.SqrtLaw sqrt) {q : Quat} {v : V3} {tol eta : ℚ}
    (hu : |q.x * q.x + q.y * q.y + q.z * q.z + q.w * q.w - 1| ≤ eta) (heta : eta ≤ 1 / 4) (ht : tol ≤ 1 / 8)
    (hx : |v.x - sign q * q.x| ≤ tol) (hy : |v.y - sign q * q.y| ≤ tol) (hz : |v.z - sign q * q.z| ≤ tol) :
    ((fromPositiveW fused sqrt v).w - sign q * q.w) ^ 2 ≤ 2 * tol * (|q.x| + |q.y| + |q.z|) + 3 * tol ^ 2 + 2 * eta + 1 / 2 ^ 18 := by
  have hss : sign q * sign q = 1 := by unfold sign; split <;> norm_num
  have hsa : |sign q| = 1 := by unfold sign; split <;> norm_num
  have hw : 0 ≤ sign q * q.w := by unfold sign; split <;> linarith
  have e : sign q * q.x * (sign q * q.x) + sign q * q.y * (sign q * q.y) + sign q * q.z * (sign q * q.z) + sign q * q.w * (sign q * q.w) =
      q.x * q.x + q.y * q.y + q.z * q.z + q.w * q.w := by
    linear_combination (q.x * q.x + q.y * q.y + q.z * q.z + q.w * q.w) * hss
  have h := w_close fused hs (q := ⟨sign q * q.x, sign q * q.y, sign q * q.z, sign q * q.w⟩) (x := v.x) (y := v.y) (z := v.z)
    hw (by dsimp only; rw [e]; exact hu) heta ht hx hy hz
  simpa only [abs_mul, hsa, one_mul] using h

/-- A rotation: of unit length, up to `eta`. -/
def UnitWithin (eta : ℚ) (q : Quat) : Prop := |q.x * q.x + q.y * q.y + q.z * q.z + q.w * q.w - 1| ≤ eta

/-- The w of a rotation of unit length also comes back from 48 bits; the bound is a square root, as w is reconstructed. -/
theorem C86_quat_48_w (fused : Bool) {sqrt : ℚ → ℚ} (hs : Rotation.SqrtLaw sqrt) (q : Quat) (hq : QuatInRange q) {eta : ℚ} (heta : eta ≤ 1 / 4)
    (hu : UnitWithin eta q) (m : Buffer) (hm : 16 ≤ m.length) :
    ∃ r, (packQuat_48 q m).bind (unpackQuat_48 fused sqrt) = some r ∧ (r.w - sign q * q.w) ^ 2 ≤ 1 / 2 ^ 12 + 2 * eta := by
  obtain ⟨hx, hy, hz⟩ := positive_range hq
  obtain ⟨m', r, hp, hw, hr, ex, ey, ez⟩ := C86_vector3_48 false fused (positiveXyz q) m hm hx hy hz
  rw [positive_eq] at ex ey ez
  simp only [unpack48, Bool.false_eq_true, if_false] at hr
  refine ⟨fromPositiveW fused sqrt r, by rw [packQuat_48, hp]; simp [unpackQuat_48, hr], ?_⟩
  have ht : tolerance false 16 ≤ 1 / 2 ^ 15 := by norm_num [tolerance]
  have h := w_close_sign fused hs hu heta (by norm_num : (1 : ℚ) / 2 ^ 15 ≤ 1 / 8) (ex.trans ht) (ey.trans ht) (ez.trans ht)
  obtain ⟨⟨a, b⟩, ⟨c, d⟩, ⟨e, f⟩⟩ := hq
  simp only [Bool.false_eq_true, if_false] at a c e
  have b1 : |q.x| ≤ 1 := abs_le.2 ⟨a, b⟩
  have b2 : |q.y| ≤ 1 := abs_le.2 ⟨c, d⟩
  have b3 : |q.z| ≤ 1 := abs_le.2 ⟨e, f⟩
  refine h.trans ?_
  norm_num at *
  linarith

/-- The w of a rotation of unit length also comes back from 32 bits. -/
theorem C86_quat_32_w (fused : Bool) {sqrt : ℚ → ℚ} (hs : Rotation.SqrtLaw sqrt) (q : Quat) (hq : QuatInRange q) {eta : ℚ} (heta : eta ≤ 1 / 4)
    (hu : UnitWithin eta q) (m : Buffer) (hm : 4 ≤ m.length) :
    ∃ r, (packQuat_32 q m).bind (unpackQuat_32 fused sqrt) = some r ∧ (r.w - sign q * q.w) ^ 2 ≤ 1 / 2 ^ 7 + 2 * eta := by
  obtain ⟨hx, hy, hz⟩ := positive_range hq
  obtain ⟨m', r, hp, hw, hr, ex, ey, ez⟩ := C86_vector3_32 11 11 10 false ⟨by decide, by decide, by decide, by decide, by decide, by decide, by decide⟩
    (positiveXyz q) m hm hx hy hz
  rw [positive_eq] at ex ey ez
  refine ⟨fromPositiveW fused sqrt r, by rw [packQuat_32, hp]; simp [unpackQuat_32, hr], ?_⟩
  have ht : tolerance false 11 ≤ 1 / 1000 := by norm_num [tolerance]
  have ht' : tolerance false 10 ≤ 1 / 1000 := by norm_num [tolerance]
  have h := w_close_sign fused hs hu heta (by norm_num : (1 : ℚ) / 1000 ≤ 1 / 8) (ex.trans ht) (ey.trans ht) (ez.trans ht')
  obtain ⟨⟨a, b⟩, ⟨c, d⟩, ⟨e, f⟩⟩ := hq
  simp only [Bool.false_eq_true, if_false] at a c e
  have b1 : |q.x| ≤ 1 := abs_le.2 ⟨a, b⟩
  have b2 : |q.y| ≤ 1 := abs_le.2 ⟨c, d⟩
  have b3 : |q.z| ≤ 1 := abs_le.2 ⟨e, f⟩
  refine h.trans ?_
  norm_num at *
  linarith

/-- A rotation and its opposite are stored as the same bytes. -/
theorem C86_opposite (q : Quat) (h : q.w ≠ 0) (m : Buffer) :
    packQuat_48 ⟨-q.x, -q.y, -q.z, -q.w⟩ m = packQuat_48 q m ∧ packQuat_32 ⟨-q.x, -q.y, -q.z, -q.w⟩ m = packQuat_32 q m := by
  have : positiveXyz ⟨-q.x, -q.y, -q.z, -q.w⟩ = positiveXyz q := by
    unfold positiveXyz
    rcases lt_or_gt_of_ne h with h | h
    · simp [h.le, not_le.mpr h]
    · simp [h.le, not_le.mpr h]
  simp [packQuat_48, packQuat_32, this]

/-- A concrete case: a rotation that is stored as its opposite, in 32 and 48 bits. -/
example : QuatInRange ⟨1 / 2, -1 / 2, 1 / 2, -1 / 2⟩ ∧ sign ⟨1 / 2, -1 / 2, 1 / 2, -1 / 2⟩ = -1 := by
  refine ⟨⟨⟨?_, ?_⟩, ⟨?_, ?_⟩, ⟨?_, ?_⟩⟩, ?_⟩ <;> norm_num [sign]
example : packQuat_32 ⟨1 / 2, -1 / 2, 1 / 2, -1 / 2⟩ [9, 9, 9, 9, 7] = some [23, 64, 0, 253, 7] := by decide +kernel
example : packVector3_48 true ⟨1 / 2, 1 / 4, 1⟩ (List.replicate 16 7) = some [0, 128, 0, 64, 255, 255, 7, 7, 7, 7, 7, 7, 7, 7, 7, 7] := by
  decide +kernel
example : Widths 11 11 10 ∧ Widths 1 23 8 := by unfold Widths; decide

end Acl.C86
