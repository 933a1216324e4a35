import Verif.Database.Rewrite
import Verif.Database.ChunksLemmas
import Verif.Transform.AnimatedFound
import Verif.Props.C40
/-
Lemmas on the stores of Database/Rewrite.lean: what they write, and that they leave the rest.
-/
namespace Acl.Rewrite
open Acl.Headers Acl.Tiers Acl.Chunks Acl.Transform

variable {E : Type}

/-- Only bytes from `a` to `b` (excluded) changed. -/
structure Upd (m m' : List (BitVec 8)) (a b : Nat) : Prop where
  length : m'.length = m.length
  same : ∀ i, i < a ∨ b ≤ i → m'[i]? = m[i]?

theorem Upd.refl (m : List (BitVec 8)) (a b : Nat) : Upd m m a b := ⟨rfl, fun _ _ => rfl⟩

theorem Upd.trans {m m' m'' : List (BitVec 8)} {a b a1 b1 a2 b2 : Nat} (h1 : Upd m m' a1 b1) (h2 : Upd m' m'' a2 b2)
    (ha1 : a ≤ a1) (hb1 : b1 ≤ b) (ha2 : a ≤ a2) (hb2 : b2 ≤ b) : Upd m m'' a b :=
  ⟨h2.length.trans h1.length, fun i hi => (h2.same i (by omega)).trans (h1.same i (by omega))⟩

theorem Upd.mono {m m' : List (BitVec 8)} {a b a1 b1 : Nat} (h1 : Upd m m' a1 b1) (ha1 : a ≤ a1) (hb1 : b1 ≤ b) : Upd m m' a b :=
  ⟨h1.length, fun i hi => h1.same i (by omega)⟩

theorem Upd.at {m m' B : List (BitVec 8)} {a b p : Nat} (h : Upd m m' a b) (hat : At m p B) (hd : p + B.length ≤ a ∨ b ≤ p) : At m' p B := by
  intro j x hj
  have hl := (List.getElem?_eq_some_iff.1 hj).1
  rw [h.same _ (by omega)]
  exact hat j x hj

theorem store_upd {m m' bs : List (BitVec 8)} {o : Nat} (h : store m o bs = some m') : Upd m m' o (o + bs.length) ∧ At m' o bs := by
  refine ⟨⟨C40.store_length h, fun i hi => ?_⟩, fun j b hj => ?_⟩
  · rw [C40.store_getElem? h, if_neg (by omega)]
  · have hl := (List.getElem?_eq_some_iff.1 hj).1
    rw [C40.store_getElem? h, if_pos (by omega), ← hj]
    congr 1; omega

theorem store_ok {m bs : List (BitVec 8)} {o : Nat} (h : o + bs.length ≤ m.length) :
    ∃ m', store m o bs = some m' ∧ Upd m m' o (o + bs.length) ∧ At m' o bs := by
  obtain ⟨m', h'⟩ := C40.store_some h
  exact ⟨m', h', store_upd h'⟩

theorem at_take {m B : List (BitVec 8)} {p : Nat} (h : At m p B) (n : Nat) : At m p (B.take n) := by
  intro j b hj
  rw [List.getElem?_take] at hj
  split at hj
  · exact h j b hj
  · cases hj

/-- `load32` finds a word. -/
theorem load32_of_at {m : List (BitVec 8)} {p : Nat} {v : BitVec 32} (h : At m p (bytesLE v)) : load32 m p = some v := by
  have hl := at_length h (by intro he; have := bytesLE_length v; rw [he] at this; simp at this)
  rw [bytesLE_length] at hl
  have e : m = m.take p ++ (bytesLE v ++ m.drop (p + 4)) := by
    apply List.ext_getElem?
    intro i
    by_cases h1 : i < p
    · rw [List.getElem?_append_left (by rw [List.length_take]; omega), List.getElem?_take, if_pos h1]
    · rw [List.getElem?_append_right (by rw [List.length_take]; omega), List.length_take, Nat.min_eq_left (by omega)]
      by_cases h2 : i < p + 4
      · have h3 : i - p < (bytesLE v).length := by rw [bytesLE_length]; omega
        rw [List.getElem?_append_left h3, List.getElem?_eq_getElem h3, ← h (i - p) _ (List.getElem?_eq_getElem h3)]
        congr 1; omega
      · rw [List.getElem?_append_right (by rw [bytesLE_length]; omega), bytesLE_length, List.getElem?_drop]
        congr 1; omega
  rw [e]
  exact load32_bytesLE _ _ _ _ (by rw [List.length_take]; omega)

/-- The words of a record. -/
theorem load32_of_words {m : List (BitVec 8)} {p : Nat} (ws : List (BitVec 32)) (h : At m p (ws.flatMap bytesLE)) (i : Nat) (w : BitVec 32)
    (hi : ws[i]? = some w) : load32 m (p + 4 * i) = some w := by
  induction ws generalizing p i with
  | nil => simp at hi
  | cons v ws ih =>
    rw [List.flatMap_cons, at_append, bytesLE_length] at h
    cases i with
    | zero => simp only [List.getElem?_cons_zero, Option.some.injEq] at hi; subst hi; exact load32_of_at h.1
    | succ i =>
      rw [List.getElem?_cons_succ] at hi
      have := ih h.2 i hi
      rwa [show p + 4 * (i + 1) = p + 4 + 4 * i by omega]

/-- What was in the source of a copy is in the copy. -/
theorem copy_ok {input m : List (BitVec 8)} {src size dest : Nat} (hs : src + size ≤ input.length) (hd : dest + size ≤ m.length) :
    ∃ m', copy input src size m dest = some m' ∧ Upd m m' dest (dest + size) ∧
      (∀ B, At input src B → B.length ≤ size → At m' dest B) := by
  have hl : ((input.drop src).take size).length = size := by rw [List.length_take, List.length_drop]; omega
  obtain ⟨m', h1, h2, h3⟩ := store_ok (m := m) (bs := (input.drop src).take size) (o := dest) (by rw [hl]; exact hd)
  rw [hl] at h2
  refine ⟨m', ?_, h2, ?_⟩
  · unfold copy loadBytes
    rw [if_pos hs, Option.bind_some, h1]
  · intro B hB hB2 j b hj
    have hlt := (List.getElem?_eq_some_iff.1 hj).1
    apply h3
    rw [List.getElem?_take, if_pos (by omega), List.getElem?_drop]
    exact hB j b hj

theorem byte_of_bits {m m' : List (BitVec 8)} (hl : m'.length = m.length) (i : Nat) (h : ∀ j, j < 8 → bufBit m' (8 * i + j) = bufBit m (8 * i + j)) :
    m'[i]? = m[i]? := by
  by_cases hi : i < m.length
  · rw [List.getElem?_eq_getElem hi, List.getElem?_eq_getElem (by omega)]
    congr 1
    apply BitVec.eq_of_getLsbD_eq
    intro k hk
    have := h (7 - k) (by omega)
    unfold bufBit at this
    rw [show (8 * i + (7 - k)) / 8 = i by omega, show 7 - (8 * i + (7 - k)) % 8 = k by omega, List.getD_eq_getElem?_getD, List.getD_eq_getElem?_getD,
      List.getElem?_eq_getElem hi, List.getElem?_eq_getElem (by omega)] at this
    simpa using this
  · rw [List.getElem?_eq_none (by omega), List.getElem?_eq_none (by omega)]

/-- The samples of a segment. -/
theorem writeTier_ok (source : List (BitVec 8)) (offset n : Nat) (frames : List (Frame E)) (m : List (BitVec 8))
    (hn : ∀ f ∈ frames, f.frameBitSize = n) (hs : ∀ f ∈ frames, f.segmentFrameIndex * n + n ≤ 8 * source.length)
    (hb : offset + (frames.length * n + 7) / 8 ≤ m.length) :
    ∃ m', writeTierSegmentData source offset frames 0 m = some m' ∧ Upd m m' offset (offset + (frames.length * n + 7) / 8) ∧
      ∀ (j : Nat) f, frames[j]? = some f → ∀ b, b < n → bufBit m' (offset * 8 + j * n + b) = bufBit source (f.segmentFrameIndex * n + b) := by
  obtain ⟨r, e, l, u, w⟩ := writeTier_spec source offset n frames 0 m hn hs (by omega)
  refine ⟨r, e, ⟨l, fun i hi => byte_of_bits l i fun j hj => u _ (by omega)⟩, ?_⟩
  intro j f hj b hb
  exact w j f hj b hb

/-! ### The segments -/

/-- The header of a segment. -/
def headerBytes (s : Seg E) (offset : Nat) : List (BitVec 8) :=
  [s.pose, s.rotation, s.translation, ptrOffsetOf 32 offset, s.indices].flatMap bytesLE

theorem headerBytes_length (s : Seg E) (offset : Nat) : (headerBytes s offset).length = 20 := by
  unfold headerBytes
  simp [List.flatMap_cons, bytesLE_length32]

theorem writeHeaders_ok (segs : List (Seg E)) : ∀ (m : List (BitVec 8)) (p offset : Nat), p + 20 * segs.length ≤ m.length →
    ∃ m', writeHeaders segs m p offset = some m' ∧ Upd m m' p (p + 20 * segs.length) ∧
      ∀ (j : Nat) s, segs[j]? = some s → At m' (p + 20 * j) (headerBytes s ((segs.take j).foldl segEnd offset)) := by
  induction segs with
  | nil => intro m p offset _; exact ⟨m, rfl, Upd.refl _ _ _, fun j s h => by simp at h⟩
  | cons s rest ih =>
    intro m p offset hp
    rw [List.length_cons] at hp
    have hbl := headerBytes_length s offset
    obtain ⟨m1, h1, u1, a1⟩ := store_ok (m := m) (bs := headerBytes s offset) (o := p) (by rw [hbl]; omega)
    rw [hbl] at u1
    obtain ⟨m2, h2, u2, a2⟩ := ih m1 (p + 20) (segEnd offset s) (by rw [u1.length]; omega)
    refine ⟨m2, ?_, Upd.trans u1 u2 (by omega) (by rw [List.length_cons]; omega) (by omega) (by rw [List.length_cons]; omega), ?_⟩
    · rw [writeHeaders]
      have e : bytesLE s.pose ++ bytesLE s.rotation ++ bytesLE s.translation ++ bytesLE (ptrOffsetOf 32 offset) ++ bytesLE s.indices =
          headerBytes s offset := by
        unfold headerBytes
        simp [List.flatMap_cons]
      rw [e, h1, Option.bind_some, h2]
    · intro j t hj
      cases j with
      | zero =>
        simp only [List.getElem?_cons_zero, Option.some.injEq] at hj
        subst hj
        exact u2.at a1 (Or.inl (by rw [headerBytes_length]))
      | succ j =>
        rw [List.getElem?_cons_succ] at hj
        have := a2 j t hj
        rw [show p + 20 * (j + 1) = p + 20 + 20 * j by omega]
        exact this

/-- What a segment of the input is: its formats `F` and ranges `R`, and its frames of the tier. -/
structure SegOk (input : List (BitVec 8)) (numSegments numVariable : Nat) (s : Seg E) : Prop where
  rng : s.rng = alignUp (s.fmt + numVariable) 2
  anim : s.anim = alignUp (s.rng + if numSegments > 1 then 6 * numVariable else 0) 4
  inside : s.anim ≤ input.length
  bits : ∀ f ∈ s.frames, f.frameBitSize = s.pose.toNat
  source : ∀ f ∈ s.frames, f.segmentFrameIndex * s.pose.toNat + s.pose.toNat ≤ 8 * (input.length - s.anim)
  count : s.frames.length = s.count

/-- What the new clip has of a segment, `d` being its pointers. -/
structure SegWritten (input m : List (BitVec 8)) (numSegments numVariable : Nat) (s : Seg E) (d : Nat × Nat × Nat) : Prop where
  formats : ∀ B, At input s.fmt B → B.length ≤ numVariable → At m d.1 B
  ranges : ∀ B, At input s.rng B → B.length ≤ (if numSegments > 1 then 6 * numVariable else 0) → At m d.2.1 B
  animated : ∀ (j : Nat) f, s.frames[j]? = some f → ∀ b, b < s.pose.toNat →
    bufBit m (d.2.2 * 8 + j * s.pose.toNat + b) = bufBit (input.drop s.anim) (f.segmentFrameIndex * s.pose.toNat + b)

theorem alignUp_le (n a : Nat) (ha : 0 < a) : n ≤ alignUp n a := by
  unfold alignUp
  have := Nat.div_add_mod (n + (a - 1)) a
  have := Nat.mod_lt (n + (a - 1)) ha
  rw [Nat.mul_comm]; omega

theorem segEnd_ge (s : Seg E) (n : Nat) : n ≤ segEnd n s := by
  unfold segEnd alignUp; omega

theorem foldl_ge (segs : List (Seg E)) : ∀ n, n ≤ segs.foldl segEnd n := by
  induction segs with
  | nil => intro n; exact Nat.le_refl _
  | cons s rest ih => intro n; exact Nat.le_trans (segEnd_ge s n) (ih _)

theorem foldl_take_le (segs : List (Seg E)) (n : Nat) : ∀ j, (segs.take j).foldl segEnd n ≤ segs.foldl segEnd n := by
  intro j
  conv_rhs => rw [← List.take_append_drop j segs, List.foldl_append]
  exact foldl_ge _ _

theorem SegWritten.mono {input m m' : List (BitVec 8)} {numSegments numVariable : Nat} {s : Seg E} {d : Nat × Nat × Nat} {a b : Nat}
    (h : SegWritten input m numSegments numVariable s d) (u : Upd m m' a b) (he : d.1 + numVariable ≤ a ∨ b ≤ d.1)
    (hr : d.2.1 + (if numSegments > 1 then 6 * numVariable else 0) ≤ a ∨ b ≤ d.2.1)
    (ha : d.2.2 + (s.frames.length * s.pose.toNat + 7) / 8 ≤ a ∨ b ≤ d.2.2) : SegWritten input m' numSegments numVariable s d := by
  refine ⟨fun B h1 h2 => u.at (h.formats B h1 h2) (by omega), fun B h1 h2 => u.at (h.ranges B h1 h2) (by omega), fun j f hj x hx => ?_⟩
  rw [← h.animated j f hj x hx]
  have hlt := (List.getElem?_eq_some_iff.1 hj).1
  have hmul : (j + 1) * s.pose.toNat ≤ s.frames.length * s.pose.toNat := Nat.mul_le_mul_right _ hlt
  rw [Nat.add_mul, Nat.one_mul] at hmul
  unfold bufBit
  rw [List.getD_eq_getElem?_getD, List.getD_eq_getElem?_getD, u.same _ (by omega)]

theorem writeData_ok (input : List (BitVec 8)) (numSegments numVariable : Nat) (segs : List (Seg E))
    (hok : ∀ s ∈ segs, SegOk input numSegments numVariable s) : ∀ (m : List (BitVec 8)) (offset : Nat),
    Clip.base + segs.foldl segEnd offset ≤ m.length →
    ∃ m', writeData input numSegments numVariable segs m offset = some m' ∧
      Upd m m' (Clip.base + offset) (Clip.base + segs.foldl segEnd offset) ∧
      ∀ (j : Nat) s, segs[j]? = some s →
        SegWritten input m' numSegments numVariable s
          (Clip.segmentData numSegments numVariable (Clip.base + (segs.take j).foldl segEnd offset)) ∧
        (Clip.segmentData numSegments numVariable (Clip.base + (segs.take j).foldl segEnd offset)).2.2 +
          (s.frames.length * s.pose.toNat + 7) / 8 ≤ Clip.base + (segs.take (j + 1)).foldl segEnd offset := by
  induction segs with
  | nil => intro m offset _; exact ⟨m, rfl, Upd.refl _ _ _, fun j s h => by simp at h⟩
  | cons s rest ih =>
    intro m offset hp
    rw [List.foldl_cons] at hp
    have ok := hok s List.mem_cons_self
    have hge := foldl_ge rest (segEnd offset s)
    have hfs : s.fmtSize = alignUp (s.fmt + numVariable) 2 - s.fmt := by unfold Seg.fmtSize; rw [ok.rng]
    have hrs := ok.anim
    have hin := ok.inside
    have hrng := ok.rng
    have hsz : (s.frames.length * s.pose.toNat + 7) / 8 = s.animSize := by unfold Seg.animSize; rw [ok.count]
    have hend : segEnd offset s = alignUp (alignUp (offset + s.fmtSize) 2 + s.rngSize) 4 + s.animSize := rfl
    have hrz : s.rngSize = s.anim - s.rng := rfl
    have hb : Clip.base = 32 := rfl
    have e1 : (Clip.segmentData numSegments numVariable (Clip.base + offset)).1 = Clip.base + offset := rfl
    have e2 : (Clip.segmentData numSegments numVariable (Clip.base + offset)).2.1 = alignUp (Clip.base + offset + numVariable) 2 := rfl
    have e3 : (Clip.segmentData numSegments numVariable (Clip.base + offset)).2.2 =
        alignUp (alignUp (Clip.base + offset + numVariable) 2 + if numSegments > 1 then 6 * numVariable else 0) 4 := by
      unfold Clip.segmentData; simp only [Nat.one_mul]
    generalize hR : (if numSegments > 1 then 6 * numVariable else 0) = R at *
    generalize hd : Clip.segmentData numSegments numVariable (Clip.base + offset) = d at *
    have fits : d.1 + s.fmtSize ≤ Clip.base + segEnd offset s ∧ d.2.1 + s.rngSize ≤ Clip.base + segEnd offset s ∧
        d.2.2 + s.animSize ≤ Clip.base + segEnd offset s ∧ d.1 + numVariable ≤ d.2.1 ∧ d.2.1 + R ≤ d.2.2 ∧ numVariable ≤ s.fmtSize ∧ R ≤ s.rngSize ∧
        s.fmt + s.fmtSize = s.rng ∧ s.rng + s.rngSize = s.anim ∧ Clip.base + offset ≤ d.1 := by
      rw [e1, e2, e3, hend, hrz, hfs, hrs, hrng, hb]
      unfold alignUp
      clear hok ih hp
      generalize s.animSize = A
      omega
    obtain ⟨f1, f2, f3, f4, f5, f6, f7, f8, f9, f10⟩ := fits
    obtain ⟨m1, c1, u1, a1⟩ := copy_ok (input := input) (m := m) (src := s.fmt) (size := s.fmtSize) (dest := d.1) (by omega) (by omega)
    obtain ⟨m2, c2, u2, a2⟩ := copy_ok (input := input) (m := m1) (src := s.rng) (size := s.rngSize) (dest := d.2.1) (by omega)
      (by rw [u1.length]; omega)
    obtain ⟨m3, c3, u3, a3⟩ := writeTier_ok (input.drop s.anim) d.2.2 s.pose.toNat s.frames m2 ok.bits
      (fun f hf => by rw [List.length_drop]; exact ok.source f hf) (by rw [u2.length, u1.length, hsz]; omega)
    rw [hsz] at u3
    have l3 : m3.length = m.length := by rw [u3.length, u2.length, u1.length]
    obtain ⟨m4, c4, u4, a4⟩ := ih (fun t ht => hok t (List.mem_cons_of_mem _ ht)) m3 (segEnd offset s) (by rw [l3]; exact hp)
    have uAll : Upd m m3 (Clip.base + offset) (Clip.base + segEnd offset s) :=
      (u1.trans (a := Clip.base + offset) (b := Clip.base + segEnd offset s) u2 (by omega) (by omega) (by omega) (by omega)).trans u3 (by omega) (by omega) (by omega) (by omega)
    refine ⟨m4, ?_, ?_, ?_⟩
    · rw [writeData, hd, c1, Option.bind_some, c2, Option.bind_some, c3, Option.bind_some, c4]
    · rw [List.foldl_cons]
      exact uAll.trans u4 (by omega) (by omega) (by have := segEnd_ge s offset; omega) (by omega)
    · intro j t hj
      cases j with
      | zero =>
        simp only [List.getElem?_cons_zero, Option.some.injEq] at hj
        subst hj
        rw [List.take_zero, List.foldl_nil, hd, List.take_succ_cons, List.take_zero, List.foldl_cons, List.foldl_nil, hsz]
        refine ⟨?_, f3⟩
        have w3 : SegWritten input m3 numSegments numVariable s d := by
          refine ⟨fun B h1 h2 => ?_, fun B h1 h2 => ?_, a3⟩
          · exact u3.at (u2.at (a1 B h1 (by omega)) (Or.inl (by omega))) (Or.inl (by omega))
          · rw [hR] at h2
            exact u3.at (a2 B h1 (by omega)) (Or.inl (by omega))
        exact w3.mono u4 (Or.inl (by omega)) (Or.inl (by rw [hR]; omega)) (Or.inl (by rw [hsz]; omega))
      | succ j =>
        rw [List.getElem?_cons_succ] at hj
        rw [List.take_succ_cons, List.foldl_cons, List.take_succ_cons, List.foldl_cons]
        exact a4 j t hj

end Acl.Rewrite
