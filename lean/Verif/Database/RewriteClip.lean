import Verif.Database.RewriteMeta
import Verif.Database.BufferLemmas
import Verif.Transform.ClipContext
/-
The clips build_database gives back: Database/Rewrite.lean, the whole of a clip.
-/
namespace Acl.Rewrite
open Acl.Headers Acl.Tiers Acl.Chunks Acl.Transform Acl.Meta

variable {E : Type}

/-- Where the sections of the new clip are. -/
structure Rewritten (input m : List (BitVec 8)) (h : Header) (n nv startSize typesSize constantsSize rangesSize : Nat) (segs : List (Seg E))
    (typesAt constantsAt rangesAt clipHeaderOffset size : Nat) (o : Offsets) : Prop where
  length : m.length = size
  header : At m 8 h.bytes
  counts : ∀ k, k < 8 → load32 m (Clip.base + 4 * k) = load32 input (Clip.base + 4 * k)
  dbWord : load32 m (Clip.base + 32) = some (ptrOffsetOf 32 o.db)
  headersWord : load32 m (Clip.base + 36) = some (ptrOffsetOf 32 o.headers)
  typesWord : load32 m (Clip.base + 40) = some (ptrOffsetOf 32 o.types)
  constantsWord : load32 m (Clip.base + 44) = some (ptrOffsetOf 32 o.constants)
  rangesWord : load32 m (Clip.base + 48) = some (ptrOffsetOf 32 o.ranges)
  starts : ∀ B, At input Clip.startIndicesAt B → B.length ≤ startSize → At m Clip.startIndicesAt B
  db : load32 m (Clip.base + o.db) = some (BitVec.ofNat 32 clipHeaderOffset)
  headers : ∀ (j : Nat) s, segs[j]? = some s → At m (Clip.base + o.headers + 20 * j) (headerBytes s ((segs.take j).foldl segEnd o.segments))
  types : ∀ B, At input typesAt B → B.length ≤ typesSize → At m (Clip.base + o.types) B
  constants : ∀ B, At input constantsAt B → B.length ≤ constantsSize → At m (Clip.base + o.constants) B
  ranges : ∀ B, At input rangesAt B → B.length ≤ rangesSize → At m (Clip.base + o.ranges) B
  segs : ∀ (j : Nat) s, segs[j]? = some s →
    SegWritten input m n nv s (Clip.segmentData n nv (Clip.base + (segs.take j).foldl segEnd o.segments)) ∧
    (Clip.segmentData n nv (Clip.base + (segs.take j).foldl segEnd o.segments)).2.2 +
      (s.frames.length * s.pose.toNat + 7) / 8 ≤ Clip.base + (segs.take (j + 1)).foldl segEnd o.segments

theorem header_of_at {m : List (BitVec 8)} {h : Header} (hat : At m 8 h.bytes) : loadTracksHeader m = some h := by
  have hl := at_length hat (by intro e; have := Header.bytes_length h; rw [e] at this; simp at this)
  rw [Header.bytes_length] at hl
  have e : m = m.take 8 ++ (h.bytes ++ m.drop 32) := by
    apply List.ext_getElem?
    intro i
    by_cases h1 : i < 8
    · rw [List.getElem?_append_left (by rw [List.length_take]; omega), List.getElem?_take, if_pos h1]
    · rw [List.getElem?_append_right (by rw [List.length_take]; omega), List.length_take, Nat.min_eq_left (by omega)]
      by_cases h2 : i < 32
      · rw [List.getElem?_append_left (by rw [Header.bytes_length]; omega)]
        have hlt : i - 8 < h.bytes.length := by rw [Header.bytes_length]; omega
        have := hat (i - 8) _ (List.getElem?_eq_getElem hlt)
        rw [List.getElem?_eq_getElem hlt, ← this]
        congr 1; omega
      · rw [List.getElem?_append_right (by rw [Header.bytes_length]; omega), Header.bytes_length, List.getElem?_drop]
        congr 1; omega
  rw [e]
  exact header_loads _ _ _ (by rw [List.length_take]; omega)

theorem load32_same {m m' : List (BitVec 8)} {p q : Nat} (h : ∀ j, j < 4 → m'[p + j]? = m[q + j]?) : load32 m' p = load32 m q := by
  have h0 := h 0 (by omega)
  have h1 := h 1 (by omega)
  have h2 := h 2 (by omega)
  have h3 := h 3 (by omega)
  unfold load32
  rw [Nat.add_zero, Nat.add_zero] at h0
  rw [h0, h1, h2, h3]

theorem Upd.load {m m' : List (BitVec 8)} {a b p : Nat} (u : Upd m m' a b) (h : p + 4 ≤ a ∨ b ≤ p) : load32 m' p = load32 m p :=
  load32_same fun j hj => u.same _ (by omega)

/-- The sections come one after the other. -/
theorem offsets_order (startSize n typesSize constantsSize rangesSize : Nat) (h4 : startSize % 4 = 0) (o : Offsets)
    (ho : o = offsetsOf startSize n typesSize constantsSize rangesSize) :
    o.db = 52 + startSize ∧ o.headers = o.db + 4 ∧ o.types = o.headers + 20 * n ∧ o.constants = alignUp (o.types + typesSize) 4 ∧
    o.ranges = alignUp (o.constants + constantsSize) 4 ∧ o.segments = o.ranges + rangesSize ∧ o.types % 4 = 0 := by
  subst ho
  unfold offsetsOf Clip.headerSize
  dsimp only
  have e1 : alignUp 52 4 = 52 := rfl
  have e2 : alignUp (52 + startSize) 4 = 52 + startSize := by unfold alignUp; omega
  have e3 : alignUp (52 + startSize + 4) 4 = 52 + startSize + 4 := by unfold alignUp; omega
  have e4 : alignUp (52 + startSize + 4 + 20 * n) 4 = 52 + startSize + 4 + 20 * n := by unfold alignUp; omega
  rw [e1, e2, e3, e4]
  refine ⟨rfl, rfl, rfl, rfl, rfl, rfl, by omega⟩

theorem dataEnd_eq (startSize n typesSize constantsSize rangesSize : Nat) (h4 : startSize % 4 = 0) (segs : List (Seg E)) :
    dataEnd startSize n typesSize constantsSize rangesSize segs =
      Clip.base + segs.foldl segEnd (offsetsOf startSize n typesSize constantsSize rangesSize).segments := by
  have fold : ∀ (l : List (Seg E)) k, l.foldl segEnd (32 + k) = 32 + l.foldl segEnd k := by
    intro l
    induction l with
    | nil => intro k; rfl
    | cons s rest ih =>
      intro k
      rw [List.foldl_cons, List.foldl_cons]
      have : segEnd (32 + k) s = 32 + segEnd k s := by unfold segEnd alignUp; omega
      rw [this, ih]
  unfold dataEnd offsetsOf Clip.headerSize Clip.base
  dsimp only
  rw [← fold]
  congr 1
  unfold alignUp
  omega

theorem writeClip_ok {input : List (BitVec 8)} {h : Header} {n nv typesSize constantsSize rangesSize : Nat} {segs : List (Seg E)}
    {typesAt constantsAt rangesAt cho size : Nat} {misc : BitVec 32} {startSize : Nat} {o : Offsets}
    (hstart : startSize = if n > 1 then 4 * (n + 1) else 0) (ho : o = offsetsOf startSize n typesSize constantsSize rangesSize)
    (hn : segs.length = n) (hin : 84 + startSize ≤ input.length) (ht : typesAt + typesSize ≤ input.length)
    (hc : constantsAt + constantsSize ≤ input.length) (hr : rangesAt + rangesSize ≤ input.length)
    (hok : ∀ s ∈ segs, SegOk input n nv s) (hsize : Clip.base + segs.foldl segEnd o.segments ≤ size) :
    ∃ m, writeClip input h n nv typesSize constantsSize rangesSize segs typesAt constantsAt rangesAt cho size misc = some m ∧
      Rewritten input m { h with misc := misc } n nv startSize typesSize constantsSize rangesSize segs typesAt constantsAt rangesAt cho size o := by
  have hb : Clip.base = 32 := rfl
  have hsi : Clip.startIndicesAt = 84 := rfl
  have h4 : startSize % 4 = 0 := by rw [hstart]; split <;> omega
  obtain ⟨o1, o2, o3, o4, o5, o6, o7⟩ := offsets_order startSize n typesSize constantsSize rangesSize h4 o ho
  have a4 := alignUp_le (o.types + typesSize) 4 (by omega)
  have a5 := alignUp_le (o.constants + constantsSize) 4 (by omega)
  have hge := foldl_ge segs o.segments
  generalize hZ : Clip.base + segs.foldl segEnd o.segments = Z at *
  obtain ⟨m1, c1, u1, a1⟩ := store_ok (m := List.replicate size 0#8) (bs := { h with misc := misc }.bytes) (o := 8)
    (by rw [Header.bytes_length, List.length_replicate]; omega)
  rw [Header.bytes_length] at u1
  have l1 : m1.length = size := by rw [u1.length, List.length_replicate]
  obtain ⟨m2, c2, u2, a2⟩ := copy_ok (input := input) (m := m1) (src := Clip.base) (size := Clip.headerSize) (dest := Clip.base)
    (by unfold Clip.headerSize; omega) (by unfold Clip.headerSize; omega)
  rw [show Clip.headerSize = 52 from rfl, hb] at u2 a2
  have l2 : m2.length = size := by rw [u2.length, l1]
  obtain ⟨m3, c3, u3, a3⟩ := store_ok (m := m2) (bs := bytesLE (ptrOffsetOf 32 o.db) ++ bytesLE (ptrOffsetOf 32 o.headers) ++ bytesLE (ptrOffsetOf 32 o.types) ++
    bytesLE (ptrOffsetOf 32 o.constants) ++ bytesLE (ptrOffsetOf 32 o.ranges)) (o := 64)
    (by simp only [List.length_append, bytesLE_length32]; omega)
  simp only [List.length_append, bytesLE_length32] at u3
  have l3 : m3.length = size := by rw [u3.length, l2]
  have step4 : ∃ m4, (if n > 1 then copy input Clip.startIndicesAt startSize m3 Clip.startIndicesAt else some m3) = some m4 ∧
      Upd m3 m4 84 (84 + startSize) ∧ ∀ B, At input Clip.startIndicesAt B → B.length ≤ startSize → At m4 Clip.startIndicesAt B := by
    by_cases hn1 : n > 1
    · rw [if_pos hn1]
      exact copy_ok (input := input) (m := m3) (src := Clip.startIndicesAt) (size := startSize) (dest := Clip.startIndicesAt) (by omega) (by omega)
    · rw [if_neg hn1] at hstart
      refine ⟨m3, by rw [if_neg hn1], Upd.refl _ _ _, fun B _ hB => ?_⟩
      have : B = [] := List.length_eq_zero_iff.1 (by omega)
      subst this
      intro j b hj; simp at hj
  obtain ⟨m4, c4, u4, b4⟩ := step4
  have l4 : m4.length = size := by rw [u4.length, l3]
  obtain ⟨m5, c5, u5, b5⟩ := store_ok (m := m4) (bs := bytesLE (BitVec.ofNat 32 cho)) (o := Clip.base + o.db)
    (by rw [bytesLE_length32]; omega)
  rw [bytesLE_length32] at u5
  have l5 : m5.length = size := by rw [u5.length, l4]
  obtain ⟨m6, c6, u6, b6⟩ := writeHeaders_ok segs m5 (Clip.base + o.headers) o.segments (by omega)
  have l6 : m6.length = size := by rw [u6.length, l5]
  obtain ⟨m7, c7, u7, b7⟩ := copy_ok (input := input) (m := m6) (src := typesAt) (size := typesSize) (dest := Clip.base + o.types) ht (by omega)
  have l7 : m7.length = size := by rw [u7.length, l6]
  obtain ⟨m8, c8, u8, b8⟩ := copy_ok (input := input) (m := m7) (src := constantsAt) (size := constantsSize) (dest := Clip.base + o.constants) hc (by omega)
  have l8 : m8.length = size := by rw [u8.length, l7]
  obtain ⟨m9, c9, u9, b9⟩ := copy_ok (input := input) (m := m8) (src := rangesAt) (size := rangesSize) (dest := Clip.base + o.ranges) hr (by omega)
  have l9 : m9.length = size := by rw [u9.length, l8]
  obtain ⟨m10, c10, u10, b10⟩ := writeData_ok input n nv segs hok m9 o.segments (by omega)
  rw [hZ] at u10
  have l10 : m10.length = size := by rw [u10.length, l9]
  have v9 : Upd m9 m10 (Clip.base + o.segments) Z := u10
  have v8 : Upd m8 m10 (Clip.base + o.ranges) Z := u9.trans v9 (by omega) (by omega) (by omega) (by omega)
  have v7 : Upd m7 m10 (Clip.base + o.constants) Z := u8.trans v8 (by omega) (by omega) (by omega) (by omega)
  have v6 : Upd m6 m10 (Clip.base + o.types) Z := u7.trans v7 (by omega) (by omega) (by omega) (by omega)
  have v5 : Upd m5 m10 (Clip.base + o.headers) Z := u6.trans v6 (by omega) (by omega) (by omega) (by omega)
  have v4 : Upd m4 m10 (Clip.base + o.db) Z := u5.trans v5 (by omega) (by omega) (by omega) (by omega)
  have v3 : Upd m3 m10 84 Z := u4.trans v4 (by omega) (by omega) (by omega) (by omega)
  have v2 : Upd m2 m10 64 Z := u3.trans v3 (by omega) (by omega) (by omega) (by omega)
  have v1 : Upd m1 m10 32 Z := u2.trans v2 (by omega) (by omega) (by omega) (by omega)
  refine ⟨m10, ?_, ?_⟩
  · unfold writeClip
    dsimp only
    rw [← hstart, ← ho, c1, Option.bind_some, c2, Option.bind_some, show Clip.base + 32 = 64 from rfl, c3, Option.bind_some, c4, Option.bind_some,
      c5, Option.bind_some, c6, Option.bind_some, c7, Option.bind_some, c8, Option.bind_some, c9, Option.bind_some, c10]
  · have w3 : At m10 64 ([ptrOffsetOf 32 o.db, ptrOffsetOf 32 o.headers, ptrOffsetOf 32 o.types, ptrOffsetOf 32 o.constants, ptrOffsetOf 32 o.ranges].flatMap bytesLE) := by
      have e : [ptrOffsetOf 32 o.db, ptrOffsetOf 32 o.headers, ptrOffsetOf 32 o.types, ptrOffsetOf 32 o.constants, ptrOffsetOf 32 o.ranges].flatMap bytesLE =
        bytesLE (ptrOffsetOf 32 o.db) ++ bytesLE (ptrOffsetOf 32 o.headers) ++ bytesLE (ptrOffsetOf 32 o.types) ++
          bytesLE (ptrOffsetOf 32 o.constants) ++ bytesLE (ptrOffsetOf 32 o.ranges) := by
        simp [List.flatMap_cons]
      rw [e]
      exact v3.at a3 (Or.inl (by simp only [List.length_append, bytesLE_length32]; omega))
    exact {
      length := l10
      header := v1.at a1 (Or.inl (by rw [Header.bytes_length]))
      counts := by
        intro k hk
        rw [hb]
        refine load32_same fun j hj => ?_
        rw [v2.same _ (by omega)]
        have hlt : 32 + 4 * k + j < input.length := by omega
        have hB : At input 32 ((input.drop 32).take 52) := by
          intro i b hi
          rw [List.getElem?_take] at hi
          split at hi
          · rwa [List.getElem?_drop] at hi
          · cases hi
        have hA := a2 _ hB (by rw [List.length_take]; omega)
        have := hA (4 * k + j) (input[32 + 4 * k + j]) (by
          rw [List.getElem?_take, if_pos (by omega), List.getElem?_drop, ← Nat.add_assoc, List.getElem?_eq_getElem hlt])
        rw [Nat.add_assoc, this, ← Nat.add_assoc, List.getElem?_eq_getElem hlt]
      dbWord := load32_of_words _ w3 0 _ rfl
      headersWord := load32_of_words _ w3 1 _ rfl
      typesWord := load32_of_words _ w3 2 _ rfl
      constantsWord := load32_of_words _ w3 3 _ rfl
      rangesWord := load32_of_words _ w3 4 _ rfl
      starts := fun B h1 h2 => v4.at (b4 B h1 h2) (Or.inl (by omega))
      db := load32_of_at (v5.at b5 (Or.inl (by rw [bytesLE_length32]; omega)))
      headers := fun j s hj => v6.at (b6 j s hj) (Or.inl (by
        have := (List.getElem?_eq_some_iff.1 hj).1
        rw [headerBytes_length]; omega))
      types := fun B h1 h2 => v7.at (b7 B h1 h2) (Or.inl (by omega))
      constants := fun B h1 h2 => v8.at (b8 B h1 h2) (Or.inl (by omega))
      ranges := fun B h1 h2 => v9.at (b9 B h1 h2) (Or.inl (by omega))
      segs := b10 }

/-- Writes before or after what the sections use change nothing. -/
theorem Rewritten.mono {input m m' : List (BitVec 8)} {h : Header} {n nv startSize typesSize constantsSize rangesSize : Nat} {segs : List (Seg E)}
    {typesAt constantsAt rangesAt cho size : Nat} {o : Offsets} {a b : Nat}
    (r : Rewritten input m h n nv startSize typesSize constantsSize rangesSize segs typesAt constantsAt rangesAt cho size o)
    (h4 : startSize % 4 = 0) (ho : o = offsetsOf startSize n typesSize constantsSize rangesSize) (hn : segs.length = n)
    (u : Upd m m' a b) (hab : b ≤ 8 ∨ Clip.base + segs.foldl segEnd o.segments ≤ a) :
    Rewritten input m' h n nv startSize typesSize constantsSize rangesSize segs typesAt constantsAt rangesAt cho size o := by
  have hb : Clip.base = 32 := rfl
  have hsi : Clip.startIndicesAt = 84 := rfl
  obtain ⟨o1, o2, o3, o4, o5, o6, o7⟩ := offsets_order startSize n typesSize constantsSize rangesSize h4 o ho
  have a4 := alignUp_le (o.types + typesSize) 4 (by omega)
  have a5 := alignUp_le (o.constants + constantsSize) 4 (by omega)
  have hge := foldl_ge segs o.segments
  have hw : ∀ k, k ≤ 12 → load32 m' (Clip.base + 4 * k) = load32 m (Clip.base + 4 * k) := fun k hk => u.load (by omega)
  exact {
    length := by rw [u.length, r.length]
    header := u.at r.header (by rw [Header.bytes_length]; omega)
    counts := fun k hk => by rw [hw k (by omega), r.counts k hk]
    dbWord := (hw 8 (by omega)).trans r.dbWord
    headersWord := (hw 9 (by omega)).trans r.headersWord
    typesWord := (hw 10 (by omega)).trans r.typesWord
    constantsWord := (hw 11 (by omega)).trans r.constantsWord
    rangesWord := (hw 12 (by omega)).trans r.rangesWord
    starts := fun B h1 h2 => u.at (r.starts B h1 h2) (by omega)
    db := by rw [← r.db]; exact u.load (by omega)
    headers := fun j s hj => u.at (r.headers j s hj) (by
      have := (List.getElem?_eq_some_iff.1 hj).1
      rw [headerBytes_length]; omega)
    types := fun B h1 h2 => u.at (r.types B h1 h2) (by omega)
    constants := fun B h1 h2 => u.at (r.constants B h1 h2) (by omega)
    ranges := fun B h1 h2 => u.at (r.ranges B h1 h2) (by omega)
    segs := fun j s hj => by
      obtain ⟨w, hw⟩ := r.segs j s hj
      refine ⟨?_, hw⟩
      have h1 := foldl_take_le segs o.segments (j + 1)
      have h2 := foldl_ge (segs.take j) o.segments
      generalize hd : Clip.segmentData n nv (Clip.base + (segs.take j).foldl segEnd o.segments) = d at *
      have e1 : d.1 = Clip.base + (segs.take j).foldl segEnd o.segments := by rw [← hd]; rfl
      have e2 : d.2.1 = alignUp (d.1 + nv) 2 := by rw [← hd]; rfl
      have e3 : d.2.2 = alignUp (d.2.1 + if n > 1 then 6 * nv else 0) 4 := by
        rw [← hd]; unfold Clip.segmentData; simp only [Nat.one_mul]
      have f2 := alignUp_le (d.1 + nv) 2 (by omega)
      have f3 := alignUp_le (d.2.1 + if n > 1 then 6 * nv else 0) 4 (by omega)
      refine w.mono u (by omega) ?_ (by omega)
      rcases hab with hab | hab
      · right; omega
      · left
        generalize (if n > 1 then 6 * nv else 0) = R at *
        omega }

end Acl.Rewrite
