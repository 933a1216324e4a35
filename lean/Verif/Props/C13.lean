import Verif.Transform.SubTracksLemmas
/-!
C13: the sub-track type table written by the compressor is what the decompressor reads.
Specification vocabulary: `Class`, `classOf`, `code`, `kindBase`, `flagsOf`, `indicesOf` below.
-/
namespace Acl.C13
open Acl.Transform

/-- Specification: a sub-track is default, constant (and not default) or animated. -/
inductive Class where | default | constant | animated
  deriving DecidableEq, Repr

/-- Specification: the class of a sub-track from the flags of its stream (default wins over constant). -/
def classOf : StreamFlags → Class
  | ⟨true, _⟩ => .default
  | ⟨false, true⟩ => .constant
  | ⟨false, false⟩ => .animated

/-- Specification: the 2 bit code of a class. -/
def code : Class → BitVec 32
  | .default => 0
  | .constant => 1
  | .animated => 2

/-- Specification: the indices of the sub-tracks of class `c`, in increasing order. -/
def indicesOf (fs : List StreamFlags) (c : Class) : List Nat :=
  (List.range fs.length).filter (fun i => (fs[i]?.map classOf) = some c)

theorem packedType_eq (f : StreamFlags) : packedType f = code (classOf f) := by
  rcases f with ⟨_ | _, _ | _⟩ <;> rfl

theorem typeAt_eq (fs : List StreamFlags) (i : Nat) (hi : i < fs.length) : typeAt fs i = code (classOf fs[i]) := by
  unfold typeAt; rw [List.getElem?_eq_getElem hi]; exact packedType_eq _

theorem code_inj (c d : Class) : code c = code d ↔ c = d := by
  cases c <;> cases d <;> decide

/-- `decompress_track` finds for every track the class the compressor recorded, for the three kinds; without
scale the scale is reported default. -/
theorem C13_type_round_trip (hasScale : Bool) (r t s : List StreamFlags) (hrt : t.length = r.length)
    (hrs : s.length = r.length) (i : Nat) (hi : i < r.length) :
    subTrackTypes (writePackedSubTrackTypes hasScale r t s) hasScale r.length i =
      some (code (classOf r[i]), code (classOf t[i]),
        if hasScale then code (classOf s[i]) else code .default) := by
  obtain ⟨R, T, S, hR, hT, hS, he⟩ := writePacked_tables hasScale r t s
  unfold subTrackTypes
  dsimp only
  have hlR := hR.1
  have hlT := hT.1
  have hlS := hS.1
  rw [hrt] at hlT
  rw [hrs] at hlS
  have h1 : subTrackType (writePackedSubTrackTypes hasScale r t s) 0 i = some (typeAt r i) :=
    subTrackType_spec hR (fun k hk => by
      rw [he, Nat.zero_add, List.getElem?_append_left (by simp; omega), List.getElem?_append_left hk]) i hi
  have h2 : subTrackType (writePackedSubTrackTypes hasScale r t s) (numSubTrackEntries r.length) i = some (typeAt t i) :=
    subTrackType_spec hT (fun k hk => by
      rw [he, List.getElem?_append_left (by simp; omega), List.getElem?_append_right (by omega)]
      congr 1; omega) i (by omega)
  rw [h1, h2]
  cases hasScale with
  | true =>
    have h3 : subTrackType (writePackedSubTrackTypes true r t s)
        (numSubTrackEntries r.length + numSubTrackEntries r.length) i = some (typeAt s i) :=
      subTrackType_spec hS (fun k hk => by
        rw [he, List.getElem?_append_right (by simp; omega)]
        simp only [if_true]
        congr 1; simp; omega) i (by omega)
    simp only [if_true]
    rw [h3]
    simp only
    rw [typeAt_eq r i hi, typeAt_eq t i (by omega), typeAt_eq s i (by omega)]
    cases classOf s[i] <;> rfl
  | false =>
    simp only [Bool.false_eq_true, if_false]
    rw [h1]
    simp only
    rw [typeAt_eq r i hi, typeAt_eq t i (by omega)]
    simp [code]

/-- The table has one entry of 16 tracks per kind that is present, rounded up. -/
theorem C13_table_size (hasScale : Bool) (r t s : List StreamFlags) (hrt : t.length = r.length)
    (hrs : s.length = r.length) :
    (writePackedSubTrackTypes hasScale r t s).length = (if hasScale then 3 else 2) * ((r.length + 15) / 16) := by
  obtain ⟨R, T, S, hR, hT, hS, he⟩ := writePacked_tables hasScale r t s
  rw [he]
  have h1 := hR.1
  have h2 := hT.1
  have h3 := hS.1
  rw [hrt] at h2
  rw [hrs] at h3
  unfold numSubTrackEntries at *
  cases hasScale <;> simp <;> omega

/-- Where the table of a kind begins. -/
def kindBase (numTracks : Nat) : Kind → Nat
  | .rotation => 0
  | .translation => numSubTrackEntries numTracks
  | .scale => 2 * numSubTrackEntries numTracks

/-- The flags of a kind. -/
def flagsOf (r t s : List StreamFlags) : Kind → List StreamFlags
  | .rotation => r
  | .translation => t
  | .scale => s

theorem kind_table (hasScale : Bool) (r t s : List StreamFlags) (hrt : t.length = r.length)
    (hrs : s.length = r.length) (kind : Kind) (hk : kind = .scale → hasScale = true) :
    ∃ T, TableOf T (flagsOf r t s kind) ∧ (flagsOf r t s kind).length = r.length ∧ ∀ k, k < T.length →
      (writePackedSubTrackTypes hasScale r t s)[kindBase r.length kind + k]? = T[k]? := by
  obtain ⟨R, T, S, hR, hT, hS, he⟩ := writePacked_tables hasScale r t s
  have hlR := hR.1
  have hlT := hT.1
  have hlS := hS.1
  rw [hrt] at hlT
  rw [hrs] at hlS
  cases kind with
  | rotation =>
    refine ⟨R, hR, rfl, fun k hk => ?_⟩
    rw [he, kindBase, Nat.zero_add, List.getElem?_append_left (by simp; omega), List.getElem?_append_left hk]
  | translation =>
    refine ⟨T, hT, hrt, fun k hk => ?_⟩
    rw [he, kindBase, List.getElem?_append_left (by simp; omega), List.getElem?_append_right (by omega)]
    congr 1; omega
  | scale =>
    refine ⟨S, hS, hrs, fun k hk' => ?_⟩
    rw [he, hk rfl, kindBase, List.getElem?_append_right (by simp; omega)]
    simp only [if_true]
    congr 1; simp; omega

/-- Record the tracks a walk visits. -/
def record (visited : List Nat) (track : Nat) : Option (List Nat) := some (visited ++ [track])

/-- The tracks visited by the walk of `decompress_tracks` for a kind and class. -/
def visit (types : List (BitVec 32)) (numTracks : Nat) (kind : Kind) : Class → Option (List Nat)
  | .default => visitEntries types (kindBase numTracks kind)
      (selectDefault (numSubTrackEntries numTracks - 1) (paddingMask numTracks)) 0xAA000000#32 highLanes
      some some record (numSubTrackEntries numTracks) 0 []
  | .constant => visitEntries types (kindBase numTracks kind) (fun _ => selectConstant) 0x55000000#32 lowLanes
      some some record (numSubTrackEntries numTracks) 0 []
  | .animated => visitEntries types (kindBase numTracks kind) (fun _ => selectAnimated) 0xAA000000#32 highLanes
      some some record (numSubTrackEntries numTracks) 0 []

theorem sweepTracks_record (sel : Nat → Bool) (ts : List Nat) (L : List Nat) :
    sweepTracks sel record ts L = some (L ++ ts.filter sel) := by
  induction ts generalizing L with
  | nil => simp [sweepTracks]
  | cons t ts ih =>
    rw [sweepTracks]
    cases h : sel t <;> simp [h, record, ih]

theorem sweepGroups_record (sel : Nat → Bool) (c t : Nat) (L : List Nat) :
    sweepGroups sel some record c t L = some (L ++ (List.range' t (4 * c)).filter sel) := by
  induction c generalizing t L with
  | zero => simp [sweepGroups]
  | succ c ih =>
    have hr : List.range' t (4 * (c + 1)) = [t, t + 1, t + 2, t + 3] ++ List.range' (t + 4) (4 * c) := by
      rw [show 4 * (c + 1) = 4 * c + 4 by omega]
      simp [List.range'_succ]
    rw [sweepGroups, hr, List.filter_append]
    split
    · simp only [Option.bind_some]
      rw [sweepTracks_record, Option.bind_some, ih]
      simp
    · rename_i h
      simp only [Bool.not_eq_true, Bool.or_eq_false_iff] at h
      rw [ih]
      simp [h]

theorem sweepEntries_record (sel : Nat → Bool) (c e : Nat) (L : List Nat) :
    sweepEntries sel some some record c e L = some (L ++ (List.range' (16 * e) (16 * c)).filter sel) := by
  induction c generalizing e L with
  | zero => simp [sweepEntries]
  | succ c ih =>
    rw [sweepEntries, Option.bind_some, sweepGroups_record, Option.bind_some, ih]
    have hr : List.range' (16 * e) (16 * (c + 1)) = List.range' (e * 16) (4 * 4) ++ List.range' (16 * (e + 1)) (16 * c) := by
      rw [show 16 * (c + 1) = 16 + 16 * c by omega, ← List.range'_append, Nat.mul_comm e 16]
      rw [Nat.mul_add]
    rw [hr, List.filter_append, List.append_assoc]

theorem filter_range'_eq (sel : Nat → Bool) (n m : Nat) (hnm : n ≤ m) (h : ∀ i, n ≤ i → sel i = false) :
    (List.range' 0 m).filter sel = (List.range n).filter sel := by
  rw [List.range_eq_range', show m = n + (m - n) by omega, ← List.range'_append, List.filter_append]
  have : (List.range' (0 + 1 * n) (m - n)).filter sel = [] := by
    rw [List.filter_eq_nil_iff]
    intro a ha
    rw [List.mem_range'_1] at ha
    rw [h a (by omega)]; simp
  rw [this, List.append_nil]

/-- Walking the table of a kind for a class visits exactly the sub-tracks the compressor recorded with that
class, once each, in increasing order, whatever the number of tracks (in particular the padding of the last
entry is never visited). -/
theorem C13_walk_visits_class (hasScale : Bool) (r t s : List StreamFlags) (hrt : t.length = r.length)
    (hrs : s.length = r.length) (kind : Kind) (hk : kind = .scale → hasScale = true) (c : Class) :
    visit (writePackedSubTrackTypes hasScale r t s) r.length kind c =
      some (indicesOf (flagsOf r t s kind) c) := by
  obtain ⟨T, hT, hlen, hget⟩ := kind_table hasScale r t s hrt hrs kind hk
  generalize writePackedSubTrackTypes hasScale r t s = types at *
  generalize flagsOf r t s kind = fs at *
  rw [← hlen] at hget ⊢
  have hentry : ∀ k, 0 ≤ k → k < 0 + numSubTrackEntries fs.length → ∃ e, types[kindBase fs.length kind + k]? = some e ∧
      EntryOf e fs k := by
    intro k _ hk
    have hk' : k < T.length := by rw [hT.1]; omega
    exact ⟨T[k], by rw [hget k hk', List.getElem?_eq_getElem hk'], hT.2 k _ (List.getElem?_eq_getElem hk')⟩
  have hfin : ∀ sel : Nat → Bool, (∀ i, sel i = decide (i < fs.length ∧ typeAt fs i = code c)) →
      sweepEntries sel some some record (numSubTrackEntries fs.length) 0 [] = some (indicesOf fs c) := by
    intro sel hsel
    rw [sweepEntries_record, List.nil_append, Nat.mul_zero, filter_range'_eq sel fs.length]
    · unfold indicesOf
      congr 1
      apply List.filter_congr
      intro i hi
      have hi' := List.mem_range.1 hi
      rw [hsel i, typeAt_eq fs i hi', List.getElem?_eq_getElem hi']
      simp [hi', code_inj]
    · unfold numSubTrackEntries; omega
    · intro i hi
      rw [hsel i, decide_eq_false (by omega)]
  have hpad : ∀ i, fs.length ≤ i → typeAt fs i = 0 := fun i hi => typeAt_ge fs i hi
  cases c with
  | default =>
    dsimp only [visit]
    rw [visitEntries_eq (fun i => decide (i < fs.length ∧ typeAt fs i = 0)) (b := 1) (by decide) highMasks]
    · exact hfin _ (fun i => rfl)
    · intro k h0 hk
      obtain ⟨e, he, hE⟩ := hentry k h0 hk
      exact ⟨e, he, fun j hj => selectDefault_bits hE (by omega) j hj⟩
  | constant =>
    dsimp only [visit]
    rw [visitEntries_eq (fun i => decide (typeAt fs i = 1)) (b := 0) (by decide) lowMasks]
    · apply hfin
      intro i
      by_cases hi : i < fs.length
      · simp [hi, code]
      · rw [hpad i (by omega)]; simp [hi]
    · intro k h0 hk
      obtain ⟨e, he, hE⟩ := hentry k h0 hk
      exact ⟨e, he, fun j hj => selectConstant_bits hE j hj⟩
  | animated =>
    dsimp only [visit]
    rw [visitEntries_eq (fun i => decide (typeAt fs i = 2)) (b := 1) (by decide) highMasks]
    · apply hfin
      intro i
      by_cases hi : i < fs.length
      · simp [hi, code]
      · rw [hpad i (by omega)]; simp [hi]
    · intro k h0 hk
      obtain ⟨e, he, hE⟩ := hentry k h0 hk
      exact ⟨e, he, fun j hj => selectAnimated_bits hE j hj⟩

/-- The bits `decompress_track` masks a class with. -/
def classMask : Class → BitVec 32
  | .default => 0#32
  | .constant => 0x55555555#32
  | .animated => 0xAAAAAAAA#32

/-- `decompress_track` counts exactly the constant (animated) sub-tracks of a kind that come before a track. -/
theorem C13_counts_before (hasScale : Bool) (r t s : List StreamFlags) (hrt : t.length = r.length)
    (hrs : s.length = r.length) (kind : Kind) (hk : kind = .scale → hasScale = true) (c : Class)
    (hc : c ≠ .default) (i : Nat) (hi : i < r.length) (hbig : r.length ≤ 2 ^ 32) :
    (countBefore (writePackedSubTrackTypes hasScale r t s) (kindBase r.length kind) i 0xFFFFFFFF#32 (classMask c)
      (i / 16 + 1) 0 0).map BitVec.toNat = some (indicesOf ((flagsOf r t s kind).take i) c).length := by
  obtain ⟨T, hT, hlen, hget⟩ := kind_table hasScale r t s hrt hrs kind hk
  generalize writePackedSubTrackTypes hasScale r t s = types at *
  generalize flagsOf r t s kind = fs at *
  rw [← hlen] at hget hi hbig ⊢
  have key : ∀ b, ClassMask (classMask c) b → (∀ j, (typeAt fs j).getLsbD b = decide (typeAt fs j = code c)) →
      (countBefore types (kindBase fs.length kind) i 0xFFFFFFFF#32 (classMask c)
        (i / 16 + 1) 0 0).map BitVec.toNat = some (indicesOf (fs.take i) c).length := by
    intro b hm hbit
    obtain ⟨x, hx, hv⟩ := countBefore_spec hT hget hm i hi (by omega)
    rw [hx, Option.map_some, hv]
    unfold countBelow indicesOf
    rw [List.countP_eq_length_filter, List.length_take, Nat.min_eq_left (by omega)]
    congr 2
    apply List.filter_congr
    intro j hj
    have hj' := List.mem_range.1 hj
    rw [hbit j, typeAt_eq fs j (by omega), List.getElem?_take_of_lt hj', List.getElem?_eq_getElem (by omega)]
    simp [code_inj]
  cases c with
  | default => exact absurd rfl hc
  | constant => exact key 0 constantMask (typeAt_bit0 fs)
  | animated => exact key 1 animatedMask (typeAt_bit1 fs)

/-- Every sub-track is visited by exactly one of the three walks. -/
theorem C13_each_track_once (fs : List StreamFlags) :
    (indicesOf fs .default ++ indicesOf fs .constant ++ indicesOf fs .animated).Perm (List.range fs.length) := by
  have h : ∀ L : List Nat, (∀ i ∈ L, i < fs.length) →
      (L.filter (fun i => (fs[i]?.map classOf) = some Class.default) ++
       L.filter (fun i => (fs[i]?.map classOf) = some Class.constant) ++
       L.filter (fun i => (fs[i]?.map classOf) = some Class.animated)).Perm L := by
    intro L
    induction L with
    | nil => intro _; simp
    | cons i L ih =>
      intro hL
      have hi := hL i (by simp)
      have ih := ih (fun j hj => hL j (by simp [hj]))
      have hcl : (fs[i]?.map classOf) = some (classOf fs[i]) := by rw [List.getElem?_eq_getElem hi]; rfl
      simp only [List.filter_cons, hcl]
      cases classOf fs[i]
      · simpa using ih
      · simp only [decide_true, if_true, reduceCtorEq, decide_false, Bool.false_eq_true, if_false, Option.some.injEq]
        rw [List.append_assoc, List.cons_append]
        refine List.Perm.trans List.perm_middle ?_
        rw [← List.append_assoc]
        exact List.Perm.cons _ ih
      · simp only [decide_true, if_true, reduceCtorEq, decide_false, Bool.false_eq_true, if_false, Option.some.injEq]
        refine List.Perm.trans List.perm_middle ?_
        exact List.Perm.cons _ ih
  exact h _ (fun i hi => List.mem_range.1 hi)

/-- Non vacuity: 18 tracks (two entries, the second one padded) with every class. -/
def sample : List StreamFlags :=
  (List.range 18).map (fun i => if i % 3 = 0 then ⟨true, true⟩ else if i % 3 = 1 then ⟨false, true⟩ else ⟨false, false⟩)

example : sample.length = 18 ∧ indicesOf sample .default = [0, 3, 6, 9, 12, 15] ∧
    indicesOf sample .animated = [2, 5, 8, 11, 14, 17] ∧
    visit (writePackedSubTrackTypes true sample sample sample) 18 .scale .default = some [0, 3, 6, 9, 12, 15] ∧
    subTrackTypes (writePackedSubTrackTypes true sample sample sample) true 18 17 = some (2, 2, 2) := by
  decide +kernel

end Acl.C13
