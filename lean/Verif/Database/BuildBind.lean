import Verif.Context.Database
import Verif.Database.BuildPlace
import Verif.Props.C50
/-
A decompression context bound to a clip and a database context: what it reads of the clip, and that the database context knows it.
-/
namespace Acl.DbBuild
open Acl.Chunks Acl.Runtime Acl.Transform Acl.Tiers Acl.Rewrite Acl.Headers Acl.Context Acl.DbBuffer

/-- Specification: a context of the database knows its clips, whatever chunks are in: `database_context::contains` finds them; and a context can be initialized with it. -/
def Knows (outs : List (List (BitVec 8))) (db : List (BitVec 8)) (bulk : Nat → List (BitVec 8)) : Prop :=
  (∃ D, databaseOf db = some D ∧ D.isValid = true) ∧ ∀ events, Legal db bulk events → ∀ headers, streamed false db events = some headers → ∀ m' ∈ outs,
  ∀ (supported : Nat → Bool) (t : Tracks) (w : World) (d b : Nat), tracksOf supported m' = some t → (w.contexts d).db = some b →
    (w.contexts d).headers = headers → databaseOf db = some (w.databases b) → Context.contains w d t = some true

/-- What a decompression context reads of a clip `m'` of a database made from the clip `x`. -/
structure Readable (x : Input) (supported : Nat → Bool) (m' : List (BitVec 8)) (t : Tracks) : Prop where
  valid : t.isValid = true
  version : t.isVersionSupported = supported 10
  numTracks : t.numTracks = x.c.bones.length
  clip : t.clip = C50.clipOf x.c x.f
  database : t.hasDatabase = true
  /-- what seek reads of the clip itself -/
  seek : ∃ sc p, readSeekClip m' = some sc ∧ Clip.field m' 8 = some p ∧ load32 m' (Clip.base + p) = some t.clipHeaderOffset ∧
    sc = ⟨t.clip.numSamples, t.numSegments, t.startIndices, true, t.sampleIndices, none⟩

variable {E : Type} {c : ClipSource} {f : ClipFlags} {high : List (Frame E)} {k cho : Nat} {m : List (BitVec 8)}

theorem DbClipIs.tracksOf (h : DbClipIs c f high k cho m) (hc : ClipOk c) (hv : tracksIsValid m true false = some .ok) (supported : Nat → Bool) :
    ∃ t, Context.tracksOf supported m = some t ∧ t.isValid = true ∧ t.isVersionSupported = supported 10 ∧ t.numTracks = c.bones.length ∧
      t.clip = C50.clipOf c f ∧ t.hasDatabase = true ∧ t.hash = hash32 (m.drop 8) ∧ t.clipHeaderOffset = BitVec.ofNat 32 cho ∧
      ∃ sc p, readSeekClip m = some sc ∧ Clip.field m 8 = some p ∧ load32 m (Clip.base + p) = some t.clipHeaderOffset ∧
        sc = ⟨t.clip.numSamples, t.numSegments, t.startIndices, true, t.sampleIndices, none⟩ := by
  obtain ⟨starts, masks, hsc, -⟩ := DbClipIs.seekClip h hc
  obtain ⟨b, st, md, hb⟩ := h.header
  obtain ⟨p, hp, ho⟩ := h.db
  obtain ⟨g1, g2, g3, g4, g5, g6⟩ := newMisc_flags c f b st md b
  have hN := hc.numSamples
  have hB := hc.bones
  have hw := (C50.misc_more c f b).2.1
  unfold Context.tracksOf
  rw [hb, Option.bind_some, h.hash, Option.bind_some, hv, Option.bind_some, hsc, Option.bind_some]
  dsimp only
  rw [g3, if_pos rfl, hp, Option.bind_some, ho, Option.bind_some]
  have n1 : (c.header f).numSamples.toNat = c.numSamples := by
    unfold ClipSource.header
    dsimp only
    rw [BitVec.toNat_ofNat, Nat.mod_eq_of_lt (by omega)]
  refine ⟨_, rfl, rfl, rfl, ?_, ?_, rfl, rfl, rfl, _, p, rfl, rfl, ho, ?_⟩
  · unfold ClipSource.header
    dsimp only
    rw [BitVec.toNat_ofNat, Nat.mod_eq_of_lt hB.2]
  · unfold C50.clipOf
    dsimp only
    rw [n1, g6, hw]
    rfl
  · dsimp only
    rw [n1]

variable {xs : List Input} {outs : List (List (BitVec 8))} {max wantLow wantMedium : Nat} {content : DbBuffer.Content} {clips : List (Tiers.Clip E)}
  {d : Runtime.Tiers E} {dbClips : List DbClip} {value : BitVec 32 → E}

theorem valid_unchecked {m : List (BitVec 8)} (h : tracksIsValid m true true = some .ok) : tracksIsValid m true false = some .ok := by
  unfold tracksIsValid at h ⊢
  simp only [Bool.not_true, Bool.false_eq_true, if_false, Option.bind_eq_bind, if_true, Option.bind_eq_some_iff] at h ⊢
  obtain ⟨tag, h1, h⟩ := h
  refine ⟨tag, h1, ?_⟩
  split at h
  · simp at h
  next hn =>
  rw [if_neg hn]
  simp only [Option.bind_eq_some_iff] at h ⊢
  obtain ⟨algo, h2, h⟩ := h
  refine ⟨algo, h2, ?_⟩
  split at h
  · simp at h
  next hn =>
  rw [if_neg hn]
  simp only [Option.bind_eq_some_iff] at h ⊢
  obtain ⟨ver, h3, h⟩ := h
  refine ⟨ver, h3, ?_⟩
  split at h
  · simp at h
  next hn =>
  rw [if_neg hn]
  rfl

theorem represents_database {m : List (BitVec 8)} {v : View} (h : Represents m v) : ∃ D, databaseOf m = some D ∧ D.isValid = true := by
  have hv := h.valid
  unfold databaseIsValid at hv
  simp only [Bool.not_true, Bool.false_eq_true, if_false, Option.bind_eq_bind, if_true, Option.bind_eq_some_iff] at hv
  obtain ⟨tag, h1, hv⟩ := hv
  split at hv
  · simp at hv
  next hn1 =>
  simp only [Option.bind_eq_some_iff] at hv
  obtain ⟨ver, h2, hv⟩ := hv
  split at hv
  · simp at hv
  next hn2 =>
  simp only [Option.bind_eq_some_iff] at hv
  obtain ⟨size, h3, stored, h4, hv⟩ := hv
  have hok : databaseIsValid m true false = some .ok := by
    unfold databaseIsValid
    simp only [Bool.not_true, Bool.false_eq_true, if_false, Option.bind_eq_bind]
    rw [h1, Option.bind_some, if_neg hn1, h2, Option.bind_some, if_neg hn2]
    rfl
  unfold databaseOf
  rw [h4, Option.bind_some, hok, Option.bind_some, h.isInline, Option.bind_some, h.numClips, Option.bind_some, h.numSegments, Option.bind_some]
  exact ⟨_, rfl, rfl⟩

theorem Made.readable (h : Made xs max wantLow wantMedium outs content clips d high dbClips) (hout : ∀ m' ∈ outs, m'.length < 2 ^ 32)
    (hval : ∀ m' ∈ outs, tracksIsValid m' true true = some .ok) (supported : Nat → Bool) {k : Nat} {x : Input} {m' : List (BitVec 8)}
    (hx : xs[k]? = some x) (hm : outs[k]? = some m') : ∃ t, Context.tracksOf supported m' = some t ∧ Readable x supported m' t := by
  have hmem := List.mem_of_getElem? hm
  have hin := h.inDb k x m' hx hm (hout m' hmem)
  obtain ⟨t, t1, t2, t3, t4, t5, t6, -, -, t7⟩ := DbClipIs.tracksOf hin.result hin.input.compressed.clip (valid_unchecked (hval m' hmem)) supported
  exact ⟨t, t1, t2, t3, t4, t5, t6, t7⟩

theorem Made.knows (h : Made xs max wantLow wantMedium outs content clips d high dbClips) (hsmall : Context.runtimeSize dbClips < 2 ^ 32)
    (hbulk : ∀ t, t < 2 → (d.memory t).length < 2 ^ 32) (hout : ∀ m' ∈ outs, m'.length < 2 ^ 32) (hval : ∀ m' ∈ outs, tracksIsValid m' true true = some .ok)
    {db : List (BitVec 8)} {bulk : Nat → List (BitVec 8)} {v : View} (hs : Serves d dbClips db bulk v) : Knows outs db bulk := by
  refine ⟨represents_database hs.represents, ?_⟩
  intro events hl headers hh m' hmem supported t w dd b ht hb hhd hdb
  obtain ⟨headers', h1, h2⟩ := hs.streamed h.chunks hsmall hbulk false events hl (by simp)
  rw [hh, Option.some.injEq] at h1
  subst h1
  obtain ⟨k, hm⟩ := List.mem_iff_getElem?.1 hmem
  have hkl : k < xs.length := by rw [← h.length]; exact (List.getElem?_eq_some_iff.1 hm).1
  have hkd : k < dbClips.length := by rw [h.dbLength]; exact hkl
  have hin := h.inDb k _ m' (List.getElem?_eq_getElem hkl) hm (hout m' hmem)
  obtain ⟨t', t1, t2, t3, t4, t5, t6, t7, t8, t9⟩ := DbClipIs.tracksOf hin.result hin.input.compressed.clip (valid_unchecked (hval m' hmem)) supported
  rw [ht, Option.some.injEq] at t1
  subst t1
  have hholds := h2.holds.2 k hkd
  have hsize := C40.size_take_le dbClips k hkd
  have hhash := (h.hash k m' _ hm (List.getElem?_eq_getElem hkd)).1
  have hns : dbClips[k].numSegments = (xs[k]'hkl).c.segments.length := by
    obtain ⟨clip, q1, q2, -⟩ := hin.clip
    rw [List.getElem?_eq_getElem hkd, Option.some.injEq] at q1
    rw [q1, q2]
  have hpos := segments_pos hin.input.compressed.clip
  have hlen : v.clips.length = dbClips.length := by rw [hs.clips, List.length_map, clipMetadata_length]
  have hD : (w.databases b).numClips = BitVec.ofNat 32 dbClips.length ∧ (w.databases b).numSegments = BitVec.ofNat 32 (dbClips.map (·.numSegments)).sum := by
    unfold databaseOf at hdb
    simp only [Option.bind_eq_some_iff, hs.represents.numClips, hs.represents.numSegments, hs.numSegments, hlen] at hdb
    obtain ⟨_, -, _, -, _, -, nc, e1, ns, e2, e3⟩ := hdb
    rw [Option.some.injEq] at e1 e2 e3
    rw [← e3, ← e1, ← e2]
    exact ⟨rfl, rfl⟩
  have hrt : Context.runtimeSize dbClips = 8 * dbClips.length + 16 * (dbClips.map (·.numSegments)).sum := rfl
  unfold Context.contains
  dsimp only
  rw [hb]
  dsimp only
  rw [t6, hhd, t8, hD.1, hD.2]
  have hc : (BitVec.ofNat 32 (Context.runtimeSize (dbClips.take k))).toNat = Context.runtimeSize (dbClips.take k) := DbBuffer.ofNat_toNat _ (by omega)
  have hl8 : BitVec.ofNat 32 dbClips.length * 8#32 + BitVec.ofNat 32 (dbClips.map (·.numSegments)).sum * 16#32 - 16#32 =
      BitVec.ofNat 32 (Context.runtimeSize dbClips - 16) := by
    apply BitVec.eq_of_toNat_eq
    rw [hrt]
    simp only [BitVec.toNat_sub, BitVec.toNat_add, BitVec.toNat_mul, BitVec.toNat_ofNat]
    omega
  rw [hl8]
  rw [if_neg (by simp), if_neg, if_neg]
  · simp only [Option.bind_eq_bind, hc]
    rw [hholds, Option.bind_some, t7, hhash]
    simp
  · rw [GT.gt, BitVec.lt_def, hc, DbBuffer.ofNat_toNat _ (by omega)]
    omega
  · intro he
    have := congrArg BitVec.toNat he
    rw [hc] at this
    have e : (0xFFFFFFFF#32).toNat = 4294967295 := rfl
    omega

end Acl.DbBuild
