import Verif.Transform.ConstantCacheReader
/-!
C16: the constant samples the compressor writes are those both readers of the decompressor return.
Specification vocabulary: `StoredConstant`, `rotationsOf`, `translationsOf`, `scalesOf`, `asLoaded` below.
-/
namespace Acl.C16
open Acl.Transform

/-- Specification: a sub-track is stored as a constant when it is constant and not default. -/
def StoredConstant (f : StreamFlags) : Bool := f.isConstant && !f.isDefault

/-- Specification: the constant rotations of a clip, in track order. -/
def rotationsOf (bones : List ConstBone) : List Vec4 := (bones.filter (StoredConstant ·.rotation)).map (·.rotationSample)
/-- Specification: the constant translations of a clip, in track order. -/
def translationsOf (bones : List ConstBone) : List Vec3 := (bones.filter (StoredConstant ·.translation)).map (·.translationSample)
/-- Specification: the constant scales of a clip, in track order. -/
def scalesOf (bones : List ConstBone) : List Vec3 := (bones.filter (StoredConstant ·.scale)).map (·.scaleSample)

/-- Specification: a rotation keeps its four components in the full format and the first three otherwise. -/
def asLoaded (fmt : RotationFormat) (v : Vec4) : Quat :=
  match fmt with
  | .quatfFull => .full v
  | _ => .dropW ⟨v.x, v.y, v.z⟩

/-- Specification: bytes per rotation. -/
def rotationBytes : RotationFormat → Nat
  | .quatfFull => 16
  | _ => 12

/-- Is the format the one the reader tests for? -/
def isFull (fmt : RotationFormat) : Bool := fmt = .quatfFull

theorem stored_eq (f : StreamFlags) : isStoredConstant f = StoredConstant f := by
  unfold isStoredConstant StoredConstant; exact Bool.and_comm _ _

theorem filter_rot (bones : List ConstBone) :
    (bones.filter (fun b => isStoredConstant b.rotation)).map ConstBone.rotationSample = rotationsOf bones := by
  unfold rotationsOf; simp only [stored_eq]

theorem rotBytes_eq (fmt : RotationFormat) : rotSize (isFull fmt) = rotationBytes fmt := by cases fmt <;> rfl

/-- The bytes of the rotations. -/
theorem rot_bytes (fmt : RotationFormat) (bones : List ConstBone) :
    writeConstantRotations (rotationVariant fmt = .dropW) bones =
      if isFull fmt then (rotationsOf bones).flatMap (fun v => floatBytes [v.x, v.y, v.z, v.w]) else soaBytes (rotationsOf bones) := by
  cases fmt with
  | quatfFull =>
    have : (decide (rotationVariant .quatfFull = .dropW)) = false := by decide
    rw [this]
    unfold writeConstantRotations
    rw [if_neg (by decide), if_pos (by decide)]
    rw [foldl_append_filter (fun b => isStoredConstant b.rotation)
      (fun b => floatBytes [b.rotationSample.x, b.rotationSample.y, b.rotationSample.z, b.rotationSample.w]), List.nil_append,
      ← filter_rot, List.flatMap_map]
  | dropWFull =>
    have : (decide (rotationVariant .dropWFull = .dropW)) = true := by decide
    rw [this, writeConstantRotations_dropW, filter_rot, if_neg (by decide)]
  | dropWVariable =>
    have : (decide (rotationVariant .dropWVariable = .dropW)) = true := by decide
    rw [this, writeConstantRotations_dropW, filter_rot, if_neg (by decide)]

theorem rot_length (fmt : RotationFormat) (bones : List ConstBone) :
    (writeConstantRotations (rotationVariant fmt = .dropW) bones).length = rotationBytes fmt * (rotationsOf bones).length := by
  rw [rot_bytes, ← rotBytes_eq]
  cases isFull fmt with
  | true =>
    rw [if_pos rfl, records_length 4 (fun v : Vec4 => [v.x, v.y, v.z, v.w]) (fun _ => rfl)]; rfl
  | false => rw [if_neg (by decide), soaBytes_length]; rfl

theorem trans_bytes (bones : List ConstBone) :
    writeConstantTranslations bones = (translationsOf bones).flatMap (fun v => floatBytes [v.x, v.y, v.z]) := by
  unfold writeConstantTranslations translationsOf
  rw [foldl_append_filter (fun b => isStoredConstant b.translation)
      (fun b => floatBytes [b.translationSample.x, b.translationSample.y, b.translationSample.z]), List.nil_append,
      List.flatMap_map]
  simp only [stored_eq]

theorem scale_bytes (bones : List ConstBone) :
    writeConstantScales bones = (scalesOf bones).flatMap (fun v => floatBytes [v.x, v.y, v.z]) := by
  unfold writeConstantScales scalesOf
  rw [foldl_append_filter (fun b => isStoredConstant b.scale)
      (fun b => floatBytes [b.scaleSample.x, b.scaleSample.y, b.scaleSample.z]), List.nil_append,
      List.flatMap_map]
  simp only [stored_eq]

/-- The amount of data written is what the header counts say. -/
theorem C16_size (fmt : RotationFormat) (hasScale : Bool) (bones : List ConstBone) :
    (writeConstantTrackData fmt hasScale bones).length =
      rotationBytes fmt * (rotationsOf bones).length + 12 * (translationsOf bones).length +
        (if hasScale then 12 * (scalesOf bones).length else 0) := by
  unfold writeConstantTrackData
  rw [List.length_append, List.length_append, rot_length, trans_bytes,
    records_length 3 (fun v : Vec3 => [v.x, v.y, v.z]) (fun _ => rfl)]
  cases hasScale
  · simp
  · rw [if_pos rfl, if_pos rfl, scale_bytes, records_length 3 (fun v : Vec3 => [v.x, v.y, v.z]) (fun _ => rfl)]

/-- A clip that holds the constant data of `bones` at `start`, followed by at least `tail` bytes (other
sections or the padding at the end of a clip). -/
structure Stored (m : List (BitVec 8)) (start : Nat) (fmt : RotationFormat) (hasScale : Bool) (bones : List ConstBone)
    (tail : Nat) : Prop where
  data : ∃ pre post, m = pre ++ writeConstantTrackData fmt hasScale bones ++ post ∧ pre.length = start ∧ tail ≤ post.length

theorem rotationAt_stored {m : List (BitVec 8)} {start : Nat} {fmt : RotationFormat} {hasScale : Bool} {bones : List ConstBone}
    {tail : Nat} (h : Stored m start fmt hasScale bones tail) (k : Nat) (hk : k < (rotationsOf bones).length) :
    rotationAt m start (isFull fmt) (rotationsOf bones).length k = some (asLoaded fmt (rotationsOf bones)[k]) := by
  obtain ⟨pre, post, rfl, rfl, _⟩ := h.data
  unfold writeConstantTrackData
  obtain ⟨rest, hrest⟩ : ∃ rest, rest = writeConstantTranslations bones ++ ((if hasScale then writeConstantScales bones else []) ++ post) := ⟨_, rfl⟩
  have hm : pre ++ (writeConstantRotations (rotationVariant fmt = .dropW) bones ++ writeConstantTranslations bones ++
      (if hasScale then writeConstantScales bones else [])) ++ post =
      pre ++ writeConstantRotations (rotationVariant fmt = .dropW) bones ++ rest := by
    rw [hrest]; simp only [List.append_assoc]
  rw [hm, rot_bytes]
  unfold rotationAt
  cases hf : isFull fmt with
  | true =>
    have hfmt : fmt = .quatfFull := by simpa [isFull] using hf
    subst hfmt
    rw [if_pos rfl, if_pos rfl]
    have key := fun c hc => records_load 4 (fun v : Vec4 => [v.x, v.y, v.z, v.w]) (fun _ => rfl) (rotationsOf bones) pre rest k c hk hc
    have k0 := key 0 (by decide); have k1 := key 1 (by decide); have k2 := key 2 (by decide); have k3 := key 3 (by decide)
    rw [loadVec4_eq (x := (rotationsOf bones)[k].x) (y := (rotationsOf bones)[k].y) (z := (rotationsOf bones)[k].z)
      (w := (rotationsOf bones)[k].w) (by rw [← Nat.add_zero (pre.length + 16 * k)]; exact k0)
      (by rw [Nat.add_assoc]; exact k1) (by rw [Nat.add_assoc]; exact k2) (by rw [Nat.add_assoc]; exact k3)]
    rfl
  | false =>
    rw [if_neg (by decide), if_neg (by decide)]
    rw [soaBytes_load (rotationsOf bones) pre rest k 0 hk (by decide), soaBytes_load (rotationsOf bones) pre rest k 1 hk (by decide),
      soaBytes_load (rotationsOf bones) pre rest k 2 hk (by decide)]
    cases fmt with
    | quatfFull => exact absurd hf (by decide)
    | dropWFull => rfl
    | dropWVariable => rfl

theorem vec3_records {pre post : List (BitVec 8)} {vs : List Vec3} (k : Nat) (hk : k < vs.length) :
    vec3At (pre ++ vs.flatMap (fun v => floatBytes [v.x, v.y, v.z]) ++ post) pre.length k = some vs[k] := by
  have key := fun c hc => records_load 3 (fun v : Vec3 => [v.x, v.y, v.z]) (fun _ => rfl) vs pre post k c hk hc
  have k0 := key 0 (by decide); have k1 := key 1 (by decide); have k2 := key 2 (by decide)
  unfold vec3At
  rw [show pre.length + 12 * k = pre.length + (4 * 3 * k + 4 * 0) by omega, k0,
    show pre.length + (4 * 3 * k + 4 * 0) + 4 = pre.length + (4 * 3 * k + 4 * 1) by omega, k1,
    show pre.length + (4 * 3 * k + 4 * 0) + 8 = pre.length + (4 * 3 * k + 4 * 2) by omega, k2]
  rfl

theorem translationAt_stored {m : List (BitVec 8)} {start : Nat} {fmt : RotationFormat} {hasScale : Bool} {bones : List ConstBone}
    {tail : Nat} (h : Stored m start fmt hasScale bones tail) (k : Nat) (hk : k < (translationsOf bones).length) :
    vec3At m (start + rotationBytes fmt * (rotationsOf bones).length) k = some (translationsOf bones)[k] := by
  obtain ⟨pre, post, rfl, rfl, _⟩ := h.data
  have := vec3_records (pre := pre ++ writeConstantRotations (rotationVariant fmt = .dropW) bones)
    (post := (if hasScale then writeConstantScales bones else []) ++ post) k hk
  rw [← trans_bytes, List.length_append, rot_length] at this
  unfold writeConstantTrackData
  simp only [List.append_assoc] at this ⊢
  exact this

theorem scaleAt_stored {m : List (BitVec 8)} {start : Nat} {fmt : RotationFormat} {bones : List ConstBone}
    {tail : Nat} (h : Stored m start fmt true bones tail) (k : Nat) (hk : k < (scalesOf bones).length) :
    vec3At m (start + rotationBytes fmt * (rotationsOf bones).length + 12 * (translationsOf bones).length) k = some (scalesOf bones)[k] := by
  obtain ⟨pre, post, rfl, rfl, _⟩ := h.data
  have := vec3_records (pre := pre ++ writeConstantRotations (rotationVariant fmt = .dropW) bones ++ writeConstantTranslations bones)
    (post := post) k hk
  rw [← scale_bytes, List.length_append, List.length_append, rot_length, trans_bytes,
    records_length 3 (fun v : Vec3 => [v.x, v.y, v.z]) (fun _ => rfl), ← trans_bytes] at this
  unfold writeConstantTrackData
  rw [if_pos rfl]
  simp only [List.append_assoc] at this ⊢
  exact this

theorem stored_length {m : List (BitVec 8)} {start : Nat} {fmt : RotationFormat} {hasScale : Bool} {bones : List ConstBone}
    {tail : Nat} (h : Stored m start fmt hasScale bones tail) :
    start + rotationBytes fmt * (rotationsOf bones).length + 12 * (translationsOf bones).length +
        (if hasScale then 12 * (scalesOf bones).length else 0) + tail ≤ m.length := by
  obtain ⟨pre, post, rfl, rfl, ht⟩ := h.data
  rw [List.length_append, List.length_append, C16_size]; omega

/-- The reader of a clip, as `initialize` sets it up from the counts in the header. -/
def reader (fmt : RotationFormat) (start : Nat) (bones : List ConstBone) : ConstCache :=
  ConstCache.initialize fmt start (rotationsOf bones).length (translationsOf bones).length

theorem reader_eq (fmt : RotationFormat) (start : Nat) (bones : List ConstBone) :
    reader fmt start bones = ConstCache.init (rotationBytes fmt) start (rotationsOf bones).length (translationsOf bones).length := by
  unfold reader ConstCache.initialize
  cases fmt <;> rfl

/-- `n` calls to `consume_rotation`. -/
def consume : Nat → ConstCache → Option (List Quat × ConstCache)
  | 0, c => some ([], c)
  | n + 1, c => c.consumeRotation.bind fun (q, c) => (consume n c).bind fun (qs, c) => some (q :: qs, c)

/-- A walk over the table: for every entry, unpack then consume its constant rotations. -/
def walk (m : List (BitVec 8)) (full : Bool) : List Nat → ConstCache → Option (List Quat × ConstCache)
  | [], c => some ([], c)
  | n :: ns, c => (c.unpackGroup m full).bind fun c => (consume n c).bind fun (qs, c) =>
      (walk m full ns c).bind fun (qs', c) => some (qs ++ qs', c)

theorem consume_spec {m : List (BitVec 8)} {start N : Nat} {full : Bool} {qs : List Quat} (hN : qs.length = N)
    (hq : ∀ k (h : k < qs.length), rotationAt m start full N k = some qs[k]) : ∀ (n k : Nat) (c : ConstCache),
    CacheInv m start full N k c → k + n ≤ c.write →
      ∃ c', consume n c = some ((qs.drop k).take n, c') ∧ CacheInv m start full N (k + n) c' := by
  intro n
  induction n with
  | zero => intro k c h _; exact ⟨c, by simp [consume], h⟩
  | succ n ih =>
    intro k c h hw
    have hkN : k < qs.length := by have := h.total; omega
    obtain ⟨c1, h1, i1, w1, _⟩ := consumeRotation_spec h (by omega) (hq k hkN)
    obtain ⟨c2, h2, i2⟩ := ih (k + 1) c1 i1 (by omega)
    refine ⟨c2, ?_, by rw [show k + (n + 1) = k + 1 + n by omega]; exact i2⟩
    rw [consume, h1, Option.bind_some]
    dsimp only
    rw [h2, Option.bind_some, List.drop_eq_getElem_cons hkN, List.take_succ_cons]

theorem walk_spec {m : List (BitVec 8)} {start N : Nat} {full : Bool} {qs : List Quat} (hN : qs.length = N)
    (hm : start + rotSize full * N + 12 ≤ m.length)
    (hq : ∀ k (h : k < qs.length), rotationAt m start full N k = some qs[k]) : ∀ (ns : List Nat) (k : Nat) (c : ConstCache),
    CacheInv m start full N k c → (∀ n ∈ ns, n ≤ 16) → k + ns.sum ≤ N →
      ∃ c', walk m full ns c = some ((qs.drop k).take ns.sum, c') := by
  intro ns
  induction ns with
  | nil => intro k c h _ _; exact ⟨c, by simp [walk]⟩
  | cons n ns ih =>
    intro k c h h16 hsum
    rw [List.sum_cons] at hsum
    obtain ⟨c1, h1, i1, w1, _⟩ := unpackGroup_spec hm h
    have := h16 n (by simp)
    obtain ⟨c2, h2, i2⟩ := consume_spec hN hq n k c1 i1 (by omega)
    obtain ⟨c3, h3⟩ := ih (k + n) c2 i2 (fun n hn => h16 n (by simp [hn])) (by omega)
    refine ⟨c3, ?_⟩
    rw [walk, h1, Option.bind_some, h2, Option.bind_some]
    dsimp only
    rw [h3, Option.bind_some, List.sum_cons, List.take_add, List.drop_drop]

/-- Whole pose: however the constant rotations are spread over the entries of the table (at most 16 in each),
the cache hands them out in the order they were written, without reading out of bounds. -/
theorem C16_pose_rotations {m : List (BitVec 8)} {start : Nat} {fmt : RotationFormat} {hasScale : Bool} {bones : List ConstBone}
    (h : Stored m start fmt hasScale bones 12) (perEntry : List Nat) (h16 : ∀ n ∈ perEntry, n ≤ 16)
    (hsum : perEntry.sum = (rotationsOf bones).length) :
    (walk m (isFull fmt) perEntry (reader fmt start bones)).map Prod.fst = some ((rotationsOf bones).map (asLoaded fmt)) := by
  have hl := stored_length h
  obtain ⟨c', hc⟩ := walk_spec (m := m) (start := start) (full := isFull fmt) (qs := (rotationsOf bones).map (asLoaded fmt))
    (N := (rotationsOf bones).length) (by simp) (by rw [rotBytes_eq]; omega)
    (fun k hk => by rw [List.getElem_map]; exact rotationAt_stored h k (by simpa using hk)) perEntry 0 (reader fmt start bones)
    (by rw [reader_eq]; exact init_inv m _ start _ _ _) h16 (by omega)
  rw [hc, Option.map_some, List.drop_zero, hsum, List.take_of_length_le (by simp)]

/-- Single track: skipping to the group of constant rotation `k` and unpacking its lane gives it. -/
theorem C16_single_rotation {m : List (BitVec 8)} {start : Nat} {fmt : RotationFormat} {hasScale : Bool} {bones : List ConstBone}
    (h : Stored m start fmt hasScale bones 0) (k : Nat) (hk : k < (rotationsOf bones).length) :
    ((if k / 4 ≠ 0 then (reader fmt start bones).skipRotationGroups (isFull fmt) (k / 4) else some (reader fmt start bones)).bind
      fun c => c.rotationWithinGroup m (isFull fmt) (k % 4)) = some (asLoaded fmt (rotationsOf bones)[k]) := by
  have : ∃ c, (if k / 4 ≠ 0 then (reader fmt start bones).skipRotationGroups (isFull fmt) (k / 4) else some (reader fmt start bones)) = some c := by
    rw [reader_eq]
    by_cases h0 : k / 4 ≠ 0
    · rw [if_pos h0]
      unfold ConstCache.skipRotationGroups ConstCache.init
      dsimp only
      rw [if_pos (by omega)]; exact ⟨_, rfl⟩
    · rw [if_neg h0]; exact ⟨_, rfl⟩
  obtain ⟨c, hc⟩ := this
  rw [hc, Option.bind_some]
  rw [reader_eq] at hc
  rw [rotationWithinGroup_spec (m := m) _ _ hk c hc]
  exact rotationAt_stored h k hk

/-- Repeated `consume_translation` calls: the offset handed out by the `k`-th one. -/
def nthTranslation : Nat → ConstCache → Nat
  | 0, c => c.consumeTranslation.1
  | k + 1, c => nthTranslation k c.consumeTranslation.2
/-- Repeated `consume_scale` calls. -/
def nthScale : Nat → ConstCache → Nat
  | 0, c => c.consumeScale.1
  | k + 1, c => nthScale k c.consumeScale.2

theorem nthTranslation_eq : ∀ (k : Nat) (c : ConstCache), nthTranslation k c = c.translations + 12 * k
  | 0, _ => rfl
  | k + 1, c => by
    rw [nthTranslation, nthTranslation_eq k]; simp only [ConstCache.consumeTranslation]; omega
theorem nthScale_eq : ∀ (k : Nat) (c : ConstCache), nthScale k c = c.scales + 12 * k
  | 0, _ => rfl
  | k + 1, c => by
    rw [nthScale, nthScale_eq k]; simp only [ConstCache.consumeScale]; omega

/-- Constant translations: both readers load sample `k`. -/
theorem C16_translations {m : List (BitVec 8)} {start : Nat} {fmt : RotationFormat} {hasScale : Bool} {bones : List ConstBone}
    (h : Stored m start fmt hasScale bones 4) (k : Nat) (hk : k < (translationsOf bones).length) :
    (loadVec4 m (nthTranslation k (reader fmt start bones))).map Vec4.xyz = some (translationsOf bones)[k] ∧
    ((reader fmt start bones).skipTranslationGroups (k / 4)).translationWithinGroup m (k % 4) = some (translationsOf bones)[k] := by
  have hl := stored_length h
  have hs := translationAt_stored h k hk
  have hv := vec3At_load (m := m) (base := start + rotationBytes fmt * (rotationsOf bones).length) (k := k) (by omega)
  rw [hs] at hv
  have ht : (reader fmt start bones).translations = start + rotationBytes fmt * (rotationsOf bones).length := by
    rw [reader_eq]; rfl
  constructor
  · rw [nthTranslation_eq, ht, hv]
  · unfold ConstCache.translationWithinGroup ConstCache.skipTranslationGroups
    dsimp only
    rw [if_pos (by omega), ht, show start + rotationBytes fmt * (rotationsOf bones).length + k / 4 * 4 * 12 + k % 4 * 12 =
      start + rotationBytes fmt * (rotationsOf bones).length + 12 * k by omega]
    revert hv
    cases loadVec4 m (start + rotationBytes fmt * (rotationsOf bones).length + 12 * k) <;> exact id

/-- Constant scales: both readers load sample `k`. -/
theorem C16_scales {m : List (BitVec 8)} {start : Nat} {fmt : RotationFormat} {bones : List ConstBone}
    (h : Stored m start fmt true bones 4) (k : Nat) (hk : k < (scalesOf bones).length) :
    (loadVec4 m (nthScale k (reader fmt start bones))).map Vec4.xyz = some (scalesOf bones)[k] ∧
    ((reader fmt start bones).skipScaleGroups (k / 4)).scaleWithinGroup m (k % 4) = some (scalesOf bones)[k] := by
  have hl := stored_length h
  rw [if_pos rfl] at hl
  have hs := scaleAt_stored h k hk
  have hv := vec3At_load (m := m) (base := start + rotationBytes fmt * (rotationsOf bones).length + 12 * (translationsOf bones).length)
    (k := k) (by omega)
  rw [hs] at hv
  have ht : (reader fmt start bones).scales = start + rotationBytes fmt * (rotationsOf bones).length + 12 * (translationsOf bones).length := by
    rw [reader_eq]; rfl
  constructor
  · rw [nthScale_eq, ht, hv]
  · unfold ConstCache.scaleWithinGroup ConstCache.skipScaleGroups
    dsimp only
    rw [if_pos (by omega), ht, show start + rotationBytes fmt * (rotationsOf bones).length + 12 * (translationsOf bones).length +
      k / 4 * 4 * 12 + k % 4 * 12 = start + rotationBytes fmt * (rotationsOf bones).length + 12 * (translationsOf bones).length + 12 * k by omega]
    revert hv
    cases loadVec4 m (start + rotationBytes fmt * (rotationsOf bones).length + 12 * (translationsOf bones).length + 12 * k) <;> exact id

/-- Non vacuity: 21 bones, 18 constant rotations (two unpacks, a partial last group of 2). -/
def sampleBones : List ConstBone := (List.range 21).map fun i =>
  { rotation := ⟨decide (i % 10 = 3), decide (i ≠ 7)⟩, translation := ⟨false, decide (i % 2 = 0)⟩, scale := ⟨false, decide (i % 5 = 0)⟩,
    rotationSample := ⟨BitVec.ofNat 32 (4 * i), BitVec.ofNat 32 (4 * i + 1), BitVec.ofNat 32 (4 * i + 2), BitVec.ofNat 32 (4 * i + 3)⟩,
    translationSample := ⟨BitVec.ofNat 32 (100 + 3 * i), BitVec.ofNat 32 (101 + 3 * i), BitVec.ofNat 32 (102 + 3 * i)⟩,
    scaleSample := ⟨BitVec.ofNat 32 (300 + 3 * i), BitVec.ofNat 32 (301 + 3 * i), BitVec.ofNat 32 (302 + 3 * i)⟩ }

def sampleClip : List (BitVec 8) := [1, 2, 3, 4] ++ writeConstantTrackData .dropWVariable true sampleBones ++ List.replicate 15 0

example : Stored sampleClip 4 .dropWVariable true sampleBones 12 := ⟨[1, 2, 3, 4], List.replicate 15 0, rfl, rfl, by decide⟩
example : (rotationsOf sampleBones).length = 18 ∧ (translationsOf sampleBones).length = 11 ∧ (scalesOf sampleBones).length = 5 := by
  decide +kernel
example : (walk sampleClip false [14, 4] (reader .dropWVariable 4 sampleBones)).map (fun p => p.1.getLast?) =
    some (some (.dropW ⟨80, 81, 82⟩)) := by decide +kernel

end Acl.C16
