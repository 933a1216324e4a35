import Verif.Database.RewriteRun
import Verif.Layout.Accessors
/-
The accessors of a clip build_database gives back.
-/
namespace Acl.Rewrite
open Acl.Headers Acl.Tiers Acl.Chunks Acl.Transform Acl.Meta Acl.C22

/-- Specification: what is read of the clip `m'` through the accessors is what is read of `m`, except that it says it needs a database, that it says
(`stripped`) whether it has lost key frames to it, and that it has no contributing error any more. -/
structure SameApi (m m' : List (BitVec 8)) (stripped : Bool) : Prop where
  size : getSize m' = some m'.length
  version : getVersion m' = getVersion m
  numTracks : getNumTracks m' = getNumTracks m
  numSamples : getNumSamples m' = getNumSamples m
  trackType : getTrackType m' = getTrackType m
  sampleRate : getSampleRate m' = getSampleRate m
  trivialDefaults : hasTrivialDefaultValues m' = hasTrivialDefaultValues m
  defaultScale : Meta.getDefaultScale m' = Meta.getDefaultScale m
  looping : getLoopingPolicy m' = getLoopingPolicy m
  duration : ∀ p, getDuration m' p = getDuration m p
  finiteDuration : ∀ p, getFiniteDuration m' p = getFiniteDuration m p
  name : getName m' = getName m
  trackName : ∀ i, getTrackName m' i = getTrackName m i
  parent : ∀ i, getParent m' i = getParent m i
  description : ∀ i, getTransformDescription m' i = getTransformDescription m i
  database : hasDatabase m' = some true
  strippedKeyframes : hasStrippedKeyframes m' = some stripped
  error : ∀ i, getContributingError m' i = some none

/-! ### The flags -/

theorem setBool (M : BitVec 32) (v : Bool) :
    setHasDatabase M v = C28.write M v.toNat .hasDatabase ∧ setHasStrippedKeyframes M v = C28.write M v.toNat .strippedKeyframes ∧
    setHasMetadata M v = C28.write M v.toNat .hasMetadata := by
  unfold C28.write
  cases v <;> exact ⟨rfl, rfl, rfl⟩

theorem newMisc_field (c : ClipSource) (f : ClipFlags) (b st md b' : Bool) (g : C28.Field) :
    C28.read (newMisc c f b st md) g =
      if g = .hasMetadata then md.toNat else if g = .strippedKeyframes then st.toNat else if g = .hasDatabase then 1
      else C28.read (setHasMetadata (c.misc f) b') g := by
  have hb : ∀ v : Bool, v.toNat < 2 := fun v => by cases v <;> decide
  unfold newMisc
  rw [(setBool _ md).2.2, (setBool _ st).2.1, (setBool _ true).1, (setBool _ b).2.2, (setBool _ b').2.2]
  by_cases h1 : g = .hasMetadata
  · rw [if_pos h1, h1, C28.C28_read_own _ _ _ (hb _)]
  rw [if_neg h1, C28.C28_read_other _ _ _ h1 _ (hb _)]
  by_cases h2 : g = .strippedKeyframes
  · rw [if_pos h2, h2, C28.C28_read_own _ _ _ (hb _)]
  rw [if_neg h2, C28.C28_read_other _ _ _ h2 _ (hb _)]
  by_cases h3 : g = .hasDatabase
  · rw [if_pos h3, h3, C28.C28_read_own _ _ _ (hb _)]; rfl
  rw [if_neg h3, C28.C28_read_other _ _ _ h3 _ (hb _), C28.C28_read_other _ _ _ h1 _ (hb _), C28.C28_read_other _ _ _ h1 _ (hb _)]

theorem toNat_bool {a b : Bool} (h : a.toNat = b.toNat) : a = b := by
  cases a <;> cases b <;> simp_all

variable {E : Type} {c : ClipSource} {e : Meta.Extra} {s : Meta.Settings} {src : Meta.Source} {f : ClipFlags} {m : List (BitVec 8)}

theorem newMisc_flags (c : ClipSource) (f : ClipFlags) (b st md b' : Bool) :
    getHasMetadata (newMisc c f b st md) = md ∧ getHasStrippedKeyframes (newMisc c f b st md) = st ∧ getHasDatabase (newMisc c f b st md) = true ∧
    getHasTrivialDefaultValues (newMisc c f b st md) = getHasTrivialDefaultValues (setHasMetadata (c.misc f) b') ∧
    Headers.getDefaultScale (newMisc c f b st md) = Headers.getDefaultScale (setHasMetadata (c.misc f) b') ∧
    getIsWrapOptimized (newMisc c f b st md) = getIsWrapOptimized (setHasMetadata (c.misc f) b') := by
  have r := newMisc_field c f b st md b'
  exact ⟨toNat_bool (r .hasMetadata), toNat_bool (r .strippedKeyframes), toNat_bool (r .hasDatabase), toNat_bool (r .trivialDefaults),
    BitVec.eq_of_toNat_eq (r .defaultScale), toNat_bool (r .wrapOptimized)⟩

/-! ### The key frames -/

theorem filter_sum (L : List (Frame E)) (n : Nat) (h : ∀ f ∈ L, f.segmentIndex < n) :
    ((List.range n).map fun g => (L.filter fun f => f.segmentIndex == g).length).sum = L.length := by
  induction L with
  | nil => simp
  | cons a L ih =>
    have := ih fun f hf => h f (List.mem_cons_of_mem _ hf)
    have ha := h a List.mem_cons_self
    have e : ((List.range n).map fun g => ((a :: L).filter fun f => f.segmentIndex == g).length) =
        (List.range n).map fun g => (if g = a.segmentIndex then 1 else 0) + (L.filter fun f => f.segmentIndex == g).length := by
      refine List.map_congr_left fun g _ => ?_
      by_cases hg : a.segmentIndex = g
      · rw [List.filter_cons_of_pos (by simpa using hg), List.length_cons, if_pos hg.symm]; omega
      · rw [List.filter_cons_of_neg (by simpa using hg), if_neg (fun q => hg q.symm)]; omega
    rw [e, List.length_cons, ← this, List.sum_map_add]
    have e2 : ((List.range n).map fun g => if g = a.segmentIndex then 1 else 0).sum = 1 := by
      have key : ∀ q, ((List.range q).map fun g => if g = a.segmentIndex then 1 else 0).sum = if a.segmentIndex < q then 1 else 0 := by
        intro q
        induction q with
        | zero => rfl
        | succ q ihq =>
          rw [List.range_succ, List.map_append, List.sum_append, ihq, List.map_cons, List.map_nil, List.sum_cons, List.sum_nil]
          split <;> split <;> split <;> omega
      rw [key, if_pos ha]
    omega

theorem Rewrote.kept {high : List (Frame E)} {k cho : Nat} {m' : List (BitVec 8)} {segs : List (Seg E)} {o : Offsets}
    {headersAt typesAt constantsAt rangesAt rangesSize : Nat} {b : Bool} {se : Meta.Settings} {tracks : List Track} {l : Layout} {start : Nat}
    (r : Rewrote c src f m high k cho m' segs o headersAt typesAt constantsAt rangesAt rangesSize b se tracks l start) (hh : TierFrames c k high) :
    (segs.map Seg.count).sum = (high.filter fun fr => fr.tracksIndex == k).length := by
  have e1 : segs.map Seg.count = (List.range c.segments.length).map fun g => ((high.filter fun fr => fr.tracksIndex == k).filter fun fr => fr.segmentIndex == g).length := by
    apply List.ext_getElem?
    intro g
    rw [List.getElem?_map, List.getElem?_map]
    by_cases hg : g < c.segments.length
    · have hs := List.getElem?_eq_getElem (l := segs) (i := g) (by rw [r.count]; exact hg)
      have hr := r.each g _ _ hs (List.getElem?_eq_getElem hg)
      rw [hs, List.getElem?_range hg, Option.map_some, Option.map_some, Seg.count, ← hr.mask.length, hr.frames, List.filter_filter]
      congr 3
      funext fr
      unfold isFrameOf
      exact Bool.and_comm _ _
    · rw [List.getElem?_eq_none (by rw [r.count]; omega), List.getElem?_eq_none (by rw [List.length_range]; omega)]
      rfl
  rw [e1, filter_sum]
  intro fr hf
  obtain ⟨h1, h2⟩ := List.mem_filter.1 hf
  obtain ⟨t, ht, -⟩ := hh.frames fr h1 (by simpa using h2)
  exact (List.getElem?_eq_some_iff.1 ht).1

/-! ### The metadata -/

theorem metaSplit_of_at {m B : List (BitVec 8)} {p : Nat} (h : At m p B) (hp : p + B.length ≤ m.length) : ∃ A C, m = A ++ (B ++ C) ∧ A.length = p := by
  refine ⟨m.take p, m.drop (p + B.length), ?_, by rw [List.length_take]; omega⟩
  apply List.ext_getElem?
  intro i
  by_cases h1 : i < p
  · rw [List.getElem?_append_left (by rw [List.length_take]; omega), List.getElem?_take, if_pos h1]
  · rw [List.getElem?_append_right (by rw [List.length_take]; omega), List.length_take, Nat.min_eq_left (by omega)]
    by_cases h2 : i - p < B.length
    · rw [List.getElem?_append_left h2]
      have := h (i - p) _ (List.getElem?_eq_getElem h2)
      unfold byteAt at this
      rw [List.getElem?_eq_getElem h2, ← this]
      congr 1; omega
    · rw [List.getElem?_append_right (by omega), List.getElem?_drop]
      congr 1; omega

theorem metaAt_of_split {m A B C : List (BitVec 8)} {p : Nat} (h : m = A ++ (B ++ C)) (hp : A.length = p) : At m p B := by
  intro j b hj
  have hl := (List.getElem?_eq_some_iff.1 hj).1
  show m[p + j]? = _
  rw [h, List.getElem?_append_right (by omega), ← hp, Nat.add_sub_cancel_left, List.getElem?_append_left hl, hj]

/-- The layout of the metadata of the new clip. -/
def newLayout (l : Layout) (h : Header) (start : Nat) : Layout :=
  { l with header := h, data := List.replicate (start - 32) 0#8, errors := [] }

theorem word_at {m m' B : List (BitVec 8)} {w : BitVec 32} {p q start d z : Nat} {bb : Bool} (hw : w = offsetWord bb p) (hp : p < 2 ^ 32) (hno : bb = false → B = [])
    (hm : ∃ A C, m = A ++ (B ++ C) ∧ A.length = p) (hcopy : ∀ B, At m w.toNat B → B.length ≤ z → At m' (start + d) B) (hz : B.length ≤ z)
    (hq : q = start + d) (hl : q + B.length ≤ m'.length) : ∃ A C, m' = A ++ (B ++ C) ∧ A.length = q := by
  subst hq
  refine metaSplit_of_at (hcopy B ?_ hz) hl
  cases bb with
  | false => rw [hno rfl]; intro j b hj; simp at hj
  | true =>
    obtain ⟨A, C, h1, h2⟩ := hm
    rw [hw, C29.offset_toNat p hp]
    exact metaAt_of_split h1 h2

set_option maxHeartbeats 1000000 in
theorem Rewrote.case {high : List (Frame E)} {k cho : Nat} {m' : List (BitVec 8)} {segs : List (Seg E)} {o : Offsets}
    {headersAt typesAt constantsAt rangesAt rangesSize : Nat} {b : Bool} {se : Meta.Settings} {tracks : List Track} {l : Layout} {start : Nat}
    (r : Rewrote c src f m high k cho m' segs o headersAt typesAt constantsAt rangesAt rangesSize b se tracks l start)
    (htr : src.isTransform = true) (hc : src.mapping.length = c.bones.length) (hb : 0 < c.bones.length ∧ c.bones.length < 2 ^ 32) (hsmall : m'.length < 2 ^ 32)
    {h : Header} (hh : h = { c.header f with misc := newMisc c f b (c.numSamples - (segs.map Seg.count).sum != 0) ((keptSizes l).sum != 0) }) :
    C29.Case { se with contributingError := false } src tracks (c.header f) (newLayout l h start) m' := by
  have hload : loadTracksHeader m' = some h := by rw [hh]; exact header_of_at r.written.header
  have hnum : h.numTracks.toNat = src.mapping.length := by
    rw [hh, hc]; show (BitVec.ofNat 32 c.bones.length).toNat = _
    rw [BitVec.toNat_ofNat, Nat.mod_eq_of_lt hb.2]
  have hmeta : getHasMetadata h.misc = ((keptSizes l).sum != 0) := by rw [hh]; exact (newMisc_flags c f b _ _ true).1
  have hi := r.input
  have R := hi.reads
  have e0 : l.slots = l.errorsStart + l.errors.length := rfl
  have e1 : l.errorsStart = l.descsStart + l.descs.length := rfl
  have e2 : l.descsStart = l.parentsStart + l.parents.length := rfl
  have e3 : l.parentsStart = l.namesStart + l.names.length + (4 - l.names.length % 4) % 4 := rfl
  have e4 : l.namesStart = l.nameStart + l.name.length + (4 - l.name.length % 4) % 4 := rfl
  have hsum : (keptSizes l).sum = l.errorsStart - l.nameStart := by
    unfold keptSizes
    simp only [List.sum_cons, List.sum_nil]
    omega
  have hst4 : start % 4 = 0 := by rw [r.startIs]; unfold alignUp; omega
  have hst32 : 32 ≤ start := by
    rw [r.startIs]
    have := alignUp_le (Clip.base + segs.foldl segEnd o.segments) 4 (by omega)
    have : Clip.base = 32 := rfl
    omega
  generalize hl' : newLayout l h start = l'
  have s0 : l'.nameStart = start := by
    subst hl'
    show 32 + (List.replicate (start - 32) 0#8).length + (4 - (32 + (List.replicate (start - 32) 0#8).length) % 4) % 4 = start
    rw [List.length_replicate]; omega
  have s1 : l'.namesStart = start + (l.namesStart - l.nameStart) := by
    have : l'.namesStart = l'.nameStart + l.name.length + (4 - l.name.length % 4) % 4 := by subst hl'; rfl
    omega
  have s2 : l'.parentsStart = start + (l.parentsStart - l.nameStart) := by
    have : l'.parentsStart = l'.namesStart + l.names.length + (4 - l.names.length % 4) % 4 := by subst hl'; rfl
    omega
  have s3 : l'.descsStart = start + (l.descsStart - l.nameStart) := by
    have : l'.descsStart = l'.parentsStart + l.parents.length := by subst hl'; rfl
    omega
  have s4 : l'.errorsStart = start + (l.errorsStart - l.nameStart) := by
    have : l'.errorsStart = l'.descsStart + l.descs.length := by subst hl'; rfl
    omega
  have s5 : l'.slots = start + (l.errorsStart - l.nameStart) := by
    have : l'.slots = l'.errorsStart := by subst hl'; rfl
    omega
  have hhd : l'.header = h := by subst hl'; rfl
  by_cases hz : (keptSizes l).sum = 0
  · left
    refine ⟨by omega, h, hload, by rw [hmeta, hz]; rfl, hnum⟩
  · right
    refine ⟨by omega, ?_⟩
    obtain ⟨hend, hwords, hcopy⟩ := r.metadata hz
    obtain ⟨data, hl⟩ := hi.layout
    have htl : 0 < tracks.length := by rw [hi.length, hc]; exact hb.1
    have n0 : l.name = sect se.listName (src.listName ++ [0#8]) := by rw [hl]; rfl
    have n1 : l.names = sect se.trackNames (namesSection tracks) := by rw [hl]; rfl
    have n2 : l.parents = sect se.parents ((parentWords src.mapping tracks).map bytesLE).flatten := by rw [hl]; rfl
    have n3 : l.descs = sect se.descriptions (tracks.map (descBytes src.isTransform)).flatten := by rw [hl]; rfl
    have z0 : (l.namesStart - l.nameStart ≠ 0) ↔ se.listName = true := by
      cases hq : se.listName <;> rw [hq] at n0
      · rw [show l.name = [] from n0] at e4; simp at e4; simp; omega
      · have : 0 < l.name.length := by rw [n0]; simp [sect]
        simp; omega
    have z1 : (l.parentsStart - l.namesStart ≠ 0) ↔ se.trackNames = true := by
      cases hq : se.trackNames <;> rw [hq] at n1
      · rw [show l.names = [] from n1] at e3; simp at e3; simp; omega
      · have : 0 < l.names.length := by
          rw [n1]; unfold sect namesSection
          rw [if_pos rfl, List.length_append, words_length, Meta.offsetWords_length]; omega
        simp; omega
    have z2 : (l.descsStart - l.parentsStart ≠ 0) ↔ se.parents = true := by
      cases hq : se.parents <;> rw [hq] at n2
      · rw [show l.parents = [] from n2] at e2; simp at e2; simp; omega
      · have : 0 < l.parents.length := by
          rw [n2]; unfold sect parentWords
          rw [if_pos rfl, words_length, List.length_map]; omega
        simp; omega
    have z3 : (l.errorsStart - l.descsStart ≠ 0) ↔ se.descriptions = true := by
      cases hq : se.descriptions <;> rw [hq] at n3
      · rw [show l.descs = [] from n3] at e1; simp at e1; simp; omega
      · have : 0 < l.descs.length := by
          rw [n3]; unfold sect
          rw [if_pos rfl, descs_length, htr]; unfold descSize; simp only [if_true]; omega
        simp; omega
    have hfield : ∀ i, metadataField m' i = load32 m' (m'.length - 20 + 4 * i) := by
      intro i
      unfold metadataField
      rw [r.size]
      simp only [Option.bind_eq_bind, Option.bind_some]
      rw [BitVec.toNat_ofNat, Nat.mod_eq_of_lt hsmall]
    have word : ∀ (z p p' : Nat) (bb : Bool), (z ≠ 0 ↔ bb = true) → p = p' → (if z ≠ 0 then ptrOffsetOf 32 p else ptrOffsetInvalid 32) = offsetWord bb p' := by
      intro z p p' bb hzz hpp
      subst hpp
      unfold offsetWord
      by_cases hbb : bb = true
      · rw [if_pos (hzz.2 hbb), if_pos hbb]
      · rw [if_neg (fun q => hbb (hzz.1 q)), if_neg hbb]
    have hsm := R.small
    exact {
      header := by rw [hhd]; exact hload
      hasMeta := by rw [hhd, hmeta]; simpa using hz
      num := by rw [hhd]; exact hnum
      version := by rw [hhd, hh]; rfl
      f0 := by
        rw [hfield, hwords 0 _ rfl]
        exact congrArg some (word _ _ _ _ z0 (by rw [s0]))
      f1 := by
        rw [hfield, hwords 1 _ rfl]
        exact congrArg some (word _ _ _ _ z1 (by rw [s1]))
      f2 := by
        rw [hfield, hwords 2 _ rfl]
        exact congrArg some (word _ _ _ _ z2 (by rw [s2]; omega))
      f3 := by
        rw [hfield, hwords 3 _ rfl]
        exact congrArg some (word _ _ _ _ z3 (by rw [s3]; omega))
      f4 := by
        intro _
        rw [hfield, hwords 4 _ rfl]
        rfl
      small := by omega
      name := by
        rw [show l'.name = l.name by subst hl'; rfl]
        refine word_at (bb := se.listName) (p := l.nameStart) rfl (by omega) (fun hq => by rw [n0, hq]; rfl) R.name (hcopy 0 _ _ rfl rfl) (by omega)
          (by rw [s0]; rfl) (by omega)
      names := by
        rw [show l'.names = l.names by subst hl'; rfl]
        refine word_at (bb := se.trackNames) (p := l.namesStart) rfl (by omega) (fun hq => by rw [n1, hq]; rfl) R.names (hcopy 1 _ _ rfl rfl) (by omega)
          (by rw [s1]; simp [keptSizes]) (by omega)
      parents := by
        rw [show l'.parents = l.parents by subst hl'; rfl]
        refine word_at (bb := se.parents) (p := l.parentsStart) rfl (by omega) (fun hq => by rw [n2, hq]; rfl) R.parents (hcopy 2 _ _ rfl rfl) (by omega)
          (by rw [s2]; simp [keptSizes]; omega) (by omega)
      descs := by
        rw [show l'.descs = l.descs by subst hl'; rfl]
        refine word_at (bb := se.descriptions) (p := l.descsStart) rfl (by omega) (fun hq => by rw [n3, hq]; rfl) R.descs (hcopy 3 _ _ rfl rfl) (by omega)
          (by rw [s3]; simp [keptSizes]; omega) (by omega)
      errors := by
        rw [show l'.errors = [] by subst hl'; rfl]
        exact metaSplit_of_at (fun j b hj => by simp at hj) (by rw [List.length_nil]; omega) }

/-- The accessors of the new clip. -/
theorem Rewrote.api (h : DbInput c e s src f m) {high : List (Frame E)} {k cho : Nat} {m' : List (BitVec 8)} {segs : List (Seg E)} {o : Offsets}
    {headersAt typesAt constantsAt rangesAt rangesSize : Nat} {b : Bool} {tracks : List Track} {l : Layout} {start : Nat} (hh : TierFrames c k high)
    (r : Rewrote c src f m high k cho m' segs o headersAt typesAt constantsAt rangesAt rangesSize b (effective src.isTransform e s) tracks l start)
    (hsmall : m'.length < 2 ^ 32) :
    SameApi m m' (c.numSamples - (high.filter fun fr => fr.tracksIndex == k).length != 0) := by
  have hi := r.input
  have hv := h.compressed.metadata
  have hbo := h.compressed.clip.bones
  have hmap := h.compressed.tracks
  generalize hhd : ({ c.header f with misc := newMisc c f b (c.numSamples - (segs.map Seg.count).sum != 0) ((keptSizes l).sum != 0) } : Header) = hd
  have hload : loadTracksHeader m' = some hd := by rw [← hhd]; exact header_of_at r.written.header
  have hcase' := r.case h.transform hmap hbo hsmall hhd.symm
  obtain ⟨b', hb'⟩ := h.compressed.header
  obtain ⟨q1, q2, q3, q4, q5, q6⟩ := newMisc_flags c f b (c.numSamples - (segs.map Seg.count).sum != 0) ((keptSizes l).sum != 0) b'
  obtain ⟨data, hl⟩ := hi.layout
  have hslots : l.slots ≠ l.nameStart := by
    obtain ⟨-, -, -, -, sl5, -⟩ := C29.starts_le l
    have e0 : l.slots = l.errorsStart + l.errors.length := rfl
    have e1 : l.errorsStart = l.descsStart + l.descs.length := rfl
    have e2 : l.descsStart = l.parentsStart + l.parents.length := rfl
    have e3 : l.parentsStart = l.namesStart + l.names.length + (4 - l.names.length % 4) % 4 := rfl
    have e4 : l.namesStart = l.nameStart + l.name.length + (4 - l.name.length % 4) % 4 := rfl
    have hel : l.errors.length = 20 * src.errors.length := by
      rw [hl]
      show (sect (effective src.isTransform e s).contributingError (src.errors.map KeyframeError.bytes).flatten).length = _
      rw [hi.error]
      exact errors_length _
    have h1 := segments_pos h.compressed.clip
    have h2 := segments_le h.compressed.clip
    have h3 := h.errors
    omega
  have hcase : C29.Case (effective src.isTransform e s) src tracks (c.header f) l m := Or.inr ⟨hslots, hi.reads⟩
  have hdp : ∀ p, durationSamples hd p = durationSamples { c.header f with misc := setHasMetadata (c.misc f) b' } p := by
    intro p
    rw [← hhd]
    unfold durationSamples durationPolicy
    dsimp only
    rw [q6]
  have hpar : (effective src.isTransform e s).descriptions = true → (effective src.isTransform e s).parents = true := by
    rw [C29.effective_eq]
    intro hq
    show C29.wantsParents s src = true
    unfold C29.wantsParents
    rw [h.transform, show s.descriptions = true from hq]; simp
  have tn := C29.trackName_of hv hi.length hi.output (by rw [hl]; rfl) hcase
  have tn' := C29.trackName_of hv hi.length hi.output (by rw [show (newLayout l hd start).names = l.names from rfl, hl]; rfl) hcase'
  have pa := C29.parent_of hv hi.length hi.output (by rw [hl]; rfl) hcase
  have pa' := C29.parent_of hv hi.length hi.output (by rw [show (newLayout l hd start).parents = l.parents from rfl, hl]; rfl) hcase'
  have de := C29.description_of hv h.transform hi.length hi.output hpar (by rw [hl]; rfl) (by rw [hl]; rfl) hcase
  have de' := C29.description_of (e := { effective src.isTransform e s with contributingError := false }) hv h.transform hi.length hi.output hpar (by rw [show (newLayout l hd start).descs = l.descs from rfl, hl]; rfl)
    (by rw [show (newLayout l hd start).parents = l.parents from rfl, hl]; rfl) hcase'
  have na := C29.name_of hv (by rw [hi.length, hmap]; exact hbo.1) (by rw [hl]; rfl) (by rw [hl]; rfl) hcase
  have na' := C29.name_of hv (by rw [hi.length, hmap]; exact hbo.1) (by rw [show (newLayout l hd start).name = l.name from rfl, hl]; rfl)
    (by rw [show (newLayout l hd start).names = l.names from rfl, hl]; rfl) hcase'
  have hout : ∀ i, i < src.mapping.length → ∃ t, C29.outputTrack src i = some t := by
    intro i hlt
    rw [← hi.output]
    exact ⟨_, List.getElem?_eq_getElem (by rw [hi.length]; exact hlt)⟩
  exact {
    size := by unfold getSize; rw [r.size, Option.map_some, BitVec.toNat_ofNat, Nat.mod_eq_of_lt hsmall]
    version := by unfold getVersion; rw [hload, hb', ← hhd]; rfl
    numTracks := by unfold getNumTracks; rw [hload, hb', ← hhd]; rfl
    numSamples := by unfold getNumSamples; rw [hload, hb', ← hhd]; rfl
    trackType := by unfold getTrackType; rw [hload, hb', ← hhd]; rfl
    sampleRate := by unfold getSampleRate; rw [hload, hb', ← hhd]; rfl
    trivialDefaults := by unfold hasTrivialDefaultValues; rw [hload, hb', ← hhd]; exact congrArg some q4
    defaultScale := by unfold Meta.getDefaultScale; rw [hload, hb', ← hhd]; exact congrArg some q5
    looping := by
      unfold getLoopingPolicy; rw [hload, hb', ← hhd, Option.map_some, Option.map_some]
      dsimp only
      rw [q6]
    duration := by
      intro p
      unfold getDuration; rw [hload, hb', Option.map_some, Option.map_some, hdp, ← hhd]
    finiteDuration := by
      intro p
      unfold getFiniteDuration; rw [hload, hb', Option.map_some, Option.map_some, hdp, ← hhd]
    name := by rw [na, na']
    trackName := by
      intro i
      by_cases hlt : i < src.mapping.length
      · obtain ⟨t, ht⟩ := hout i hlt
        rw [tn.1 i t ht, tn'.1 i t ht]
      · rw [tn.2 i (by omega), tn'.2 i (by omega)]
    parent := by
      intro i
      by_cases hlt : i < src.mapping.length
      · obtain ⟨t, ht⟩ := hout i hlt
        rw [pa.1 i t ht, pa'.1 i t ht]
      · rw [pa.2 i (by omega), pa'.2 i (by omega)]
    description := by
      intro i
      by_cases hlt : i < src.mapping.length
      · obtain ⟨t, ht⟩ := hout i hlt
        cases hq : (effective src.isTransform e s).descriptions with
        | false => rw [(de.1 i t ht).1 hq, (de'.1 i t ht).1 hq]
        | true => rw [(de.1 i t ht).2 hq, (de'.1 i t ht).2 hq]
      · rw [de.2 i (by omega), de'.2 i (by omega)]
    database := by unfold hasDatabase; rw [hload, ← hhd]; exact congrArg some q3
    strippedKeyframes := by unfold hasStrippedKeyframes; rw [hload, ← r.kept hh, ← hhd]; exact congrArg some q2
    error := by
      intro i
      unfold getContributingError
      rcases hcase' with ⟨-, hd', g1, g2, -⟩ | ⟨-, R⟩
      · rw [g1]
        simp only [Option.bind_eq_bind, Option.bind_some, g2, Bool.not_false, if_true]
        rfl
      · rw [R.header]
        simp only [Option.bind_eq_bind, Option.bind_some, R.hasMeta, Bool.not_true, Bool.false_eq_true, if_false]
        rw [R.f4 h.transform]
        rfl }

end Acl.Rewrite
