import Verif.Database.RewriteInput
/-
build_database rewrites every clip it takes: Database/Rewrite.lean on a compressed clip.
-/
namespace Acl.Rewrite
open Acl.Headers Acl.Tiers Acl.Chunks Acl.Transform Acl.Meta Acl.C22

variable {E : Type} {c : ClipSource} {e : Meta.Extra} {s : Meta.Settings} {src : Meta.Source} {f : ClipFlags} {m : List (BitVec 8)}

/-- The metadata of the input. -/
structure InputMeta (e : Meta.Settings) (src : Meta.Source) (h : Header) (tracks : List Track) (l : Layout) (m : List (BitVec 8)) : Prop where
  source : outputTracks src = some tracks
  length : tracks.length = src.mapping.length
  output : ∀ i : Nat, tracks[i]? = C29.outputTrack src i
  layout : ∃ data, l = layoutOf e src tracks h data
  reads : C29.Reads e src tracks h l m
  error : e.contributingError = true
  last : l.slots ≤ m.length

theorem DbInput.reads (h : DbInput c e s src f m) :
    ∃ tracks l, InputMeta (effective src.isTransform e s) src (c.header f) tracks l m := by
  obtain ⟨x, hx, w⟩ := h.compressed.written
  have hr := w.result
  unfold Clip.compress at hr
  cases hw : Clip.writeClip x with
  | none => rw [hw] at hr; simp at hr
  | some d =>
    rw [hw] at hr
    simp only [Option.bind_eq_bind, Option.bind_some] at hr
    obtain ⟨tracks, buf, l, t1, t2, t3, t4, t5, t6⟩ := C29.compress_cases e s src (c.header f) (d.drop Clip.base) w.valid (by
      intro buf hb
      rw [hr] at hb
      cases hb
      exact w.small)
    rw [hr] at t5
    cases t5
    have herr : (effective src.isTransform e s).contributingError = true := by
      rw [C29.effective_eq]
      unfold C29.wantsError
      rw [h.transform, h.error]; rfl
    have hlen : l.errors.length = 20 * src.errors.length := by
      rw [t4]
      show (sect (effective src.isTransform e s).contributingError (src.errors.map KeyframeError.bytes).flatten).length = _
      rw [herr]
      exact errors_length _
    have hpos : 0 < l.errors.length := by
      have h1 := segments_pos h.compressed.clip
      have h2 := segments_le h.compressed.clip
      rw [hlen, h.errors]; omega
    have hst : l.slots ≠ l.nameStart := by
      unfold Layout.slots Layout.errorsStart Layout.descsStart Layout.parentsStart Layout.namesStart
      omega
    rcases t6 with ⟨h1, -⟩ | ⟨-, hreads⟩
    · exact absurd h1 hst
    · refine ⟨tracks, l, t1, t2, t3, ⟨_, t4⟩, hreads, herr, ?_⟩
      obtain ⟨A, C, h1, h2⟩ := hreads.errors
      have := congrArg List.length h1
      rw [List.length_append, List.length_append] at this
      unfold Layout.slots
      omega

/-- The sizes of the sections that are copied. -/
def keptSizes (l : Layout) : List Nat :=
  [l.namesStart - l.nameStart, l.parentsStart - l.namesStart, l.descsStart - l.parentsStart, l.errorsStart - l.descsStart]

theorem keptSizes_mod {se : Meta.Settings} {h : Header} {tracks : List Track} {l : Layout} (hi : InputMeta se src h tracks l m) :
    ∀ z ∈ keptSizes l, z % 4 = 0 := by
  obtain ⟨data, rfl⟩ := hi.layout
  obtain ⟨h1, h2, -⟩ := layout_mod4 se src tracks h data
  unfold keptSizes Layout.errorsStart Layout.descsStart Layout.parentsStart Layout.namesStart
  intro z hz
  simp only [List.mem_cons, List.not_mem_nil, or_false] at hz
  rcases hz with hz | hz | hz | hz <;> subst hz <;> omega

def fieldWords (se : Meta.Settings) (l : Layout) : List (BitVec 32) :=
  [offsetWord se.listName l.nameStart, offsetWord se.trackNames l.namesStart, offsetWord se.parents l.parentsStart,
    offsetWord se.descriptions l.descsStart, offsetWord true l.errorsStart]

theorem InputMeta.fields {se : Meta.Settings} {h : Header} {tracks : List Track} {l : Layout} (hi : InputMeta se src h tracks l m)
    (ht : src.isTransform = true) : readMetadata m = some (fieldWords se l) := by
  unfold readMetadata
  rw [hi.reads.f0, Option.bind_some, hi.reads.f1, Option.bind_some, hi.reads.f2, Option.bind_some, hi.reads.f3, Option.bind_some,
    hi.reads.f4 ht, Option.bind_some, hi.error]
  rfl

theorem InputMeta.sizes {se : Meta.Settings} {h : Header} {tracks : List Track} {l : Layout} (hi : InputMeta se src h tracks l m) :
    sectionSizes (fieldWords se l) = some (keptSizes l) := by
  have hsm := hi.reads.small
  obtain ⟨data, hl⟩ := hi.layout
  have b0 : se.listName = false → l.name = [] := fun hb => by rw [hl]; show sect se.listName _ = []; rw [hb]; rfl
  have b1 : se.trackNames = false → l.names = [] := fun hb => by rw [hl]; show sect se.trackNames _ = []; rw [hb]; rfl
  have b2 : se.parents = false → l.parents = [] := fun hb => by rw [hl]; show sect se.parents _ = []; rw [hb]; rfl
  have b3 : se.descriptions = false → l.descs = [] := fun hb => by rw [hl]; show sect se.descriptions _ = []; rw [hb]; rfl
  have e0 : l.slots = l.errorsStart + l.errors.length := rfl
  have e1 : l.errorsStart = l.descsStart + l.descs.length := rfl
  have e2 : l.descsStart = l.parentsStart + l.parents.length := rfl
  have e3 : l.parentsStart = l.namesStart + l.names.length + (4 - l.names.length % 4) % 4 := rfl
  have e4 : l.namesStart = l.nameStart + l.name.length + (4 - l.name.length % 4) % 4 := rfl
  exact sectionSizes_eq _ _ _ _ _ _ _ _ _ (by omega) (by omega) (by omega) (by omega) (by omega)
    (fun hb => by rw [e4, b0 hb]; rfl) (fun hb => by rw [e3, b1 hb]; rfl) (fun hb => by rw [e2, b2 hb]; rfl) (fun hb => by rw [e1, b3 hb]; rfl)

/-- compress.database.impl.h:716-718: the flags of the new header -/
def newMisc (c : ClipSource) (f : ClipFlags) (b stripped hasMeta : Bool) : BitVec 32 :=
  setHasMetadata (setHasStrippedKeyframes (setHasDatabase (setHasMetadata (c.misc f) b) true) stripped) hasMeta

def startSizeOf (n : Nat) : Nat := if n > 1 then 4 * (n + 1) else 0

/-- The new clip. -/
structure Rewrote (c : ClipSource) (src : Meta.Source) (f : ClipFlags) (m : List (BitVec 8)) (high : List (Frame E)) (k cho : Nat)
    (m' : List (BitVec 8)) (segs : List (Seg E)) (o : Offsets) (headersAt typesAt constantsAt rangesAt rangesSize : Nat) (b : Bool)
    (se : Meta.Settings) (tracks : List Track) (l : Layout) (start : Nat) : Prop where
  sections : Sections c m headersAt typesAt constantsAt rangesAt
  count : segs.length = c.segments.length
  each : ∀ (j : Nat) r t, segs[j]? = some r → c.segments[j]? = some t → SegRead c m high k j t r
  offsets : o = offsetsOf (startSizeOf c.segments.length) c.segments.length (4 * (typeWords c).length) (rangesAt - constantsAt) rangesSize
  ranges : c.clipBytes.length ≤ rangesSize
  written : Rewritten m m' { c.header f with misc := newMisc c f b (c.numSamples - (segs.map Seg.count).sum != 0) ((keptSizes l).sum != 0) }
    c.segments.length c.formatSize (startSizeOf c.segments.length) (4 * (typeWords c).length) (rangesAt - constantsAt) rangesSize segs
    typesAt constantsAt rangesAt cho m'.length o
  padding : Clip.base + segs.foldl segEnd o.segments + 15 ≤ m'.length
  size : load32 m' 0 = some (BitVec.ofNat 32 m'.length)
  hash : load32 m' 4 = some (hash32 (m'.drop 8))
  input : InputMeta se src (c.header f) tracks l m
  startIs : start = alignUp (Clip.base + segs.foldl segEnd o.segments) 4
  /-- with metadata: the offsets and the sections -/
  metadata : (keptSizes l).sum ≠ 0 → start + (keptSizes l).sum + 20 = m'.length ∧
    (∀ (i : Nat) w, (offsetWords (keptSizes l) start)[i]? = some w → load32 m' (m'.length - 20 + 4 * i) = some w) ∧
    ∀ (i : Nat) w z, (fieldWords se l)[i]? = some w → (keptSizes l)[i]? = some z → ∀ B, At m w.toNat B → B.length ≤ z →
      At m' (start + ((keptSizes l).take i).sum) B

theorem dataEnd_four (startSize n ts cs rs : Nat) (h4 : startSize % 4 = 0) (segs : List (Seg E)) :
    alignUp (dataEnd startSize n ts cs rs segs) 4 = alignUp (Clip.base + segs.foldl segEnd (offsetsOf startSize n ts cs rs).segments) 4 := by
  rw [dataEnd_eq _ _ _ _ _ h4]

/-- The first eight bytes. -/
theorem finish_ok {m : List (BitVec 8)} (h : 8 ≤ m.length) :
    ∃ m', DbBuffer.finishBuffer m m.length = some m' ∧ Upd m m' 0 8 ∧ load32 m' 0 = some (BitVec.ofNat 32 m'.length) ∧
      load32 m' 4 = some (hash32 (m'.drop 8)) := by
  have e := DbBuffer.finishBuffer_append (m.take 8) (m.drop 8) m.length (by rw [List.length_take]; omega) (by rw [List.length_drop]; omega)
  rw [List.take_append_drop] at e
  have hr := DbBuffer.rawBytes_length (m.drop 8)
  have hl : (DbBuffer.rawBytes (m.drop 8) ++ m.drop 8).length = m.length := by
    rw [List.length_append, hr, List.length_drop]; omega
  refine ⟨_, e, ⟨hl, fun i hi => ?_⟩, ?_, ?_⟩
  · rw [List.getElem?_append_right (by omega), hr, List.getElem?_drop]
    congr 1; omega
  · rw [hl]
    have := rawBuffer_size [m.drop 8]
    unfold rawBuffer at this
    simp only [List.flatten_cons, List.flatten_nil, List.append_nil] at this
    rw [hl] at this
    exact this
  · have := rawBuffer_hash [m.drop 8]
    unfold rawBuffer at this
    simp only [List.flatten_cons, List.flatten_nil, List.append_nil] at this
    rw [this, List.drop_left' hr]

theorem rewriteClip_ok (h : DbInput c e s src f m) {k : Nat} {high : List (Frame E)} (hh : TierFrames c k high) (cho : Nat) :
    ∃ m' segs o headersAt typesAt constantsAt rangesAt rangesSize b tracks l start, rewriteClip m high k cho = some m' ∧
      Rewrote c src f m high k cho m' segs o headersAt typesAt constantsAt rangesAt rangesSize b (effective src.isTransform e s) tracks l start := by
  obtain ⟨headersAt, typesAt, constantsAt, rangesAt, sec⟩ := h.sections
  obtain ⟨tracks, l, hi⟩ := h.reads
  obtain ⟨b, hb⟩ := h.compressed.header
  obtain ⟨segs, hs1, hs2, hs3⟩ := readSegs_ok h hh sec.headersAtIs c.segments.length 0 (by omega)
  simp only [Nat.zero_add] at hs3
  have hpos := segments_pos h.compressed.clip
  have hok : ∀ r ∈ segs, SegOk m c.segments.length c.formatSize r := by
    intro r hr
    obtain ⟨j, hj⟩ := List.mem_iff_getElem?.1 hr
    have hlt : j < c.segments.length := by rw [← hs2]; exact (List.getElem?_eq_some_iff.1 hj).1
    exact (hs3 j r _ hj (List.getElem?_eq_getElem hlt)).ok
  obtain ⟨first, hfirst⟩ : ∃ r, segs[0]? = some r := ⟨_, List.getElem?_eq_getElem (by omega)⟩
  have r0 := hs3 0 first _ hfirst (List.getElem?_eq_getElem hpos)
  have hf1 := sec.first _ _ _ r0.found
  have hfin : first.fmt ≤ m.length := by
    have e1 := r0.ok.rng
    have e2 := r0.ok.anim
    have e3 := r0.ok.inside
    have := alignUp_le (first.fmt + c.formatSize) 2 (by omega)
    have := alignUp_le (first.rng + if c.segments.length > 1 then 6 * c.formatSize else 0) 4 (by omega)
    omega
  have h4 : startSizeOf c.segments.length % 4 = 0 := by unfold startSizeOf; split <;> omega
  have hbn : (BitVec.ofNat 32 c.bones.length).toNat = c.bones.length := by rw [BitVec.toNat_ofNat, Nat.mod_eq_of_lt h.compressed.clip.bones.2]
  have hsn : (BitVec.ofNat 32 c.numSamples).toNat = c.numSamples := by
    rw [BitVec.toNat_ofNat, Nat.mod_eq_of_lt (by have := h.compressed.clip.numSamples; omega)]
  have hscale := (misc_read c f b).2.2.2.1
  have hts : numSubTrackEntries c.bones.length * (if getHasScale (setHasMetadata (c.misc f) b) = true then 3 else 2) * 4 = 4 * (typeWords c).length := by
    rw [hscale, typeWords_length, Nat.mul_comm 4]
  have hmod := keptSizes_mod hi
  have hms := metadataSize_sum (keptSizes l) hmod
  generalize ho : offsetsOf (startSizeOf c.segments.length) c.segments.length (4 * (typeWords c).length) (rangesAt - constantsAt) (first.fmt - rangesAt) = o
  have hde : dataEnd (startSizeOf c.segments.length) c.segments.length (4 * (typeWords c).length) (rangesAt - constantsAt) (first.fmt - rangesAt) segs =
      Clip.base + segs.foldl segEnd o.segments := by rw [dataEnd_eq _ _ _ _ _ h4, ho]
  generalize hZ : Clip.base + segs.foldl segEnd o.segments = Z at *
  have hsum4 : (keptSizes l).sum % 4 = 0 := by
    have : ∀ (q : List Nat), (∀ z ∈ q, z % 4 = 0) → q.sum % 4 = 0 := by
      intro q
      induction q with
      | nil => intro _; rfl
      | cons z q ih =>
        intro hq
        have := hq z List.mem_cons_self
        have := ih fun y hy => hq y (List.mem_cons_of_mem _ hy)
        rw [List.sum_cons]; omega
    exact this _ hmod
  have hbs : ∃ size, bufferSize (metadataSize (keptSizes l)) Z = size ∧ Z + 15 ≤ size ∧
      ((keptSizes l).sum ≠ 0 → alignUp Z 4 + (keptSizes l).sum + 20 = size) := by
    refine ⟨_, rfl, ?_, ?_⟩
    · rw [hms]; unfold bufferSize; simp only [Meta.alignUp4]; split <;> omega
    · intro hne; rw [hms]; unfold bufferSize; simp only [Meta.alignUp4]; split <;> omega
  obtain ⟨size, hsize, hz1, hz2⟩ := hbs
  obtain ⟨m1, w1, R1⟩ := writeClip_ok (input := m) (h := { c.header f with misc := setHasMetadata (c.misc f) b }) (n := c.segments.length) (nv := c.formatSize)
    (typesSize := 4 * (typeWords c).length) (constantsSize := rangesAt - constantsAt) (rangesSize := first.fmt - rangesAt) (segs := segs)
    (typesAt := typesAt) (constantsAt := constantsAt) (rangesAt := rangesAt) (cho := cho) (size := size)
    (misc := newMisc c f b (c.numSamples - (segs.map Seg.count).sum != 0) ((keptSizes l).sum != 0))
    (startSize := startSizeOf c.segments.length) (o := o) rfl ho.symm hs2 sec.startsIn sec.typesIn
    (by have := sec.constantsIn; have := sec.rangesIn; omega) (by have := sec.rangesIn; omega) hok (by rw [hZ]; omega)
  have hB : Clip.base = 32 := rfl
  have hge := foldl_ge segs o.segments
  have hstep : ∃ m2, (if metadataSize (keptSizes l) ≠ 0 then writeMetadata m (fieldWords (effective src.isTransform e s) l) (keptSizes l) (size - 20) (alignUp Z 4) m1 else some m1) = some m2 ∧
      Upd m1 m2 Z size ∧ ((keptSizes l).sum ≠ 0 →
    (∀ (i : Nat) w, (offsetWords (keptSizes l) (alignUp Z 4))[i]? = some w → load32 m2 (size - 20 + 4 * i) = some w) ∧
    ∀ (i : Nat) w z, (fieldWords (effective src.isTransform e s) l)[i]? = some w → (keptSizes l)[i]? = some z → ∀ B, At m w.toNat B → B.length ≤ z →
      At m2 (alignUp Z 4 + ((keptSizes l).take i).sum) B) := by
    by_cases hne : (keptSizes l).sum = 0
    · refine ⟨m1, ?_, Upd.refl _ _ _, fun h => absurd hne h⟩
      rw [hms, if_neg (by omega)]
    · have hq := hz2 hne
      have hal := alignUp_le Z 4 (by omega)
      obtain ⟨m2, a1, a2, a3, a4⟩ := writeMetadata_ok (input := m) (m := m1) (fields := fieldWords (effective src.isTransform e s) l) (sizes := keptSizes l) (slot := size - 20)
        (start := alignUp Z 4) rfl hmod (by
          have hlast := hi.last
          have hsm := hi.reads.small
          have e0 : l.slots = l.errorsStart + l.errors.length := rfl
          have e1 : l.errorsStart = l.descsStart + l.descs.length := rfl
          have e2 : l.descsStart = l.parentsStart + l.parents.length := rfl
          have e3 : l.parentsStart = l.namesStart + l.names.length + (4 - l.names.length % 4) % 4 := rfl
          have e4 : l.namesStart = l.nameStart + l.name.length + (4 - l.name.length % 4) % 4 := rfl
          obtain ⟨data, hl⟩ := hi.layout
          have b0 : (effective src.isTransform e s).listName = false → l.name = [] := fun hb => by rw [hl]; show sect _ _ = []; rw [hb]; rfl
          have b1 : (effective src.isTransform e s).trackNames = false → l.names = [] := fun hb => by rw [hl]; show sect _ _ = []; rw [hb]; rfl
          have b2 : (effective src.isTransform e s).parents = false → l.parents = [] := fun hb => by rw [hl]; show sect _ _ = []; rw [hb]; rfl
          have b3 : (effective src.isTransform e s).descriptions = false → l.descs = [] := fun hb => by rw [hl]; show sect _ _ = []; rw [hb]; rfl
          have key : ∀ (bb : Bool) (p q : Nat), p ≤ q → q ≤ l.slots → (bb = false → q = p) → q - p ≠ 0 → (offsetWord bb p).toNat + (q - p) ≤ m.length := by
            intro bb p q h1 h2 h3 h4
            cases bb with
            | false => exact absurd (h3 rfl) (by omega)
            | true => rw [C29.offset_toNat p (by omega)]; omega
          intro q hq hne
          unfold fieldWords keptSizes at hq
          simp only [List.zip_cons_cons, List.zip_nil_right, List.mem_cons, List.not_mem_nil, or_false] at hq
          rcases hq with hq | hq | hq | hq <;> subst hq <;> dsimp only at hne ⊢
          · exact key _ _ _ (by omega) (by omega) (fun hb => by rw [e4, b0 hb]; rfl) hne
          · exact key _ _ _ (by omega) (by omega) (fun hb => by rw [e3, b1 hb]; rfl) hne
          · exact key _ _ _ (by omega) (by omega) (fun hb => by rw [e2, b2 hb]; rfl) hne
          · exact key _ _ _ (by omega) (by omega) (fun hb => by rw [e1, b3 hb]; rfl) hne) (by omega) (by rw [R1.length]; show size - 20 + 20 ≤ size; omega)
      refine ⟨m2, by rw [hms, if_pos hne, a1], a2.mono (by omega) (by show size - 20 + 20 ≤ size; omega), fun _ => ⟨a3, a4⟩⟩
  obtain ⟨m2, w2, u2, d2⟩ := hstep
  have R2 := R1.mono h4 ho.symm hs2 u2 (Or.inr (by omega))
  obtain ⟨m3, w3, u3, z3, x3⟩ := finish_ok (m := m2) (by rw [R2.length]; omega)
  have R3 := R2.mono h4 ho.symm hs2 u3 (Or.inl (by omega))
  have hl3 := R3.length
  have hl2 := R2.length
  refine ⟨m3, segs, o, headersAt, typesAt, constantsAt, rangesAt, first.fmt - rangesAt, b, tracks, l, alignUp Z 4, ?_, ?_⟩
  · unfold rewriteClip
    rw [hb, Option.bind_some, sec.segments, Option.bind_some, sec.numVariable, Option.bind_some, sec.headersAtIs, Option.bind_some, sec.typesAtIs,
      Option.bind_some, sec.constantsAtIs, Option.bind_some, sec.rangesAtIs, Option.bind_some, hs1, Option.bind_some,
      show segs.head? = some first by rw [← hfirst]; exact List.head?_eq_getElem?, Option.bind_some, hi.fields h.transform, Option.bind_some,
      hi.sizes, Option.bind_some]
    dsimp only
    rw [show (c.header f).numTracks.toNat = c.bones.length from hbn, hts, show (c.header f).numSamples.toNat = c.numSamples from hsn,
      show (if c.segments.length > 1 then 4 * (c.segments.length + 1) else 0) = startSizeOf c.segments.length from rfl, hde, hsize]
    have hw1 := w1
    unfold newMisc at hw1
    rw [hms] at w2 ⊢
    rw [hw1, Option.bind_some, w2, Option.bind_some, ← hl2, w3]
  · exact {
      sections := sec
      count := hs2
      each := hs3
      offsets := ho.symm
      ranges := by omega
      written := by rw [hl3]; exact R3
      padding := by omega
      size := z3
      hash := x3
      input := hi
      startIs := by rw [hZ]
      metadata := fun hne => by
        obtain ⟨d3, d4⟩ := d2 hne
        have hq := hz2 hne
        have hal := alignUp_le Z 4 (by omega)
        refine ⟨by omega, fun i w hw => ?_, fun i w z h1 h2 B h3 h5 => u3.at (d4 i w z h1 h2 B h3 h5) (Or.inr (by omega))⟩
        rw [hl3, u3.load (Or.inr (by omega))]
        exact d3 i w hw }

end Acl.Rewrite
