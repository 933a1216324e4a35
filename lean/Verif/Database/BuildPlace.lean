import Verif.Database.BuildServe
/-
Where the key frames go, and the round trip of the clips of a database.
-/
namespace Acl.DbBuild
open Acl.Headers Acl.Tiers Acl.Chunks Acl.Runtime Acl.Rewrite Acl.Transform Acl.Meta Acl.C43 Acl.C21 Acl.C22 Acl.C23 Acl.DbBuffer Acl.Seek.Spec

variable {E : Type} [LinearOrder E] [OrderTop E] [Zero E]

/-- Key frame `n` of clip `k` is in tier `t`, in chunk `i`. -/
def PlacedIn (d : Tiers E) (k n t i : Nat) : Prop := t < 2 ∧ ∃ fr ∈ d.frames t, fr.tracksIndex = k ∧ fr.clipFrameIndex = n ∧ ∃ h, d.Has t i k fr.segmentIndex h

open Classical in
/-- Where key frames went. -/
noncomputable def placeOf (d : Tiers E) : Place := fun k n =>
  if h : ∃ p : Nat × Nat, PlacedIn d k n p.1 p.2 then some (Classical.choose h) else none

section
variable {xs : List Input} {max wantLow wantMedium : Nat} {outs : List (List (BitVec 8))} {content : DbBuffer.Content}
  {clips : List (Tiers.Clip E)} {d : Tiers E} {high : List (Frame E)} {dbClips : List DbClip}

/-- A key frame is in one tier, once. -/
theorem Made.once (h : Made xs max wantLow wantMedium outs content clips d high dbClips) {a b : Frame E}
    {i j : Nat} (ha : (d.frames 1 ++ d.frames 0 ++ high)[i]? = some a) (hb : (d.frames 1 ++ d.frames 0 ++ high)[j]? = some b)
    (h1 : a.tracksIndex = b.tracksIndex) (h2 : a.clipFrameIndex = b.clipFrameIndex) : i = j := by
  have hper := h.tiering.partition a.tracksIndex (h.tiering.clip a (List.mem_of_getElem? ha))
  have hnd := hper.nodup_iff.2 List.nodup_range
  rw [List.Nodup, List.pairwise_map, List.pairwise_filter] at hnd
  generalize d.frames 1 ++ d.frames 0 ++ high = L at *
  obtain ⟨hi, rfl⟩ := List.getElem?_eq_some_iff.1 ha
  obtain ⟨hj, rfl⟩ := List.getElem?_eq_some_iff.1 hb
  rw [List.pairwise_iff_getElem] at hnd
  rcases Nat.lt_trichotomy i j with hl | hl | hl
  · exact absurd h2 (hnd i j hi hj hl (by simp) (by simp [h1]))
  · exact hl
  · exact absurd h2.symm (hnd j i hj hi hl (by simp [h1]) (by simp))

theorem mem_tiers {t : Nat} (ht : t < 2) {f : Frame E} (hf : f ∈ d.frames t) : ∃ i, (d.frames 1 ++ d.frames 0 ++ high)[i]? = some f ∧
    i < (d.frames 1).length + (d.frames 0).length ∧ (t = 1 ↔ i < (d.frames 1).length) := by
  obtain ⟨i, hi⟩ := List.mem_iff_getElem?.1 hf
  have hlt := (List.getElem?_eq_some_iff.1 hi).1
  rcases (show t = 0 ∨ t = 1 by omega) with rfl | rfl
  · refine ⟨(d.frames 1).length + i, ?_, by omega, by constructor <;> intro h <;> omega⟩
    rw [List.append_assoc, List.getElem?_append_right (by omega), List.getElem?_append_left (by omega), Nat.add_sub_cancel_left]
    exact hi
  · refine ⟨i, ?_, by omega, by constructor <;> intro h <;> omega⟩
    rw [List.append_assoc, List.getElem?_append_left hlt]
    exact hi

theorem mem_high {f : Frame E} (hf : f ∈ high) : ∃ i, (d.frames 1 ++ d.frames 0 ++ high)[i]? = some f ∧
    (d.frames 1).length + (d.frames 0).length ≤ i := by
  obtain ⟨i, hi⟩ := List.mem_iff_getElem?.1 hf
  refine ⟨(d.frames 1).length + (d.frames 0).length + i, ?_, by omega⟩
  rw [List.getElem?_append_right (by rw [List.length_append]; omega), List.length_append, Nat.add_sub_cancel_left]
  exact hi

theorem Made.placed_unique (h : Made xs max wantLow wantMedium outs content clips d high dbClips) {k n t i t' i' : Nat}
    (hp : PlacedIn d k n t i) (hp' : PlacedIn d k n t' i') : t = t' ∧ i = i' := by
  obtain ⟨ht, fr, h1, h2, h3, hh, h4⟩ := hp
  obtain ⟨ht', fr', h1', h2', h3', hh', h4'⟩ := hp'
  obtain ⟨j, j1, j2, j3⟩ := mem_tiers (high := high) ht h1
  obtain ⟨j', j1', j2', j3'⟩ := mem_tiers (high := high) ht' h1'
  have hj := h.once j1 j1' (by rw [h2, h2']) (by rw [h3, h3'])
  subst hj
  have htt : t = t' := by omega
  subst htt
  rw [j1, Option.some.injEq] at j1'
  subst j1'
  exact ⟨rfl, (located_unique (h.chunks t ht).nodup h4 h4').1⟩

theorem Made.place_some (h : Made xs max wantLow wantMedium outs content clips d high dbClips) {k n t i : Nat} :
    placeOf d k n = some (t, i) ↔ PlacedIn d k n t i := by
  unfold placeOf
  constructor
  · intro hp
    split at hp
    · rename_i hx
      rw [Option.some.injEq] at hp
      have := Classical.choose_spec hx
      rw [hp] at this
      exact this
    · simp at hp
  · intro hp
    have hx : ∃ p : Nat × Nat, PlacedIn d k n p.1 p.2 := ⟨(t, i), hp⟩
    rw [dif_pos hx]
    obtain ⟨h1, h2⟩ := h.placed_unique (Classical.choose_spec hx) hp
    congr 1
    exact Prod.ext h1 h2

theorem Made.place_none (h : Made xs max wantLow wantMedium outs content clips d high dbClips) {k n : Nat} :
    placeOf d k n = none ↔ ∀ t, t < 2 → ¬ ∃ fr ∈ d.frames t, fr.tracksIndex = k ∧ fr.clipFrameIndex = n := by
  constructor
  · intro hp t ht hx
    obtain ⟨fr, h1, h2, h3⟩ := hx
    obtain ⟨i, hh, h4⟩ := (h.chunks t ht).all fr h1
    have : placeOf d k n = some (t, i) := h.place_some.2 ⟨ht, fr, h1, h2, h3, hh, by rw [← h2]; exact h4⟩
    rw [hp] at this
    simp at this
  · intro hn
    cases hp : placeOf d k n with
    | none => rfl
    | some p =>
      obtain ⟨ht, fr, h1, h2, h3, -⟩ := (h.place_some (t := p.1) (i := p.2)).1 hp
      exact absurd ⟨fr, h1, h2, h3⟩ (hn _ ht)

/-- The accessors of the new clips. -/
theorem Made.sameAccessors (h : Made xs max wantLow wantMedium outs content clips d high dbClips) (hout : ∀ m' ∈ outs, m'.length < 2 ^ 32) :
    SameAccessors xs outs (placeOf d) := by
  intro k x m' hx hm
  refine ⟨_, h.api k x m' hx hm (hout m' (List.mem_of_getElem? hm)), ?_⟩
  have hk : k < clips.length := by rw [h.clipsLength]; exact (List.getElem?_eq_some_iff.1 hx).1
  have hper := h.tiering.partition k hk
  rw [sizesOf_eq hx] at hper
  have hsum : x.sizes.sum = x.c.numSamples := rfl
  rw [hsum] at hper
  have hlen := hper.length_eq
  rw [List.length_map, List.length_range, List.filter_append, List.filter_append, List.length_append, List.length_append] at hlen
  rw [bne_iff_ne]
  constructor
  · intro hne
    have hex : ∃ t, t < 2 ∧ (d.frames t).filter (fun fr => fr.tracksIndex == k) ≠ [] := by
      by_cases h1 : (d.frames 1).filter (fun fr => fr.tracksIndex == k) = []
      · by_cases h0 : (d.frames 0).filter (fun fr => fr.tracksIndex == k) = []
        · rw [h0, h1] at hlen
          simp only [List.length_nil] at hlen
          omega
        · exact ⟨0, by omega, h0⟩
      · exact ⟨1, by omega, h1⟩
    obtain ⟨t, ht, hne2⟩ := hex
    obtain ⟨fr, hfr⟩ := List.exists_mem_of_ne_nil _ hne2
    obtain ⟨f1, f2⟩ := List.mem_filter.1 hfr
    have f2' : fr.tracksIndex = k := by simpa using f2
    refine ⟨fr.clipFrameIndex, ?_, fun hn => (h.place_none.1 hn) t ht ⟨fr, f1, f2', rfl⟩⟩
    have hmem : fr ∈ (d.frames 1 ++ d.frames 0 ++ high).filter fun f => f.tracksIndex == k := by
      refine List.mem_filter.2 ⟨?_, f2⟩
      rcases (show t = 0 ∨ t = 1 by omega) with rfl | rfl <;> simp [f1]
    have := hper.mem_iff.1 (List.mem_map.2 ⟨fr, hmem, rfl⟩)
    rwa [List.mem_range] at this
  · rintro ⟨n, -, hp⟩
    have : ¬ ∀ t, t < 2 → ¬ ∃ fr ∈ d.frames t, fr.tracksIndex = k ∧ fr.clipFrameIndex = n := fun hall => hp (h.place_none.2 hall)
    push Not at this
    obtain ⟨t, ht, fr, f1, f2, -⟩ := this
    have hpos : 0 < ((d.frames t).filter fun fr => fr.tracksIndex == k).length :=
      List.length_pos_iff.2 (List.ne_nil_of_mem (List.mem_filter.2 ⟨f1, by simpa using f2⟩))
    rcases (show t = 0 ∨ t = 1 by omega) with rfl | rfl <;> omega

/-- A frame of a tier, by its number in the clip. -/
theorem Made.tier_iff (h : Made xs max wantLow wantMedium outs content clips d high dbClips) {k g i n : Nat} {x : Input} (hx : xs[k]? = some x)
    (hf : C49.Frame x.c n g i) (tier : List (Frame E)) (htier : tier = d.frames 0 ∨ tier = d.frames 1 ∨ tier = high) :
    InTierAt tier k g i ↔ ∃ fr ∈ tier, fr.tracksIndex = k ∧ fr.clipFrameIndex = n := by
  have hsub : ∀ f ∈ tier, f ∈ d.frames 1 ++ d.frames 0 ++ high := by
    intro f hf
    rcases htier with rfl | rfl | rfl <;> simp [hf]
  have hframe : ∀ fr ∈ tier, fr.tracksIndex = k → C49.Frame x.c fr.clipFrameIndex fr.segmentIndex fr.segmentFrameIndex := by
    intro fr hfr hk
    obtain ⟨m, clip, h1, h2, h3, -⟩ := h.tiering.fields fr (hsub fr hfr)
    rw [hk, sizesOf_eq hx] at h1 h3
    unfold Input.sizes at h1
    rw [List.getElem?_map, Option.map_eq_some_iff] at h1
    obtain ⟨t, ht, rfl⟩ := h1
    exact ⟨t, ht, h2, by rw [← h3, List.map_take]; rfl⟩
  constructor
  · rintro ⟨fr, h1, h2, h3, h4⟩
    refine ⟨fr, h1, h2, ?_⟩
    obtain ⟨t, -, -, e⟩ := hframe fr h1 h2
    obtain ⟨t', -, -, e'⟩ := hf
    rw [e, e', h3, h4]
  · rintro ⟨fr, h1, h2, h3⟩
    have := hframe fr h1 h2
    rw [h3] at this
    obtain ⟨a, b⟩ := C49.frame_unique this hf
    exact ⟨fr, h1, h2, a, b⟩

/-- What a decoder can use. -/
theorem Made.available_iff (h : Made xs max wantLow wantMedium outs content clips d high dbClips) {k g i n : Nat} {x : Input} (hx : xs[k]? = some x)
    (hf : C49.Frame x.c n g i) (loaded : Nat → Nat → Bool) :
    AvailableAt d high loaded k g i ↔ Available (placeOf d) loaded k n := by
  have htier : ∀ t, t < 2 → (d.frames t = d.frames 0 ∨ d.frames t = d.frames 1 ∨ d.frames t = high) := by
    intro t ht
    rcases (show t = 0 ∨ t = 1 by omega) with rfl | rfl
    · exact Or.inl rfl
    · exact Or.inr (Or.inl rfl)
  unfold AvailableAt Available
  constructor
  · rintro (h1 | ⟨t, ht, h1, h2⟩)
    · left
      rw [h.place_none]
      rintro t ht ⟨fr, f1, f2, f3⟩
      obtain ⟨fr', g1, g2, g3⟩ := (h.tier_iff hx hf high (Or.inr (Or.inr rfl))).1 h1
      obtain ⟨a, a1, a2, -⟩ := mem_tiers (high := high) ht f1
      obtain ⟨b, b1, b2⟩ := mem_high (d := d) g1
      have := h.once a1 b1 (by rw [f2, g2]) (by rw [f3, g3])
      omega
    · right
      obtain ⟨j, hh, c1, c2⟩ := h2
      obtain ⟨fr', q1, q2, q3, q4⟩ := id h1
      obtain ⟨fr, f1, f2, f3⟩ := (h.tier_iff hx hf (d.frames t) (htier t ht)).1 h1
      obtain ⟨a, a1, a2, a3⟩ := mem_tiers (high := high) ht f1
      have hn : fr'.clipFrameIndex = n := by
        obtain ⟨m, clip, h1, h2, h3, -⟩ := h.tiering.fields fr' (by
          rcases (show t = 0 ∨ t = 1 by omega) with rfl | rfl <;> simp [q1])
        obtain ⟨t', -, -, e'⟩ := hf
        rw [q2, sizesOf_eq hx, q3, q4] at h3
        rw [← h3, e', List.map_take]
        rfl
      exact ⟨t, j, h.place_some.2 ⟨ht, fr', q1, q2, hn, hh, by rw [q3]; exact c1⟩, c2⟩
  · rintro (h1 | ⟨t, j, h1, h2⟩)
    · left
      rw [h.place_none] at h1
      rw [h.tier_iff hx hf high (Or.inr (Or.inr rfl))]
      have hk : k < clips.length := by rw [h.clipsLength]; exact (List.getElem?_eq_some_iff.1 hx).1
      have hper := h.tiering.partition k hk
      rw [sizesOf_eq hx] at hper
      obtain ⟨s, hs, hi, e⟩ := hf
      have hlt : n < x.sizes.sum := by
        have hsz : x.sizes[g]? = some s.numSamples := by unfold Input.sizes; rw [List.getElem?_map, hs]; rfl
        have h1 := C49.sum_take_succ x.sizes g _ hsz
        have h2 := C49.sum_take_mono x.sizes (show g + 1 ≤ x.sizes.length from (List.getElem?_eq_some_iff.1 hsz).1)
        rw [List.take_of_length_le (Nat.le_refl _)] at h2
        rw [e, List.map_take]
        change ((x.sizes.take g).sum) + i < _
        omega
      have hmem := hper.mem_iff.2 (List.mem_range.2 hlt)
      obtain ⟨fr, hfr, he⟩ := List.mem_map.1 hmem
      obtain ⟨hfr, hfk⟩ := List.mem_filter.1 hfr
      have hfk : fr.tracksIndex = k := by simpa using hfk
      rcases List.mem_append.1 hfr with hlm | hh
      · rcases List.mem_append.1 hlm with hl | hm
        · exact absurd ⟨fr, hl, hfk, he⟩ (h1 1 (by omega))
        · exact absurd ⟨fr, hm, hfk, he⟩ (h1 0 (by omega))
      · exact ⟨fr, hh, hfk, he⟩
    · right
      obtain ⟨ht, fr, f1, f2, f3, hh, f4⟩ := h.place_some.1 h1
      have hin := (h.tier_iff hx hf (d.frames t) (htier t ht)).2 ⟨fr, f1, f2, f3⟩
      refine ⟨t, ht, hin, j, hh, ?_, h2⟩
      obtain ⟨m, clip, e1, e2, e3, -⟩ := h.tiering.fields fr (by
          rcases (show t = 0 ∨ t = 1 by omega) with rfl | rfl <;> simp [f1])
      rw [f2, sizesOf_eq hx] at e1 e3
      unfold Input.sizes at e1
      rw [List.getElem?_map, Option.map_eq_some_iff] at e1
      obtain ⟨t', ht', rfl⟩ := e1
      have hfr : C49.Frame x.c n fr.segmentIndex fr.segmentFrameIndex := ⟨t', ht', e2, by rw [← f3, ← e3, List.map_take]; rfl⟩
      rw [← (C49.frame_unique hfr hf).1]
      exact f4

/-- Every key frame number is a sample of a segment. -/
theorem frame_exists (c : ClipSource) (n : Nat) (h : n < c.numSamples) : ∃ g i, C49.Frame c n g i := by
  have key : ∀ (l : List SegmentSource) (n : Nat), n < (l.map (·.numSamples)).sum → ∃ (g i : Nat) (s : SegmentSource), l[g]? = some s ∧ i < s.numSamples ∧
      n = ((l.take g).map (·.numSamples)).sum + i := by
    intro l
    induction l with
    | nil => intro n hn; simp at hn
    | cons a l ih =>
      intro n hn
      rw [List.map_cons, List.sum_cons] at hn
      by_cases hlt : n < a.numSamples
      · exact ⟨0, n, a, rfl, hlt, by simp⟩
      · obtain ⟨g, i, s, h1, h2, h3⟩ := ih (n - a.numSamples) (by omega)
        refine ⟨g + 1, i, s, by simpa using h1, h2, ?_⟩
        rw [List.take_succ_cons, List.map_cons, List.sum_cons]
        omega
  obtain ⟨g, i, s, h1, h2, h3⟩ := key c.segments n h
  exact ⟨g, i, s, h1, h2, h3⟩

/-- **The round trip**, for any database that has the chunks. -/
theorem Made.decodes (h : Made xs max wantLow wantMedium outs content clips d high dbClips) (hsmall : Context.runtimeSize dbClips < 2 ^ 32)
    (hbulk : ∀ t, t < 2 → (d.memory t).length < 2 ^ 32) (hout : ∀ m' ∈ outs, m'.length < 2 ^ 32)
    {db : List (BitVec 8)} {bulk : Nat → List (BitVec 8)} {v : View} (hs : Serves d dbClips db bulk v) : Decodes xs outs db bulk (placeOf d) := by
  intro events hl
  obtain ⟨headers, h1, h2⟩ := hs.streamed h.chunks hsmall hbulk false events hl (by simp)
  refine ⟨headers, h1, fun ha => ?_, ?_⟩
  · obtain ⟨headers', h3, -⟩ := hs.streamed h.chunks hsmall hbulk true events hl (fun _ => ha)
    have h4 := streamed_release h3
    rw [h1] at h4
    rw [h3, h4]
  intro k x m' hx hm' medium low hr0 hr1 α remapAlpha wrapping kf0 kf1 hkf alpha perTrack rounding
  have hin := h.inDb k x m' hx hm' (hout m' (List.mem_of_getElem? hm'))
  obtain ⟨ctx, g0, i0, g1, i1, t0, t1, n0, n1, r1, r2, r3, r4, r5, r6, r7, r8, r9, r10, r11, r12, r13, r14⟩ :=
    hin.seek h.chunks hsmall hbulk h2 (hs.memoryOk h.chunks hbulk (by omega) hr0) (hs.memoryOk h.chunks hbulk (by omega) hr1)
      remapAlpha wrapping kf0 kf1 hkf alpha perTrack rounding
  have f0 : C49.Frame x.c n0 g0 i0 := ⟨t0, r3, r4, r5⟩
  have f1 : C49.Frame x.c n1 g1 i1 := ⟨t1, r6, r7, r8⟩
  have hsum : ∀ n g i, C49.Frame x.c n g i → n < x.c.numSamples := by
    rintro n g i ⟨s, hs, hi, e⟩
    have hsz : (x.c.segments.map (·.numSamples))[g]? = some s.numSamples := by rw [List.getElem?_map, hs]; rfl
    have h1 := C49.sum_take_succ _ g _ hsz
    have h2 := C49.sum_take_mono (x.c.segments.map (·.numSamples)) (show g + 1 ≤ (x.c.segments.map (·.numSamples)).length from (List.getElem?_eq_some_iff.1 hsz).1)
    rw [List.take_of_length_le (Nat.le_refl _)] at h2
    rw [e, List.map_take]
    rw [sum_sizes] at h2
    omega
  refine ⟨ctx, n0, n1, r1, ⟨r9, (h.available_iff hx f0 _).1 r10, ?_⟩, ⟨r12, (h.available_iff hx f1 _).1 r13, ?_⟩, fun w hp => ?_⟩
  · intro j hj1 hj2 ha
    obtain ⟨g, i, f⟩ := frame_exists x.c j (by have := hkf.1; omega)
    obtain ⟨t, f2, f3, f4⟩ := id f
    exact r11 g i t f2 f3 (by omega) (by omega) ((h.available_iff hx f _).2 ha)
  · intro j hj1 hj2 ha
    obtain ⟨g, i, f⟩ := frame_exists x.c j (by have := hsum n1 g1 i1 f1; omega)
    obtain ⟨t, f2, f3, f4⟩ := id f
    exact r14 g i t f2 f3 (by omega) (by omega) ((h.available_iff hx f _).2 ha)
  · exact C49.reads_of hin.input.compressed.clip r2 f0 f1 w hp

end

end Acl.DbBuild
