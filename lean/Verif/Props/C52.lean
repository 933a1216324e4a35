import Verif.Database.BuildPlace
import Verif.Database.BuildBind
import Verif.Database.ConcurrentLemmas
import Mathlib.Data.List.Sort
/-!
C52: a database and the clips bound to it decode as the clips they were built from, whatever is streamed in.
Specification vocabulary in Database/BuildSpec.lean: `Legal` (histories of chunks streamed in and out), `Alternates` (what the asserts ask of them), `Place`, `Available`,
`NearestBefore`, `NearestAfter`, `Placement`, `Decodes`; `InputOk` (what build_database accepts) in Database/BuildLemmas.lean;
`C49.Reads` (what a decoder writes when it reads two key frames of a clip).
-/
namespace Acl.C52
open Acl.Headers Acl.Tiers Acl.Chunks Acl.Runtime Acl.Rewrite Acl.Transform Acl.Meta Acl.C43 Acl.C21 Acl.C22 Acl.C23 Acl.DbBuffer Acl.Seek.Spec Acl.DbBuild

variable {E : Type} [LinearOrder E] [OrderTop E] [Zero E]

/-! ### Proof -/

theorem databaseSize_eq (c : Content) : databaseSize c = (C47.viewOf c).buffer.length := by
  have hp := C47.padded_length c
  change (C47.viewOf c).storedMedium.length = _ at hp
  rw [buffer_length, hp]
  show _ = ((64 + 8 * c.medium.length + 8 * c.low.length + 8 * c.clips.length) + (16 - (64 + 8 * c.medium.length + 8 * c.low.length + 8 * c.clips.length) % 16) % 16) +
    alignUp c.bulkMedium.length 16 + c.bulkLow.length
  unfold databaseSize alignUp
  omega

theorem bulkOf_eq {db : List (BitVec 8)} {v : View} (h : Represents db v) (hin : ∀ t, v.stored t = v.bulk t) (hs : ∀ t, (v.bulk t).length < 2 ^ 32) (t : Nat) :
    bulkOf db t = v.bulk (tierOf t) := by
  unfold bulkOf
  rw [h.bulkSize]
  obtain ⟨h1, h2⟩ := h.bulkData (tierOf t)
  rw [hin] at h1 h2
  by_cases hz : v.bulk (tierOf t) = []
  · rw [h1 hz, Option.bind_some, Option.bind_some, hz]
    rfl
  · obtain ⟨p, p1, p2⟩ := h2 hz
    rw [p1, Option.bind_some, Option.bind_some, DbBuffer.ofNat_toNat _ (hs _)]
    unfold copyOut
    rw [if_neg (fun hc => hz (List.length_eq_zero_iff.1 hc))]
    simp only [Option.bind_eq_bind, Option.bind_some, p2]
    rfl

section
variable {xs : List Input} {max wantLow wantMedium : Nat} {outs : List (List (BitVec 8))} {content : DbBuffer.Content}
  {clips : List (Tiers.Clip E)} {d : Tiers E} {high : List (Frame E)} {dbClips : List DbClip}

/-- The frames of a tier, by the clip they are of. -/
theorem moved_eq (h : Made xs max wantLow wantMedium outs content clips d high dbClips) {t : Nat} (ht : t < 2) :
    movedTo xs (placeOf d) t = (d.frames t).length := by
  have hsub : ∀ f ∈ d.frames t, f ∈ d.frames 1 ++ d.frames 0 ++ high := by
    intro f hf
    rcases (show t = 0 ∨ t = 1 by omega) with rfl | rfl <;> simp [hf]
  rw [← countClip_sum (d.frames t) xs.length (fun f hf => by rw [← h.clipsLength]; exact h.tiering.clip f (hsub f hf))]
  unfold movedTo
  congr 1
  refine List.map_congr_left fun k hk => ?_
  rw [List.mem_range] at hk
  have hx := List.getElem?_eq_getElem hk
  have hper := h.tiering.partition k (by rw [h.clipsLength]; exact hk)
  rw [show sizesOf xs k = ((xs[k]?).map Input.sizes).getD [] from rfl] at hper
  generalize (((xs[k]?).map Input.sizes).getD []).sum = total at *
  unfold countClip
  rw [← List.length_map (f := fun f : Frame E => f.clipFrameIndex)]
  have hnd := hper.nodup_iff.2 List.nodup_range
  have hsl : List.Sublist (d.frames t) (d.frames 1 ++ d.frames 0 ++ high) := by
    rcases (show t = 0 ∨ t = 1 by omega) with rfl | rfl
    · exact (List.sublist_append_right _ _).trans (List.sublist_append_left _ _)
    · exact (List.sublist_append_left _ _).trans (List.sublist_append_left _ _)
  have hnd1 : (((d.frames t).filter fun f => f.tracksIndex == k).map (·.clipFrameIndex)).Nodup := hnd.sublist ((hsl.filter _).map _)
  refine ((List.perm_ext_iff_of_nodup (List.nodup_range.filter _) hnd1).2 fun n => ?_).length_eq
  rw [List.mem_filter, List.mem_range, List.mem_map]
  constructor
  · rintro ⟨-, hp⟩
    have hp2 : (placeOf d k n).map (·.1) = some t := by simpa using hp
    rw [Option.map_eq_some_iff] at hp2
    obtain ⟨⟨t', i⟩, hp3, rfl⟩ := hp2
    obtain ⟨-, fr, f1, f2, f3, -⟩ := h.place_some.1 hp3
    exact ⟨fr, List.mem_filter.2 ⟨f1, by simpa using f2⟩, f3⟩
  · rintro ⟨fr, hf, rfl⟩
    obtain ⟨f1, f2⟩ := List.mem_filter.1 hf
    have f2' : fr.tracksIndex = k := by simpa using f2
    have hlt : fr.clipFrameIndex < total := by
      have := hper.mem_iff.1 (List.mem_map.2 ⟨fr, List.mem_filter.2 ⟨hsub fr f1, f2⟩, rfl⟩)
      rwa [List.mem_range] at this
    refine ⟨hlt, ?_⟩
    obtain ⟨i, hh, h4⟩ := (h.chunks t ht).all fr f1
    rw [(h.place_some (t := t) (i := i)).2 ⟨ht, fr, f1, f2', rfl, hh, by rw [← f2']; exact h4⟩]
    simp

theorem movable_eq (xs : List Input) : totalMovable (sizesOf xs) xs.length = movable xs := by
  unfold totalMovable movable
  congr 1
  apply List.ext_getElem?
  intro i
  by_cases hi : i < xs.length
  · rw [List.getElem?_map, List.getElem?_range hi, List.getElem?_map, List.getElem?_eq_getElem hi, Option.map_some, Option.map_some,
      sizesOf_eq (List.getElem?_eq_getElem hi)]
    rfl
  · rw [List.getElem?_eq_none (by rw [List.length_map, List.length_range]; omega), List.getElem?_eq_none (by rw [List.length_map]; omega)]

theorem placement_ok (h : Made xs max wantLow wantMedium outs content clips d high dbClips) (hbulk : ∀ t, t < 2 → (d.memory t).length < 2 ^ 32)
    {db : List (BitVec 8)} (hn : ∀ t, t < 2 → getNumChunks db (tierOf t) = some (BitVec.ofNat 32 (d.descs t).length)) :
    Placement xs wantLow wantMedium db (placeOf d) where
  boundary := by
    intro k x n hx hb
    rw [h.place_none]
    rintro t ht ⟨fr, f1, f2, f3⟩
    refine h.tiering.boundary fr ?_ ?_
    · rcases (show t = 0 ∨ t = 1 by omega) with rfl | rfl <;> simp [f1]
    · rw [f2, sizesOf_eq hx, f3]; exact hb
  chunk := by
    intro k n t i hp
    obtain ⟨ht, fr, f1, f2, f3, hh, f4⟩ := h.place_some.1 hp
    refine ⟨ht, _, hn t ht, ?_⟩
    rw [DbBuffer.ofNat_toNat _ (chunk_count h.chunks hbulk ht), (h.chunks t ht).descs, List.length_map]
    obtain ⟨_, _, ch, _, hc, _⟩ := f4
    exact (List.getElem?_eq_some_iff.1 hc).1
  low := by
    rw [moved_eq h (by omega), ← movable_eq, h.tiering.lowCount, h.clipsLength]
  medium := by
    rw [moved_eq h (by omega), moved_eq h (by omega), ← movable_eq, h.tiering.mediumCount, h.clipsLength]

end

theorem acceptsAll_ok : ∀ l : List (List (BitVec 8)), (∀ m ∈ l, accepts m = some true) → acceptsAll l = some true
  | [], _ => rfl
  | m :: l, h => by
    rw [acceptsAll, h m List.mem_cons_self, Option.bind_some, if_pos rfl]
    exact acceptsAll_ok l fun x hx => h x (List.mem_cons_of_mem _ hx)

/-- A clip of the database is a valid compressed clip. -/
theorem valid_ok {c : ClipSource} {f : ClipFlags} {high : List (Frame E)} {k cho : Nat} {m : List (BitVec 8)} (h : DbClipIs c f high k cho m)
    (hs : m.length < 2 ^ 32) : tracksIsValid m true true = some .ok := by
  obtain ⟨b, st, md, hh⟩ := h.header
  obtain ⟨f1, f2, f3⟩ := header_fields hh
  have h8 : 8 ≤ m.length := by
    by_contra hc
    have : load32 m 8 = none := by
      unfold load32
      rw [List.getElem?_eq_none (by omega)]
      rfl
    rw [this] at f1
    simp at f1
  unfold tracksIsValid
  simp only [Bool.not_true, Bool.false_eq_true, if_false, Option.bind_eq_bind, f1, f2, f3, Option.bind_some, if_true, h.size, h.hash,
    DbBuffer.ofNat_toNat _ hs]
  have e1 : (c.header f).tag = 0xac11ac11#32 := rfl
  have e2 : (c.header f).version = 10 := rfl
  have e3 : (c.header f).algorithm = 0#8 := rfl
  rw [e1, e2, e3]
  have e4 : (m.drop 8).take (m.length - 8) = m.drop 8 := List.take_of_length_le (by rw [List.length_drop])
  rw [e4]
  simp
  omega

theorem numFrames_pos {clips : List (Tiers.Clip E)} (hne : clips ≠ []) (h : ∀ c ∈ clips, 0 < c.numSamples) : numFrames clips ≠ 0 := by
  cases clips with
  | nil => exact absurd rfl hne
  | cons c l =>
    have := h c List.mem_cons_self
    rw [numFrames]
    omega

/-! ### The theorems -/

/-- **C52**, everything streamed in: the clips of the database decode exactly as the clips given. -/
theorem C52_all_loaded {xs : List Input} {outs : List (List (BitVec 8))} {db : List (BitVec 8)} {bulk : Nat → List (BitVec 8)} {place : Place}
    {wantLow wantMedium : Nat} (hd : Decodes xs outs db bulk place) (hp : Placement xs wantLow wantMedium db place)
    (events : List Runtime.Event) (hl : Legal db bulk events) (hall : AllLoaded db (loadedBy events)) :
    ∃ headers, streamed false db events = some headers ∧ (Alternates events (fun _ _ => false) → streamed true db events = some headers) ∧
      ∀ medium low, Resident db (bulk 0) (loadedBy events) 0 medium → Resident db (bulk 1) (loadedBy events) 1 low → Exact xs outs headers medium low := by
  obtain ⟨headers, h1, h1', h2⟩ := hd events hl
  refine ⟨headers, h1, h1', fun medium low hr0 hr1 k x m' hx hm α remapAlpha wrapping kf0 kf1 hkf alpha perTrack rounding => ?_⟩
  have hav : ∀ n, Available place (loadedBy events) k n := by
    intro n
    cases hpl : place k n with
    | none => exact Or.inl hpl
    | some p =>
      obtain ⟨t, i⟩ := p
      obtain ⟨ht, num, hn, hi⟩ := hp.chunk k n t i hpl
      exact Or.inr ⟨t, i, hpl, hall t ht num hn i hi⟩
  obtain ⟨ctx, n0, n1, s1, ⟨a1, a2, a3⟩, ⟨b1, b2, b3⟩, s4⟩ := h2 k x m' hx hm medium low hr0 hr1 α remapAlpha wrapping kf0 kf1 hkf alpha perTrack rounding
  have e0 : n0 = kf0 := by
    rcases Nat.lt_or_ge n0 kf0 with h | h
    · exact absurd (hav kf0) (a3 kf0 h (Nat.le_refl _))
    · omega
  have e1 : n1 = kf1 := by
    rcases Nat.lt_or_ge kf1 n1 with h | h
    · exact absurd (hav kf1) (b3 kf1 (Nat.le_refl _) h)
    · omega
  subst e0; subst e1
  exact ⟨ctx, s1, s4⟩

/-- **C52**, nothing streamed in: the decoder reads the nearest key frames which stayed in the clip. -/
theorem C52_nothing_loaded {xs : List Input} {outs : List (List (BitVec 8))} {db : List (BitVec 8)} {bulk : Nat → List (BitVec 8)} {place : Place}
    (hd : Decodes xs outs db bulk place) : ∃ headers, openHeaders db = some headers ∧
      ∀ (k : Nat) x m', xs[k]? = some x → outs[k]? = some m' → ∀ medium low,
      ∀ (α : Type) (remapAlpha : α → Nat → Nat → Nat → α) (wrapping : Bool) (kf0 kf1 : Nat), KeyFramePair wrapping x.c.numSamples kf0 kf1 →
      ∀ (alpha : α) (perTrack : Bool) (rounding : Transform.Rounding),
      ∃ ctx n0 n1, seekDbContext remapAlpha m' headers medium low wrapping kf0 kf1 alpha perTrack rounding = some (ctx, remapAlpha alpha kf0 n0 n1) ∧
        (n0 ≤ kf0 ∧ place k n0 = none ∧ ∀ j, n0 < j → j ≤ kf0 → place k j ≠ none) ∧
        (kf1 ≤ n1 ∧ place k n1 = none ∧ ∀ j, kf1 ≤ j → j < n1 → place k j ≠ none) ∧
        ∀ w : Writer, (perTrack = true → ∀ t, t < x.c.bones.length → w.rounding rounding t ≠ .perTrack) →
          C49.Reads x.c ctx w perTrack rounding n0 n1 := by
  obtain ⟨headers, h1, -, h2⟩ := hd [] fun e he => absurd he List.not_mem_nil
  refine ⟨headers, ?_, ?_⟩
  · unfold streamed applyEvents at h1
    simp only [Option.bind_eq_some_iff] at h1
    obtain ⟨hd, a4, _, _, _, _, a5⟩ := h1
    rw [a4]
    exact a5
  · intro k x m' hx hm medium low α remapAlpha wrapping kf0 kf1 hkf alpha perTrack rounding
    have hav : ∀ n, Available place (loadedBy []) k n ↔ place k n = none := by
      intro n
      constructor
      · rintro (h | ⟨t, i, _, h⟩)
        · exact h
        · exact absurd h (by simp [loadedAfter])
      · exact Or.inl
    have hres : ∀ b t mem, Resident db b (loadedBy []) t mem := by
      intro b t mem i hi
      exact absurd hi (by simp [loadedAfter])
    obtain ⟨ctx, n0, n1, s1, ⟨p1, p2, p3⟩, ⟨q1, q2, q3⟩, s4⟩ := h2 k x m' hx hm medium low (hres _ _ _) (hres _ _ _) α remapAlpha wrapping kf0 kf1 hkf alpha perTrack rounding
    refine ⟨ctx, n0, n1, s1, ⟨p1, (hav _).1 p2, fun j j1 j2 => ?_⟩, ⟨q1, (hav _).1 q2, fun j j1 j2 => ?_⟩, s4⟩
    · exact fun hc => p3 j j1 j2 ((hav _).2 hc)
    · exact fun hc => q3 j j1 j2 ((hav _).2 hc)

theorem legal_adds {db : List (BitVec 8)} {bulk : Nat → List (BitVec 8)} (mem : Nat → List (BitVec 8)) : ∀ (L : List (Nat × Nat)) (loaded : Nat → Nat → Bool), L.Nodup →
    (∀ p ∈ L, loaded p.1 p.2 = false ∧ p.1 < 2 ∧ HasChunk db (bulk p.1) p.1 p.2 (mem p.1)) →
    Legal db bulk (L.map fun p => ⟨true, p.1, p.2, mem p.1⟩) ∧ Alternates (L.map fun p => ⟨true, p.1, p.2, mem p.1⟩) loaded ∧
      ∀ t i, loadedAfter (L.map fun p => ⟨true, p.1, p.2, mem p.1⟩) loaded t i = (decide ((t, i) ∈ L) || loaded t i)
  | [], loaded, _, _ => ⟨fun e he => absurd he List.not_mem_nil, trivial, fun t i => by simp [loadedAfter]⟩
  | p :: L, loaded, hn, h => by
    obtain ⟨hp, hn⟩ := List.nodup_cons.1 hn
    obtain ⟨h1, h2, h3⟩ := h p List.mem_cons_self
    obtain ⟨i1, i3, i2⟩ := legal_adds mem L (fun t i => if t = p.1 ∧ i = p.2 then true else loaded t i) hn fun q hq => by
      obtain ⟨q1, q2, q3⟩ := h q (List.mem_cons_of_mem _ hq)
      refine ⟨?_, q2, q3⟩
      rw [if_neg, q1]
      rintro ⟨e1, e2⟩
      exact hp (Prod.ext e1 e2 ▸ hq)
    refine ⟨fun e he => ?_, ⟨h1, i3⟩, fun t i => ?_⟩
    · rcases List.mem_cons.1 he with rfl | he
      · exact ⟨h2, h3⟩
      · exact i1 e he
    rw [List.map_cons, loadedAfter, i2]
    by_cases hti : t = p.1 ∧ i = p.2
    · have : (t, i) ∈ p :: L := by rw [show (t, i) = p from Prod.ext hti.1 hti.2]; exact List.mem_cons_self
      simp [hti, this]
    · have : (t, i) ≠ p := fun hc => hti ⟨congrArg Prod.fst hc, congrArg Prod.snd hc⟩
      simp [hti, this]

/-- A context initialized from a database with its bulk data inline. -/
theorem inline_ok {xs : List Input} {outs : List (List (BitVec 8))} {db : List (BitVec 8)} {place : Place} {v : View}
    {wantLow wantMedium : Nat} (hR : Represents db v) (hin : ∀ t, v.stored t = v.bulk t) (hs : ∀ t, (v.bulk t).length < 2 ^ 32)
    (hchunks : ∀ t, t < 2 → (v.descs (tierOf t)).length < 2 ^ 32 ∧ ∀ e ∈ v.descs (tierOf t), 0 < e.1.toNat ∧ e.2.toNat + e.1.toNat ≤ (v.bulk (tierOf t)).length)
    (hd : Decodes xs outs db (bulkOf db) place) (hp : Placement xs wantLow wantMedium db place) :
    ∃ events headers p0 p1, inlineEvents db = some events ∧ Legal db (bulkOf db) events ∧ streamed true db events = some headers ∧ getBulkData db .medium = some p0 ∧
      getBulkData db .lowest = some p1 ∧ Exact xs outs headers (p0.map db.drop) (p1.map db.drop) := by
  have hbp : ∀ t, ∃ p : Option Nat, getBulkData db t = some p ∧ (v.bulk t ≠ [] → ∃ q, p = some q ∧ loadBytes db q (v.bulk t).length = some (v.bulk t)) := by
    intro t
    obtain ⟨h1, h2⟩ := hR.bulkData t
    rw [hin] at h1 h2
    by_cases hz : v.bulk t = []
    · exact ⟨none, h1 hz, fun h => absurd hz h⟩
    · obtain ⟨p, a, b⟩ := h2 hz
      exact ⟨some p, a, fun _ => ⟨p, rfl, b⟩⟩
  obtain ⟨p0, a1, a2⟩ := hbp .medium
  obtain ⟨p1, b1, b2⟩ := hbp .lowest
  let mem : Nat → List (BitVec 8) := fun t => ((if t = 0 then p0 else p1).map db.drop).getD []
  have hbulk := bulkOf_eq hR hin hs
  -- the bytes of every chunk are there
  have hhas : ∀ t, t < 2 → ∀ i, i < (v.descs (tierOf t)).length → ∃ q, (if t = 0 then p0 else p1) = some q ∧ (bulkOf db t).length ≤ (db.drop q).length ∧
      HasChunk db (bulkOf db t) t i (db.drop q) := by
    intro t ht i hi
    have hpt : v.bulk (tierOf t) ≠ [] → ∃ q, (if t = 0 then p0 else p1) = some q ∧ loadBytes db q (v.bulk (tierOf t)).length = some (v.bulk (tierOf t)) := by
      rcases (show t = 0 ∨ t = 1 by omega) with rfl | rfl
      · exact a2
      · exact b2
    obtain ⟨c1, c2⟩ := hchunks t ht
    have hgi := List.getElem?_eq_getElem hi
    obtain ⟨d1, d2⟩ := c2 _ (List.getElem_mem hi)
    obtain ⟨q, q1, q2⟩ := hpt (by intro hc; rw [hc] at d2; simp at d2; omega)
    unfold loadBytes at q2
    split at q2
    · rename_i hle
      rw [Option.some.injEq] at q2
      refine ⟨q, q1, by rw [hbulk, List.length_drop]; omega, _, _, hR.numChunks _, by rw [DbBuffer.ofNat_toNat _ c1]; exact hi, hR.chunks _ i _ hgi, ?_⟩
      intro r r1 r2
      rw [hbulk]
      conv_rhs => rw [← q2]
      rw [List.getElem?_take, if_pos (by omega)]
    · simp at q2
  have hn0 := hR.numChunks .medium
  have hn1 := hR.numChunks .lowest
  have hl0 := (hchunks 0 (by omega)).1
  have hl1 := (hchunks 1 (by omega)).1
  change (v.descs .medium).length < 2 ^ 32 at hl0
  change (v.descs .lowest).length < 2 ^ 32 at hl1
  let L : List (Nat × Nat) := (List.range (v.descs .medium).length).map (fun i => (0, i)) ++ (List.range (v.descs .lowest).length).map (fun i => (1, i))
  have hmemL : ∀ t i, (t, i) ∈ L ↔ t < 2 ∧ i < (v.descs (tierOf t)).length := by
    intro t i
    show (t, i) ∈ _ ++ _ ↔ _
    rw [List.mem_append, List.mem_map, List.mem_map]
    constructor
    · rintro (⟨j, hj, e⟩ | ⟨j, hj, e⟩)
      · rw [Prod.mk.injEq] at e
        obtain ⟨rfl, rfl⟩ := e
        exact ⟨by omega, List.mem_range.1 hj⟩
      · rw [Prod.mk.injEq] at e
        obtain ⟨rfl, rfl⟩ := e
        exact ⟨by omega, List.mem_range.1 hj⟩
    · rintro ⟨ht, hi⟩
      rcases (show t = 0 ∨ t = 1 by omega) with rfl | rfl
      · exact Or.inl ⟨i, List.mem_range.2 hi, rfl⟩
      · exact Or.inr ⟨i, List.mem_range.2 hi, rfl⟩
  have hLnd : L.Nodup := by
    refine List.Nodup.append (List.nodup_range.map fun a b h => (Prod.mk.inj h).2) (List.nodup_range.map fun a b h => (Prod.mk.inj h).2) ?_
    intro p h1 h2
    obtain ⟨_, _, rfl⟩ := List.mem_map.1 h1
    obtain ⟨_, _, e⟩ := List.mem_map.1 h2
    simp at e
  obtain ⟨hlegal, halt, hload⟩ := legal_adds (db := db) (bulk := bulkOf db) mem L (fun _ _ => false) hLnd fun p hpL => by
    obtain ⟨h1, h2⟩ := (hmemL p.1 p.2).1 hpL
    obtain ⟨q, q1, q2, q3⟩ := hhas p.1 h1 p.2 h2
    refine ⟨rfl, h1, ?_⟩
    show HasChunk db _ _ _ (((if p.1 = 0 then p0 else p1).map db.drop).getD [])
    rw [q1]
    exact q3
  have hall : AllLoaded db (loadedBy (L.map fun p => ⟨true, p.1, p.2, mem p.1⟩)) := by
    intro t ht n hn i hi
    rw [hR.numChunks, Option.some.injEq] at hn
    subst hn
    rw [DbBuffer.ofNat_toNat _ (hchunks t ht).1] at hi
    show loadedAfter _ _ t i = true
    rw [hload, decide_eq_true ((hmemL t i).2 ⟨ht, hi⟩)]
    rfl
  obtain ⟨headers, -, h1, h2⟩ := C52_all_loaded hd hp _ hlegal hall
  have h1 := h1 halt
  have hres : ∀ t, t < 2 → Resident db (bulkOf db t) (loadedBy (L.map fun p => ⟨true, p.1, p.2, mem p.1⟩)) t ((if t = 0 then p0 else p1).map db.drop) := by
    intro t ht i hi
    change loadedAfter _ _ t i = true at hi
    rw [hload] at hi
    have hi2 : (t, i) ∈ L := by simpa using hi
    obtain ⟨q, q1, q2, q3⟩ := hhas t ht i ((hmemL t i).1 hi2).2
    exact ⟨db.drop q, by rw [q1]; rfl, q2, q3⟩
  refine ⟨L.map fun p => ⟨true, p.1, p.2, mem p.1⟩, headers, p0, p1, ?_, hlegal, h1, a1, b1, h2 _ _ (hres 0 (by omega)) (hres 1 (by omega))⟩
  unfold inlineEvents
  rw [hn0, Option.bind_some, hn1, Option.bind_some, a1, Option.bind_some, b1, Option.map_some, DbBuffer.ofNat_toNat _ hl0, DbBuffer.ofNat_toNat _ hl1]
  show some _ = some (List.map _ (_ ++ _))
  rw [List.map_append, List.map_map, List.map_map]
  rfl

/-- All that is proved of build_database together; see C52, C53, C54, C57 for what is claimed. -/
theorem round_trip_all (value : BitVec 32 → E) (sort : List (Frame E) → List (Frame E)) (hsort : ∀ l, SortedFrames l (sort l))
    (metrics : Nat → List (SegmentMetric E)) (xs : List Input) (hne : xs ≠ []) (hx : ∀ (k : Nat) x, xs[k]? = some x → InputOk value (metrics k) x)
    (max wantLow wantMedium : Nat) (hfit : Fits xs max) (hmod : max % 4096 = 0) (hheaders : headersSize xs < 2 ^ 32) :
    ∃ outs content, buildContent value sort wantLow wantMedium max (xs.map (·.m)) = some (outs, content) ∧ outs.length = xs.length ∧
      ((∀ m' ∈ outs, m'.length < 2 ^ 32) → databaseSize content < 2 ^ 32 →
        ∃ db place, buildDatabase value sort wantLow wantMedium max (xs.map (·.m)) = some (some (outs, db)) ∧
          databaseIsValid db true true = some .ok ∧
          (∀ m' ∈ outs, tracksIsValid m' true true = some .ok ∧ ∃ hash, load32 m' 4 = some hash ∧ DbBuffer.contains db true hash = some true) ∧
          Placement xs wantLow wantMedium db place ∧
          (∀ supported (k : Nat) x m', xs[k]? = some x → outs[k]? = some m' → ∃ t, Context.tracksOf supported m' = some t ∧ Readable x supported m' t) ∧
          SameAccessors xs outs place ∧
          Chunked db (bulkOf db) ∧ (Decodes xs outs db (bulkOf db) place ∧ DecodesWhile xs outs db (bulkOf db) place ∧ Knows outs db (bulkOf db)) ∧
          (∃ events headers p0 p1, inlineEvents db = some events ∧ Legal db (bulkOf db) events ∧ streamed true db events = some headers ∧ getBulkData db .medium = some p0 ∧
            getBulkData db .lowest = some p1 ∧ Exact xs outs headers (p0.map db.drop) (p1.map db.drop)) ∧
          (∃ db' medium low, split db = some (some (db', medium, low)) ∧
            Chunked db' (fun t => if t = 0 then medium else low) ∧ Decodes xs outs db' (fun t => if t = 0 then medium else low) place ∧
            DecodesWhile xs outs db' (fun t => if t = 0 then medium else low) place ∧ Knows outs db' (fun t => if t = 0 then medium else low)) ∧
          (∀ t, hasBulkData db t = some true → ∃ db', strip db t = some (some db') ∧ getNumChunks db' t = some 0 ∧
            Chunked db' (bulkOf db') ∧ Decodes xs outs db' (bulkOf db') place ∧ DecodesWhile xs outs db' (bulkOf db') place ∧ Knows outs db' (bulkOf db'))) := by
  obtain ⟨outs, content, clips, d, high, dbClips, hclips, hbuild, hm⟩ := buildContent_ok hsort hx hfit wantLow wantMedium
  refine ⟨outs, content, hbuild, hm.length, fun hout hsize => ?_⟩
  rw [databaseSize_eq] at hsize
  obtain ⟨db, hb, R, -, hwf, hinl⟩ := C47.C47_build_accessors content hsize
  have hdb : db = (C47.viewOf content).buffer := by rw [C47.C47_build content hsize, Option.some.injEq] at hb; exact hb.symm
  have hct := hm.content
  have hmem0 : content.bulkMedium = d.memory 0 := by rw [hct]
  have hmem1 : content.bulkLow = d.memory 1 := by rw [hct]
  have hbulkm : (C47.viewOf content).bulk .medium = d.memory 0 ++ List.replicate ((16 - (d.memory 0).length % 16) % 16) 0#8 := by rw [← hmem0]; rfl
  have hbulkl : (C47.viewOf content).bulk .lowest = d.memory 1 := hmem1
  have hblen := hwf.2.1
  have hbl : ∀ t, ((C47.viewOf content).bulk t).length < 2 ^ 32 := by
    intro t
    cases t with
    | highest => show ([] : List (BitVec 8)).length < _; simp
    | medium => show (C47.viewOf content).bulkMedium.length < _; omega
    | lowest => show (C47.viewOf content).bulkLow.length < _; omega
  have hstored : ∀ t, (C47.viewOf content).stored t = (C47.viewOf content).bulk t := by
    intro t; cases t <;> rfl
  have hbulk : ∀ t, t < 2 → (d.memory t).length < 2 ^ 32 := by
    intro t ht
    rcases (show t = 0 ∨ t = 1 by omega) with rfl | rfl
    · have := hbl .medium
      rw [hbulkm, List.length_append] at this
      omega
    · have := hbl .lowest
      rwa [hbulkl] at this
  have hsmall : Context.runtimeSize dbClips < 2 ^ 32 := by rw [hm.headers]; exact hheaders
  have hdescs : ∀ t, t < 2 → (C47.viewOf content).descs (tierOf t) = (d.descs t).map descWords := by
    intro t ht
    rcases (show t = 0 ∨ t = 1 by omega) with rfl | rfl
    · show content.medium = _; rw [hct]
    · show content.low = _; rw [hct]
  have hpad : ∀ t, t < 2 → ∃ pad, (C47.viewOf content).bulk (tierOf t) = d.memory t ++ pad := by
    intro t ht
    rcases (show t = 0 ∨ t = 1 by omega) with rfl | rfl
    · exact ⟨_, hbulkm⟩
    · exact ⟨[], by rw [List.append_nil]; exact hbulkl⟩
  have hvc : (C47.viewOf content).clips = (clipMetadata dbClips 0).map fun e => (e.1, BitVec.ofNat 32 e.2) := by show content.clips = _; rw [hct]
  have hvs : (C47.viewOf content).numSegments = BitVec.ofNat 32 (dbClips.map (·.numSegments)).sum := by show content.numSegments = _; rw [hct]
  have hlen0 : outs ≠ [] := by
    intro hc
    have := hm.length
    rw [hc] at this
    exact hne (List.length_eq_zero_iff.1 this.symm)
  have hplace : Placement xs wantLow wantMedium db (placeOf d) := placement_ok hm hbulk fun t ht => by
    rw [R.numChunks, hdescs t ht, List.length_map]
  have hmaxv : (C47.viewOf content).maxChunkSize = BitVec.ofNat 32 max := by show content.maxChunkSize = _; rw [hct]
  have hserve : Serves d dbClips db (bulkOf db) (C47.viewOf content) := by
    refine ⟨R, hvc, hvs, fun t ht => Or.inr ⟨hdescs t ht, ?_⟩⟩
    rw [bulkOf_eq R hstored hbl]
    exact hpad t ht
  have hdec : Decodes xs outs db (bulkOf db) (placeOf d) := hm.decodes hsmall hbulk hout hserve
  have hchunked : Chunked db (bulkOf db) := hserve.chunked hm.chunks hbulk (fun t _ => by rw [bulkOf_eq R hstored hbl]; exact hbl _) hfit.min hmaxv hm.layout
  have hvalid : ∀ m' ∈ outs, tracksIsValid m' true true = some .ok := by
    intro m' hm'
    obtain ⟨k, hk⟩ := List.mem_iff_getElem?.1 hm'
    have hkl : k < xs.length := by rw [← hm.length]; exact (List.getElem?_eq_some_iff.1 hk).1
    exact valid_ok (hm.inDb k _ m' (List.getElem?_eq_getElem hkl) hk (hout m' hm')).result (hout m' hm')
  refine ⟨db, placeOf d, ?_, R.valid, ?_, hplace, fun supported k x m' hx' hm' => hm.readable hout hvalid supported hx' hm', hm.sameAccessors hout, hchunked, ⟨hdec, hm.decodesWhile hsmall hbulk hout hserve, hm.knows hsmall hbulk hout hvalid hserve⟩, ?_, ?_, ?_⟩
  · unfold buildDatabase
    rw [if_neg (by have := hfit.min; omega), if_neg (by simpa using hne), acceptsAll_ok, Option.bind_some]
    · simp only [Bool.not_true, Bool.false_eq_true, if_false]
      rw [hclips, Option.bind_some, if_neg, hbuild, Option.bind_some, hb]
      · rfl
      · obtain ⟨clips', e1, e2, e3, e4⟩ := tierClips_ok hx
        rw [hclips, Option.some.injEq] at e1
        subst e1
        refine numFrames_pos ?_ ?_
        · intro hc
          rw [hc] at e2
          exact hne (List.length_eq_zero_iff.1 e2.symm)
        · intro c hc
          obtain ⟨k, hk⟩ := List.mem_iff_getElem?.1 hc
          have hkl : k < xs.length := by rw [← e2]; exact (List.getElem?_eq_some_iff.1 hk).1
          rw [(e4 k _ c (List.getElem?_eq_getElem hkl) hk).2]
          have h1 := segments_pos (hx k _ (List.getElem?_eq_getElem hkl)).compressed.clip
          have h2 := segments_le (hx k _ (List.getElem?_eq_getElem hkl)).compressed.clip
          omega
    · intro m hm
      obtain ⟨x, hxm, rfl⟩ := List.mem_map.1 hm
      obtain ⟨k, hk⟩ := List.mem_iff_getElem?.1 hxm
      exact accepts_ok (hx k x hk).input
  · intro m' hm'
    obtain ⟨k, hk⟩ := List.mem_iff_getElem?.1 hm'
    have hkl : k < xs.length := by rw [← hm.length]; exact (List.getElem?_eq_some_iff.1 hk).1
    have hin := hm.inDb k _ m' (List.getElem?_eq_getElem hkl) hk (hout m' hm')
    refine ⟨valid_ok hin.result (hout m' hm'), _, hin.result.hash, ?_⟩
    rw [R.contains, Option.some.injEq, decide_eq_true_iff, hvc]
    have hkd : k < dbClips.length := by rw [hm.dbLength]; exact hkl
    have hmd := C40.metadata_get dbClips 0 k hkd
    have hh := (hm.hash k m' _ hk (List.getElem?_eq_getElem hkd)).1
    exact ⟨_, List.mem_map.2 ⟨_, List.mem_of_getElem? hmd, rfl⟩, hh⟩
  · refine inline_ok R hstored hbl (fun t ht => ?_) hdec hplace
    rw [hdescs t ht, List.length_map]
    refine ⟨chunk_count hm.chunks hbulk ht, fun e he => ?_⟩
    obtain ⟨c, hc, rfl⟩ := List.mem_map.1 he
    obtain ⟨s1, s2⟩ := desc_small hm.chunks hbulk ht hc
    rw [s1, s2]
    rw [(hm.chunks t ht).descs] at hc
    obtain ⟨ch, hch, rfl⟩ := List.mem_map.1 hc
    obtain ⟨i, hi⟩ := List.mem_iff_getElem?.1 hch
    obtain ⟨-, -, -, q1, q2⟩ := (hm.chunks t ht).chunk i ch hi
    obtain ⟨pad, hpd⟩ := hpad t ht
    rw [hpd, List.length_append]
    dsimp only
    omega
  · obtain ⟨db', s1, s2⟩ := C36.C36_split_accessors _ hwf.1 hinl
    have hserve2 : Serves d dbClips db' (fun t => if t = 0 then (C47.viewOf content).bulkMedium else (C47.viewOf content).bulkLow) (C36.splitView (C47.viewOf content)) := by
      refine ⟨s2, hvc, hvs, fun t ht => Or.inr ⟨?_, ?_⟩⟩
      · rw [← hdescs t ht]
        cases tierOf t <;> rfl
      · rcases (show t = 0 ∨ t = 1 by omega) with rfl | rfl
        · exact hpad 0 (by omega)
        · exact hpad 1 (by omega)
    refine ⟨db', _, _, by rw [hdb]; exact s1, hserve2.chunked hm.chunks hbulk (fun t ht => ?_) hfit.min hmaxv hm.layout, hm.decodes hsmall hbulk hout hserve2, hm.decodesWhile hsmall hbulk hout hserve2, hm.knows hsmall hbulk hout hvalid hserve2⟩
    rcases (show t = 0 ∨ t = 1 by omega) with rfl | rfl
    · exact hbl .medium
    · exact hbl .lowest
  · intro t ht
    have hth : t ≠ .highest := by
      rintro rfl
      simp [hasBulkData] at ht
    have htne : (C47.viewOf content).bulk t ≠ [] := by
      intro hc
      have hz : hasBulkData db t = some ((BitVec.ofNat 32 ((C47.viewOf content).bulk t).length) != 0) := by
        have := R.bulkSize t
        cases t with
        | highest => exact absurd rfl hth
        | medium => simp [hasBulkData, this]
        | lowest => simp [hasBulkData, this]
      rw [hz, hc] at ht
      simp at ht
    obtain ⟨db', s1, s2, s3, s4, s5, s6, s7, s8, s9, s10⟩ := C36.C36_strip_accessors _ t hwf hth htne
    refine ⟨db', by rw [hdb]; exact s1, by rw [s2.numChunks, s7]; rfl, ?_⟩
    · have hst2 : ∀ u, (C36.stripView (C47.viewOf content) t).stored u = (C36.stripView (C47.viewOf content) t).bulk u := by
        intro u
        by_cases hu : u = t
        · subst hu; rw [s8, s9]
        · rw [(s10 u hu).2.2 rfl, (s10 u hu).2.1]
      have hbl2 : ∀ u, ((C36.stripView (C47.viewOf content) t).bulk u).length < 2 ^ 32 := by
        intro u
        by_cases hu : u = t
        · subst hu; rw [s8]; simp
        · rw [(s10 u hu).2.1]; exact hbl u
      have hserve2 : Serves d dbClips db' (bulkOf db') (C36.stripView (C47.viewOf content) t) := by
        refine ⟨s2, s3.trans hvc, s6.trans hvs, fun u hu => ?_⟩
        by_cases hut : tierOf u = t
        · left; rw [hut]; exact s7
        · right
          refine ⟨by rw [(s10 _ hut).1]; exact hdescs u hu, ?_⟩
          rw [bulkOf_eq s2 hst2 hbl2, (s10 _ hut).2.1]
          exact hpad u hu
      exact ⟨hserve2.chunked hm.chunks hbulk (fun u hu => by rw [bulkOf_eq s2 hst2 hbl2]; exact hbl2 _) hfit.min (s5.trans hmaxv) hm.layout,
        hm.decodes hsmall hbulk hout hserve2, hm.decodesWhile hsmall hbulk hout hserve2, hm.knows hsmall hbulk hout hvalid hserve2⟩

/-- **C52.** build_database on clips it can use makes a database and new clips. Both are valid. As many key frames as the settings
ask for (if there are that many that can) are moved to the low and medium tiers of the database, never the first and the last of
a segment. The new clips bound to a context of the database decode as the ones given, after any history of chunks streamed in
and out: at any time the decoder reads the nearest key frames, before and after, that are in memory, and of each it reads what was
in the clip given. A context initialized with the bulk data inline registers all the chunks, and then the clips decode exactly as
the ones given. The round trip remains true of the database split (with its bulk data elsewhere) and of the database stripped of a
tier. The hypotheses on sizes are those of offsets of 32 bits: the code does not check them. -/
theorem C52_round_trip (value : BitVec 32 → E) (sort : List (Frame E) → List (Frame E)) (hsort : ∀ l, SortedFrames l (sort l))
    (metrics : Nat → List (SegmentMetric E)) (xs : List Input) (hne : xs ≠ []) (hx : ∀ (k : Nat) x, xs[k]? = some x → InputOk value (metrics k) x)
    (max wantLow wantMedium : Nat) (hfit : Fits xs max) (hmod : max % 4096 = 0) (hheaders : headersSize xs < 2 ^ 32) :
    ∃ outs content, buildContent value sort wantLow wantMedium max (xs.map (·.m)) = some (outs, content) ∧ outs.length = xs.length ∧
      ((∀ m' ∈ outs, m'.length < 2 ^ 32) → databaseSize content < 2 ^ 32 →
        ∃ db place, buildDatabase value sort wantLow wantMedium max (xs.map (·.m)) = some (some (outs, db)) ∧
          databaseIsValid db true true = some .ok ∧
          (∀ m' ∈ outs, tracksIsValid m' true true = some .ok ∧ ∃ hash, load32 m' 4 = some hash ∧ DbBuffer.contains db true hash = some true) ∧
          Placement xs wantLow wantMedium db place ∧
          SameAccessors xs outs place ∧
          Chunked db (bulkOf db) ∧ (Decodes xs outs db (bulkOf db) place ∧ DecodesWhile xs outs db (bulkOf db) place) ∧
          (∃ events headers p0 p1, inlineEvents db = some events ∧ streamed true db events = some headers ∧ getBulkData db .medium = some p0 ∧
            getBulkData db .lowest = some p1 ∧ Exact xs outs headers (p0.map db.drop) (p1.map db.drop)) ∧
          (∃ db' medium low, split db = some (some (db', medium, low)) ∧
            Chunked db' (fun t => if t = 0 then medium else low) ∧ Decodes xs outs db' (fun t => if t = 0 then medium else low) place ∧
            DecodesWhile xs outs db' (fun t => if t = 0 then medium else low) place) ∧
          (∀ t, hasBulkData db t = some true → ∃ db', strip db t = some (some db') ∧ getNumChunks db' t = some 0 ∧
            Chunked db' (bulkOf db') ∧ Decodes xs outs db' (bulkOf db') place ∧ DecodesWhile xs outs db' (bulkOf db') place)) := by
  obtain ⟨outs, content, h1, h2, h3⟩ := round_trip_all value sort hsort metrics xs hne hx max wantLow wantMedium hfit hmod hheaders
  refine ⟨outs, content, h1, h2, fun a b => ?_⟩
  obtain ⟨db, place, g1, g2, g3, g4, -, g5, g6, ⟨g7, g8, -⟩, ⟨events, headers, p0, p1, i1, -, i2, i3, i4, i5⟩, ⟨db', medium, low, s1, s2, s3, s4, -⟩, g9⟩ := h3 a b
  refine ⟨db, place, g1, g2, g3, g4, g5, g6, ⟨g7, g8⟩, ⟨events, headers, p0, p1, i1, i2, i3, i4, i5⟩, ⟨db', medium, low, s1, s2, s3, s4⟩, fun t ht => ?_⟩
  obtain ⟨db', q1, q2, q3, q4, q5, -⟩ := g9 t ht
  exact ⟨db', q1, q2, q3, q4, q5⟩

/-! ### Non-vacuity: a database of two clips, two segments of three key frames each -/
section Example

def exClip : ClipSource := { C49.exClip with stripped := false }

theorem exSegment (seg : Nat) (t : SegmentSource) (ht : exClip.segments[seg]? = some t) : SegmentOk exClip seg t where
  nonempty := (C49.exSegment seg t ht).nonempty
  garbage := (C49.exSegment seg t ht).garbage
  frames := (C49.exSegment seg t ht).frames
  const := (C49.exSegment seg t ht).const
  format := (C49.exSegment seg t ht).format
  ranged := (C49.exSegment seg t ht).ranged
  hard := fun h => by cases h
  small := by
    obtain ⟨hlt, rfl⟩ := List.getElem?_eq_some_iff.1 ht
    exact (show ∀ i (h : i < 2), frameWidth exClip.bones i * exClip.numStored (exClip.segments[i]'h) + 8 ≤ 2 ^ 32 by decide +kernel) seg hlt

theorem exClip_ok : ClipOk exClip where
  bones := C49.exClip_ok.bones
  scale := C49.exClip_ok.scale
  default := C49.exClip_ok.default
  segments := exSegment
  split := C49.exClip_ok.split
  starts := C49.exClip_ok.starts
  numSamples := C49.exClip_ok.numSamples

/-- The removal order of the key frames, for the error metric of the examples of C43. -/
def exOrder : List (KeyframeMeta Err) :=
  (sortContributingError (mergeInput [3, 3] [C43.exOrder 4 0 3, C43.exOrder 6 1 3]) 6).getD []

def exSource : Meta.Source := { C29.exSource with
  errors := exOrder.map fun e => ⟨BitVec.ofNat 32 e.keyframeIndex, BitVec.ofNat 32 e.segmentIndex, BitVec.ofNat 32 e.strippingIndex,
    BitVec.ofNat 32 e.strippingError.val, if e.isTrivial then 1 else 0⟩ }

/-- The errors of the examples are natural numbers up to 1000, which is infinity. -/
def exValue (w : BitVec 32) : Err := ⟨min 1000 w.toNat, by omega⟩

def exInput : Input where
  c := exClip
  e := ⟨false, true⟩
  s := ⟨true, true, true, true, true⟩
  src := exSource
  f := C49.exFlags
  m := (exClip.compress ⟨false, true⟩ ⟨true, true, true, true, true⟩ exSource C49.exFlags).getD []

deriving instance DecidableEq for KeyframeMeta

theorem exOrder_ok : IsClipOrder [exMetric 4, exMetric 6] exInput.sizes (exInput.src.errors.map (keyframeOf exValue)) := by
  have hrun : Run [exMetric 4, exMetric 6] [3, 3] (fun _ => exGarbage) [C43.exOrder 4 0 3, C43.exOrder 6 1 3] := by
    refine ⟨rfl, fun s mt n order h1 h2 h3 => ?_⟩
    have hs : s < 2 := (List.getElem?_eq_some_iff.1 h2).1
    rcases (show s = 0 ∨ s = 1 by omega) with rfl | rfl
    · cases h1; cases h2; cases h3
      refine ⟨(contributingErrorUnsorted (exMetric 4) 0 3 exGarbage).getD [], ?_, ?_, ?_⟩
      · decide +kernel
      · decide +kernel
      · decide +kernel
    · cases h1; cases h2; cases h3
      refine ⟨(contributingErrorUnsorted (exMetric 6) 1 3 exGarbage).getD [], ?_, ?_, ?_⟩
      · decide +kernel
      · decide +kernel
      · decide +kernel
  obtain ⟨out, h1, h2⟩ := C43_removal_order [exMetric 4, exMetric 6] [3, 3] rfl (by decide) (by decide) (by
    intro mt hmt p q i j
    have : ∃ w, mt = exMetric w := by
      rcases List.mem_cons.1 hmt with rfl | hmt
      · exact ⟨_, rfl⟩
      · exact ⟨_, List.mem_singleton.1 hmt⟩
    obtain ⟨w, rfl⟩ := this
    show (_ : Fin 1001) < Fin.last 1000
    rw [Fin.lt_def]
    show min 999 _ < 1000
    omega) (fun _ => exGarbage) (fun _ => by decide) _ hrun
  have he : exInput.src.errors.map (keyframeOf exValue) = exOrder := by decide +kernel
  have ho : exOrder = out := by
    have h1' : sortContributingError (mergeInput [3, 3] [C43.exOrder 4 0 3, C43.exOrder 6 1 3]) 6 = some out := h1
    unfold exOrder
    rw [h1']
    rfl
  rw [he, ho]
  exact h2

theorem exInput_ok : InputOk exValue [exMetric 4, exMetric 6] exInput where
  compressed := by
    have hv : C29.Valid exSource := ⟨by decide, by decide, by decide, by decide⟩
    obtain ⟨m, hm⟩ := C49.C49_progress ⟨false, true⟩ ⟨true, true, true, true, true⟩ exSource C49.exFlags exClip_ok hv
    have hmm : exInput.m = m := by unfold exInput; dsimp only; rw [hm]; rfl
    have hc := show Compressed exClip ⟨false, true⟩ ⟨true, true, true, true, true⟩ exSource C49.exFlags m from by
      refine ⟨exClip_ok, hv, rfl, hm, ?_⟩
      have : ((exClip.compress ⟨false, true⟩ ⟨true, true, true, true, true⟩ exSource C49.exFlags).map fun b => decide (b.length < 2 ^ 32)) = some true := by
        decide +kernel
      rw [hm, Option.map_some, Option.some.injEq] at this
      exact of_decide_eq_true this
    show Compressed exClip _ _ exSource _ exInput.m
    rw [hmm]
    exact hc
  transform := rfl
  error := rfl
  whole := rfl
  sizes := Or.inl (by decide)
  metricsLen := rfl
  order := exOrder_ok

/-- The order std::sort is given. -/
def exSort (l : List (Frame Err)) : List (Frame Err) := l.insertionSort fun a b => frameLess b a = false

theorem exSort_ok (l : List (Frame Err)) : SortedFrames l (exSort l) := by
  refine ⟨List.perm_insertionSort _ l, ?_⟩
  have key : ∀ a b : Frame Err, (frameLess a b = false ↔ b.tracksIndex < a.tracksIndex ∨ (b.tracksIndex = a.tracksIndex ∧
      (b.segmentIndex < a.segmentIndex ∨ (b.segmentIndex = a.segmentIndex ∧ b.segmentFrameIndex ≤ a.segmentFrameIndex)))) := by
    intro a b
    unfold frameLess
    split
    · simp; omega
    · split
      · split
        · simp; omega
        · split
          · rw [decide_eq_false_iff_not]; omega
          · simp; omega
      · simp; omega
  have htot : Std.Total (fun a b : Frame Err => frameLess b a = false) := ⟨fun a b => by
    rw [key, key]; omega⟩
  have htr : IsTrans (Frame Err) (fun a b => frameLess b a = false) := ⟨fun a b c => by
    rw [key, key, key]; omega⟩
  exact List.pairwise_insertionSort _ l

/-- The hypotheses of C52 are met. -/
example : (∀ (k : Nat) x, [exInput, exInput][k]? = some x → InputOk exValue [exMetric 4, exMetric 6] x) ∧ Fits [exInput, exInput] 4096 ∧
    (4096 % 4096 = 0) ∧ headersSize [exInput, exInput] < 2 ^ 32 := by
  refine ⟨fun k x h => ?_, ⟨by decide, fun x hx g t ht => ?_⟩, by decide, by decide⟩
  · have hx := List.mem_of_getElem? h
    have : x = exInput := by simpa using hx
    rw [this]; exact exInput_ok
  · have : x = exInput := by simpa using hx
    subst this
    obtain ⟨hlt, rfl⟩ := List.getElem?_eq_some_iff.1 ht
    exact (show ∀ i (h : i < 2), (((exClip.segments[i]'h).numSamples - 2) * frameWidth exClip.bones i + 7) / 8 + 35 ≤ 4096 by decide +kernel) g hlt

/-- The database of the two clips with one key frame in each tier: build_database succeeds. With no chunk streamed in, the key
frames 1 and 2 of the first clip are replaced by 0 and 2; with the bulk data inline they are read. -/
example : ((buildDatabase exValue exSort 1 1 4096 [exInput.m, exInput.m]).bind fun r => r.bind fun (outs, db) =>
    (streamed true db []).bind fun h0 => (inlineEvents db).bind fun ev => (streamed true db ev).bind fun h1 =>
    (outs[0]?).bind fun m =>
    (seekDbContext (fun (_ : Nat × Nat × Nat) k n0 n1 => (k, n0, n1)) m h0 none none false 1 2 (0, 0, 0) false .none).bind fun x0 =>
    (getBulkData db .medium).bind fun p0 => (getBulkData db .lowest).bind fun p1 =>
    (seekDbContext (fun (_ : Nat × Nat × Nat) k n0 n1 => (k, n0, n1)) m h1 (p0.map db.drop) (p1.map db.drop) false 1 2 (0, 0, 0) false .none).map fun x1 =>
    (outs.length, ev.length, x0.2, x1.2)) = some (2, 2, (1, 0, 2), (1, 1, 2)) := by
  decide +kernel

end Example

end Acl.C52
