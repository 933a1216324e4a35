import Verif.Database.BuildRun
import Verif.Database.RoundTrip
import Verif.Props.C49
/-
build_database on clips it can use: the tiers, the chunks and the content of the database.
-/
namespace Acl.DbBuild
open Acl.Headers Acl.Tiers Acl.Chunks Acl.Runtime Acl.Rewrite Acl.Transform Acl.Meta Acl.C43 Acl.C21 Acl.C22 Acl.C23

variable {E : Type} [LinearOrder E] [OrderTop E] [Zero E]

theorem frame_input {xs : List Input} {clips : List (Tiers.Clip E)} {wantLow wantMedium : Nat} {low medium high : List (Frame E)}
    (hlen : clips.length = xs.length) (ht : IsTiering clips (sizesOf xs) wantLow wantMedium low medium high)
    (hbits : ∀ (k : Nat) x clip, xs[k]? = some x → clips[k]? = some clip →
        clip.poseBits = (List.range x.c.segments.length).map (frameWidth x.c.bones) ∧ clip.numSamples = x.c.numSamples)
    {f : Frame E} (hf : f ∈ low ++ medium ++ high) : ∃ x t, xs[f.tracksIndex]? = some x ∧ x.c.segments[f.segmentIndex]? = some t ∧
      f.segmentFrameIndex < t.numSamples ∧ f.frameBitSize = frameWidth x.c.bones f.segmentIndex ∧
      f.clipFrameIndex = start x.sizes f.segmentIndex + f.segmentFrameIndex := by
  have hlt := ht.clip f hf
  rw [hlen] at hlt
  have hx := List.getElem?_eq_getElem hlt
  obtain ⟨n, clip, h1, h2, h3, h4, h5⟩ := ht.fields f hf
  rw [sizesOf_eq hx] at h1 h3
  unfold Input.sizes at h1
  rw [List.getElem?_map, Option.map_eq_some_iff] at h1
  obtain ⟨t, ht, rfl⟩ := h1
  refine ⟨_, t, hx, ht, h2, ?_, h3.symm⟩
  rw [(hbits _ _ _ hx h4).1, List.getElem?_map, Option.map_eq_some_iff] at h5
  obtain ⟨g, hg, e⟩ := h5
  have hgl : f.segmentIndex < (xs[f.tracksIndex]).c.segments.length := (List.getElem?_eq_some_iff.1 ht).1
  rw [List.getElem?_range hgl, Option.some.injEq] at hg
  rw [← e, ← hg]

theorem not_boundary {sizes : List Nat} {g n i : Nat} (hg : sizes[g]? = some n) (hi : i < n) (h : ¬ IsBoundary sizes (start sizes g + i)) :
    0 < i ∧ i + 1 < n := by
  constructor
  · rcases Nat.eq_zero_or_pos i with h0 | h0
    · subst h0
      exact absurd ⟨g, n, hg, hi, Or.inl rfl⟩ h
    · exact h0
  · rcases Nat.lt_or_ge (i + 1) n with h0 | h0
    · exact h0
    · exact absurd ⟨g, n, hg, by omega, Or.inr (by omega)⟩ h

theorem length_le_of_range {l : List Nat} {a n : Nat} (hl : l.Pairwise (· < ·)) (h : ∀ i ∈ l, a ≤ i ∧ i < a + n) : l.length ≤ n := by
  have hn : l.Nodup := hl.imp (fun h => Nat.ne_of_lt h)
  have hs : l ⊆ List.range' a n := fun i hi => by
    rw [List.mem_range'_1]; exact h i hi
  have := (hn.subperm hs).length_le
  rwa [List.length_range'] at this

/-- The bytes a segment has in a tier. -/
theorem bytes_fit {xs : List Input} {clips : List (Tiers.Clip E)} {wantLow wantMedium : Nat} {low medium high : List (Frame E)} {max : Nat}
    (hlen : clips.length = xs.length) (ht : IsTiering clips (sizesOf xs) wantLow wantMedium low medium high)
    (hbits : ∀ (k : Nat) x clip, xs[k]? = some x → clips[k]? = some clip →
        clip.poseBits = (List.range x.c.segments.length).map (frameWidth x.c.bones) ∧ clip.numSamples = x.c.numSamples)
    (hfit : Fits xs max) (tier : List (Frame E)) (htier : tier = low ∨ tier = medium) (c s : Nat) : bytesOf tier c s + 35 ≤ max := by
  have hsub : ∀ f ∈ tier, f ∈ low ++ medium := by
    intro f hf
    rcases htier with rfl | rfl <;> simp [hf]
  have hsorted : tier.Pairwise Before := by
    rcases htier with rfl | rfl
    · exact ht.sorted.1
    · exact ht.sorted.2.1
  have hmin := hfit.min
  have hmem : ∀ f ∈ framesOf tier c s, f ∈ tier ∧ f.tracksIndex = c ∧ f.segmentIndex = s := fun f hf => by
    obtain ⟨h1, h2⟩ := List.mem_filter.1 hf
    exact ⟨h1, (isFrameOf_iff c s f).1 h2⟩
  unfold bytesOf
  cases hfr : framesOf tier c s with
  | nil => simp; omega
  | cons f0 rest =>
    rw [← hfr]
    have h0 : f0 ∈ framesOf tier c s := by rw [hfr]; exact List.mem_cons_self
    obtain ⟨a1, a2, a3⟩ := hmem f0 h0
    obtain ⟨x, t, hx, hseg, -, -, -⟩ := frame_input hlen ht hbits (List.mem_append_left high (hsub f0 a1))
    rw [a2] at hx
    rw [a3] at hseg
    have hxm := List.mem_of_getElem? hx
    have hfs := hfit.segment x hxm s t hseg
    have hall : ∀ f ∈ framesOf tier c s, f.frameBitSize = frameWidth x.c.bones s ∧ 1 ≤ f.segmentFrameIndex ∧ f.segmentFrameIndex < 1 + (t.numSamples - 2) := by
      intro f hf
      obtain ⟨b1, b2, b3⟩ := hmem f hf
      obtain ⟨x', t', hx', hseg', hi, hw, he⟩ := frame_input hlen ht hbits (List.mem_append_left high (hsub f b1))
      rw [b2, hx, Option.some.injEq] at hx'
      subst hx'
      rw [b3] at hseg' hw he
      rw [hseg, Option.some.injEq] at hseg'
      subst hseg'
      have hb := ht.boundary f (hsub f b1)
      rw [he, b2, sizesOf_eq hx] at hb
      have := not_boundary (n := t.numSamples) (by unfold Input.sizes; rw [List.getElem?_map, hseg]; rfl) hi hb
      exact ⟨hw, by omega, by omega⟩
    have hcount : (framesOf tier c s).length ≤ t.numSamples - 2 := by
      have := length_le_of_range (l := (framesOf tier c s).map (·.segmentFrameIndex)) (a := 1) (n := t.numSamples - 2) (by
        rw [List.pairwise_map]
        refine (hsorted.filter _).imp_of_mem ?_
        intro a b ha hb hab
        obtain ⟨-, p1, p2⟩ := hmem a ha
        obtain ⟨-, q1, q2⟩ := hmem b hb
        unfold Before at hab
        omega) (by
        intro i hi
        obtain ⟨f, hf, rfl⟩ := List.mem_map.1 hi
        exact (hall f hf).2)
      rwa [List.length_map] at this
    have hsum : ((framesOf tier c s).map (·.frameBitSize)).sum = (framesOf tier c s).length * frameWidth x.c.bones s := by
      rw [List.map_congr_left (g := fun _ => frameWidth x.c.bones s) (fun f hf => (hall f hf).1), List.map_const', List.sum_replicate_nat]
    rw [hsum]
    have := Nat.mul_le_mul_right (frameWidth x.c.bones s) hcount
    omega

theorem sum_segments (xs : List Input) (dbClips : List DbClip) (h : ∀ (k : Nat) x d, xs[k]? = some x → dbClips[k]? = some d → d.numSegments = x.c.segments.length)
    (hl : dbClips.length = xs.length) : Context.runtimeSize dbClips = headersSize xs := by
  unfold Context.runtimeSize headersSize
  induction xs generalizing dbClips with
  | nil => rw [List.length_nil, List.length_eq_zero_iff] at hl; subst hl; rfl
  | cons x xs ih =>
    cases dbClips with
    | nil => simp at hl
    | cons d ds =>
      have h0 := h 0 x d rfl rfl
      have := ih ds (fun k x d h1 h2 => h (k + 1) x d (by simpa using h1) (by simpa using h2)) (by simpa using hl)
      simp only [List.map_cons, List.sum_cons, List.length_cons] at this ⊢
      omega

/-- What build_database makes: the tiers, their chunks, the new clips and what goes in the database. -/
structure Made (xs : List Input) (max wantLow wantMedium : Nat) (outs : List (List (BitVec 8))) (content : DbBuffer.Content)
    (clips : List (Tiers.Clip E)) (d : Tiers E) (high : List (Frame E)) (dbClips : List DbClip) : Prop where
  tiering : IsTiering clips (sizesOf xs) wantLow wantMedium (d.frames 1) (d.frames 0) high
  clipsLength : clips.length = xs.length
  chunks : d.Ok dbClips
  length : outs.length = xs.length
  dbLength : dbClips.length = xs.length
  headers : Context.runtimeSize dbClips = headersSize xs
  /-- where the chunks are -/
  layout : ∀ t, t < 2 → ∀ (i : Nat) ch, (d.bulk t).chunks[i]? = some ch → ch.offset = i * max ∧ (i + 1 < (d.bulk t).chunks.length → ch.size = max)
  hash : ∀ (k : Nat) m' clip, outs[k]? = some m' → dbClips[k]? = some clip → clip.hash = hash32 (m'.drop 8) ∧ load32 m' 4 = some clip.hash
  inDb : ∀ (k : Nat) x m', xs[k]? = some x → outs[k]? = some m' → m'.length < 2 ^ 32 → InDb x.c x.e x.s x.src x.f x.m k d high dbClips m'
  api : ∀ (k : Nat) x m', xs[k]? = some x → outs[k]? = some m' → m'.length < 2 ^ 32 →
    SameApi x.m m' (x.c.numSamples - (high.filter fun fr => fr.tracksIndex == k).length != 0)
  content : content = {
    medium := (d.descs 0).map descWords, low := (d.descs 1).map descWords
    clips := (clipMetadata dbClips 0).map fun e => (e.1, BitVec.ofNat 32 e.2)
    numSegments := BitVec.ofNat 32 (dbClips.map (·.numSegments)).sum
    maxChunkSize := BitVec.ofNat 32 max
    bulkMedium := d.memory 0, bulkLow := d.memory 1 }

theorem bulk_any {tier : List (Frame E)} {clips : List DbClip} {max : Nat} (hok : TierOk tier clips max) :
    ∃ bulk groups mem, bulkData tier clips max = some bulk ∧ bulkMemory bulk = some mem ∧
      BulkIs tier clips (chunkDescriptions tier clips max) bulk groups mem ∧
      ∀ (i : Nat) ch, bulk.chunks[i]? = some ch → ch.offset = i * max ∧ (i + 1 < bulk.chunks.length → ch.size = max) := by
  by_cases hne : tier = []
  · subst hne
    obtain ⟨h1, h2, h3⟩ := bulk_empty (E := E) clips max
    exact ⟨_, _, _, h1, h2, h3, fun i ch h => by simp at h⟩
  · obtain ⟨bulk, groups, h1, h2⟩ := C23_chunks tier clips max hne hok
    obtain ⟨mem, h3, -, h4⟩ := bulk_is hok h2
    exact ⟨_, _, _, h1, h3, h4, fun i ch h => ⟨(h2.chunk i ch h).2.1, (h2.chunk i ch h).2.2.1⟩⟩

/-- **The content of the database.** -/
theorem buildContent_ok {value : BitVec 32 → E} {sort : List (Frame E) → List (Frame E)} (hsort : ∀ l, SortedFrames l (sort l))
    {metrics : Nat → List (SegmentMetric E)} {xs : List Input} (hx : ∀ (k : Nat) x, xs[k]? = some x → InputOk value (metrics k) x)
    {max : Nat} (hfit : Fits xs max) (wantLow wantMedium : Nat) :
    ∃ outs content clips d high dbClips, each (tierClip value) (xs.map (·.m)) = some clips ∧
      buildContent value sort wantLow wantMedium max (xs.map (·.m)) = some (outs, content) ∧
      Made xs max wantLow wantMedium outs content clips d high dbClips := by
  obtain ⟨clips, hclips, hlen, hcok, hbits⟩ := tierClips_ok hx
  obtain ⟨low, medium, high, hassign, htiers⟩ := C22_tiers hcok wantLow wantMedium
  obtain ⟨ht, -⟩ := htiers (sort low) (sort medium) (sort high) (hsort low) (hsort medium) (hsort high)
  have hframes : ∀ tier, (tier = sort low ∨ tier = sort medium ∨ tier = sort high) → ∀ (k : Nat) x, xs[k]? = some x → TierFrames x.c k tier := by
    intro tier htier k x hxk
    have hsub : ∀ f ∈ tier, f ∈ sort low ++ sort medium ++ sort high := by
      intro f hf
      rcases htier with rfl | rfl | rfl <;> simp [hf]
    refine ⟨?_, fun f hf hk => ?_⟩
    · rcases htier with rfl | rfl | rfl
      · exact ht.sorted.1
      · exact ht.sorted.2.1
      · exact ht.sorted.2.2
    · obtain ⟨x', t, h1, h2, h3, h4, -⟩ := frame_input hlen ht hbits (hsub f hf)
      rw [hk, hxk, Option.some.injEq] at h1
      subst h1
      exact ⟨t, h2, h3, h4⟩
  obtain ⟨outs, houts, holen, hout⟩ := rewriteClips_ok (high := sort high) xs 0 0 fun i x hxi =>
    ⟨(hx i x hxi).input, by rw [Nat.zero_add]; exact hframes _ (Or.inr (Or.inr rfl)) i x hxi⟩
  -- the clips of the database
  let mk : List (BitVec 8) × List (BitVec 8) → DbClip := fun p => ⟨hash32 (p.2.drop 8), (Clip.field p.2 0).getD 0,
    fun g => ((Clip.segmentDataAt p.1 g).map fun d => p.1.drop d.2.2).getD []⟩
  have hzip : ∀ (k : Nat) p, ((xs.map (·.m)).zip outs)[k]? = some p → ∃ x m', xs[k]? = some x ∧ outs[k]? = some m' ∧ p = (x.m, m') := by
    intro k p hp
    rw [List.getElem?_zip_eq_some, List.getElem?_map, Option.map_eq_some_iff] at hp
    obtain ⟨⟨x, h1, h2⟩, h3⟩ := hp
    exact ⟨x, p.2, h1, h3, by rw [h2]⟩
  have hdb := each_some (f := fun p : List (BitVec 8) × List (BitVec 8) => dbClip p.1 p.2) mk ((xs.map (·.m)).zip outs) fun p hp => by
    obtain ⟨k, hk⟩ := List.mem_iff_getElem?.1 hp
    obtain ⟨x, m', h1, h2, rfl⟩ := hzip k p hk
    have ho := hout k x m' h1 h2
    unfold dbClip
    dsimp only [mk]
    rw [ho.hash, ho.segments]
    rfl
  have hget : ∀ (k : Nat) clip, (((xs.map (·.m)).zip outs).map mk)[k]? = some clip → ∃ x m', xs[k]? = some x ∧ outs[k]? = some m' ∧ clip = mk (x.m, m') := by
    intro k clip h
    rw [List.getElem?_map, Option.map_eq_some_iff] at h
    obtain ⟨p, hp, rfl⟩ := h
    obtain ⟨x, m', h1, h2, rfl⟩ := hzip k p hp
    exact ⟨x, m', h1, h2, rfl⟩
  have hlast : ∀ (k : Nat) x m', xs[k]? = some x → outs[k]? = some m' → (((xs.map (·.m)).zip outs).map mk)[k]? = some (mk (x.m, m')) := by
    intro k x m' h1 h2
    have hz : ((xs.map (·.m)).zip outs)[k]? = some (x.m, m') :=
      List.getElem?_zip_eq_some.2 ⟨by rw [List.getElem?_map, h1]; rfl, h2⟩
    rw [List.getElem?_map, hz]
    rfl
  have hdlen : (((xs.map (·.m)).zip outs).map mk).length = xs.length := by
    rw [List.length_map, List.length_zip, List.length_map, holen, Nat.min_self]
  generalize hdc : ((xs.map (·.m)).zip outs).map mk = dbClips at *
  have hsegs : ∀ (k : Nat) x clip, xs[k]? = some x → dbClips[k]? = some clip → clip.numSegments = x.c.segments.length := by
    intro k x clip h1 h2
    obtain ⟨x', m', h3, h4, rfl⟩ := hget k clip h2
    rw [h1, Option.some.injEq] at h3
    subst h3
    dsimp only [mk]
    rw [(hout k x m' h1 h4).segments]
    rfl
  have hsource : ∀ (k : Nat) x clip, xs[k]? = some x → dbClips[k]? = some clip → ∀ (g : Nat) y, Clip.segmentDataAt x.m g = some y → clip.source g = x.m.drop y.2.2 := by
    intro k x clip h1 h2 g y hy
    obtain ⟨x', m', h3, h4, rfl⟩ := hget k clip h2
    rw [h1, Option.some.injEq] at h3
    subst h3
    dsimp only [mk]
    rw [hy]
    rfl
  have htok : ∀ tier, (tier = sort low ∨ tier = sort medium) → TierOk tier dbClips max := by
    intro tier htier
    refine tierOk_of_tiering ht tier htier dbClips max (by rw [hdlen, hlen]) ?_ (fun c s => bytes_fit hlen ht hbits hfit tier htier c s) hfit.min
    intro c db clip hc1 hc2
    obtain ⟨x, m', h3, h4, e⟩ := hget c db hc1
    have hin := (hx c x h3).input
    rw [sizesOf_eq h3]
    refine ⟨by rw [hsegs c x db h3 hc1]; unfold Input.sizes; rw [List.length_map], ?_⟩
    intro s n bits hn hbt
    unfold Input.sizes at hn
    rw [List.getElem?_map, Option.map_eq_some_iff] at hn
    obtain ⟨t, hseg, rfl⟩ := hn
    refine ⟨hin.short _ (List.mem_of_getElem? hseg), ?_⟩
    rw [(hbits c x clip h3 hc2).1, List.getElem?_map, List.getElem?_range (List.getElem?_eq_some_iff.1 hseg).1, Option.map_some, Option.some.injEq] at hbt
    subst hbt
    obtain ⟨y, hy, -, hy2⟩ := DbInput.segmentBits hin hseg
    rw [hsource c x db h3 hc1 s y hy]
    exact hy2
  obtain ⟨bulk0, groups0, mem0, b1, b2, b3, b4⟩ := bulk_any (htok (sort medium) (Or.inr rfl))
  obtain ⟨bulk1, groups1, mem1, c1, c2, c3, c4⟩ := bulk_any (htok (sort low) (Or.inl rfl))
  let d : Tiers E := {
    frames := fun t => if t = 0 then sort medium else sort low
    descs := fun t => if t = 0 then chunkDescriptions (sort medium) dbClips max else chunkDescriptions (sort low) dbClips max
    bulk := fun t => if t = 0 then bulk0 else bulk1
    groups := fun t => if t = 0 then groups0 else groups1
    memory := fun t => if t = 0 then mem0 else mem1 }
  have hrt : ∀ k, k ≤ xs.length → Context.runtimeSize (dbClips.take k) = headersSize (xs.take k) := by
    intro k hk
    refine sum_segments _ _ (fun j x c h1 h2 => ?_) (by rw [List.length_take, List.length_take, hdlen])
    rw [List.getElem?_take] at h1 h2
    by_cases hj : j < k
    · rw [if_pos hj] at h1 h2
      exact hsegs j x c h1 h2
    · rw [if_neg hj] at h1
      simp at h1
  refine ⟨outs, {
      medium := (d.descs 0).map descWords, low := (d.descs 1).map descWords
      clips := (clipMetadata dbClips 0).map fun e => (e.1, BitVec.ofNat 32 e.2)
      numSegments := BitVec.ofNat 32 (dbClips.map (·.numSegments)).sum
      maxChunkSize := BitVec.ofNat 32 max
      bulkMedium := d.memory 0, bulkLow := d.memory 1 }, clips, d, sort high, dbClips, hclips, ?_, ?_⟩
  · unfold buildContent
    rw [hclips, Option.bind_some, hassign, Option.bind_some]
    dsimp only
    rw [houts, Option.bind_some, hdb, Option.bind_some]
    unfold contentOf
    rw [b1, Option.bind_some, b2, Option.bind_some, c1, Option.bind_some, c2]
    rfl
  · refine ⟨ht, hlen, ?_, holen, hdlen, ?_, ?_, ?_, ?_, fun k x m' h1 h2 hs => by have := (hout k x m' h1 h2).api hs; rwa [Nat.zero_add] at this, rfl⟩
    · intro t ht2
      rcases (show t = 0 ∨ t = 1 by omega) with rfl | rfl
      · exact b3
      · exact c3
    · have := hrt xs.length (Nat.le_refl _)
      rwa [List.take_of_length_le (by rw [hdlen]), List.take_of_length_le (Nat.le_refl _)] at this
    · intro t ht2
      rcases (show t = 0 ∨ t = 1 by omega) with rfl | rfl
      · exact b4
      · exact c4
    · intro k m' clip h1 h2
      obtain ⟨x, m'', h3, h4, rfl⟩ := hget k clip h2
      rw [h1, Option.some.injEq] at h4
      subst h4
      exact ⟨rfl, (hout k x m' h3 h1).hash⟩
    · intro k x m' h1 h2 hs
      have ho := hout k x m' h1 h2
      have hk := (List.getElem?_eq_some_iff.1 h1).1
      refine ⟨(hx k x h1).input, ⟨_, hlast k x m' h1 h2, ?_, ?_⟩, ?_, ?_, ?_⟩
      · exact hsegs k x _ h1 (hlast k x m' h1 h2)
      · intro g y hg hy
        exact hsource k x _ h1 (hlast k x m' h1 h2) g y hy
      · intro t ht2
        rcases (show t = 0 ∨ t = 1 by omega) with rfl | rfl
        · exact hframes _ (Or.inr (Or.inl rfl)) k x h1
        · exact hframes _ (Or.inl rfl) k x h1
      · -- the boundaries of the segments are in no other tier
        intro g t hseg i hi
        have hin := (hx k x h1).input
        have hsz : x.sizes[g]? = some t.numSamples := by unfold Input.sizes; rw [List.getElem?_map, hseg]; rfl
        have hpos : 0 < t.numSamples := by
          have hm : t.numSamples ∈ x.sizes := List.mem_of_getElem? hsz
          rcases (hx k x h1).sizes with hs2 | hs2
          · have := hs2 _ hm; omega
          · rw [hs2] at hm; simp at hm; omega
        have hlt : start x.sizes g + i < x.sizes.sum := by
          have := C49.sum_take_succ x.sizes g _ hsz
          have := C49.sum_take_mono x.sizes (show g + 1 ≤ x.sizes.length from (List.getElem?_eq_some_iff.1 hsz).1)
          rw [List.take_of_length_le (Nat.le_refl _)] at this
          unfold start
          omega
        have hper := ht.partition k (by rw [hlen]; exact hk)
        rw [sizesOf_eq h1] at hper
        have hmem := hper.mem_iff.2 (List.mem_range.2 hlt)
        obtain ⟨fr, hfr, he⟩ := List.mem_map.1 hmem
        obtain ⟨hfr, hfk⟩ := List.mem_filter.1 hfr
        have hfk : fr.tracksIndex = k := by simpa using hfk
        obtain ⟨x', t', q1, q2, q3, q4, q5⟩ := frame_input hlen ht hbits hfr
        rw [hfk, h1, Option.some.injEq] at q1
        subst q1
        have huniq := C49.frame_unique (c := x.c) (n := fr.clipFrameIndex) ⟨t', q2, q3, by
            rw [q5, List.map_take]; rfl⟩ ⟨t, hseg, show i < t.numSamples by omega, by rw [he, List.map_take]; rfl⟩
        rcases List.mem_append.1 hfr with hlm | hh
        · exfalso
          refine ht.boundary fr hlm ?_
          rw [hfk, sizesOf_eq h1, he]
          exact ⟨g, _, hsz, hpos, by omega⟩
        · exact ⟨fr, hh, (isFrameOf_iff k g fr).2 ⟨hfk, huniq.1⟩, huniq.2⟩
      · have := ho.decoded hs
        rw [Nat.zero_add, Nat.zero_add] at this
        rw [hrt k hk.le]
        exact this

end Acl.DbBuild
