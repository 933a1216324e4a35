import Verif.Database.BuildPlace
/-
A decoder that loads the metadata while another thread registers chunks.
-/
namespace Acl.Runtime
open Acl.Chunks Acl.Context Acl.Headers Acl.C23 Acl.Transform Acl.Rewrite
variable {E : Type} {d : Tiers E} {clips : List DbClip}

theorem Streamed.state {value : Nat → Nat → Nat → BitVec 64} (hv : ∀ t, t < 2 → ∀ i c s h, d.Has t i c s h → value t c s = metaOf h)
    {loaded : Nat → Nat → Bool} {headers : List (BitVec 8)} (hst : Streamed d clips loaded headers) :
    ∃ on, StateIs clips value on headers ∧ OnIs d loaded on := by
  classical
  refine ⟨fun t c s => decide (∃ i h, d.Has t i c s h ∧ loaded t i = true), ⟨hst.holds, fun c clip hc s hs t ht => ?_⟩, fun t ht c s => by simp⟩
  by_cases hx : ∃ i h, d.Has t i c s h ∧ loaded t i = true
  · obtain ⟨i, h, h1, h2⟩ := hx
    rw [if_pos (by simp only [decide_eq_true_eq]; exact ⟨i, h, h1, h2⟩), hv t ht i c s h h1]
    exact hst.loaded c clip hc s hs t ht i h h1 h2
  · rw [if_neg (by simp only [decide_eq_true_eq]; exact hx)]
    refine hst.out c clip hc s hs t ht fun i h h1 => ?_
    cases hl : loaded t i with
    | false => rfl
    | true => exact absurd ⟨i, h, h1, hl⟩ hx

/-- The number of segments a chunk says it has. -/
theorem chunk_segments (hd : d.Ok clips) (hbulk : ∀ t, t < 2 → (d.memory t).length < 2 ^ 32) {t : Nat} (ht : t < 2) {k : Nat} {ch : Chunk}
    (hch : (d.bulk t).chunks[k]? = some ch) {memory : List (BitVec 8)} (hm : Agree memory (d.memory t) ch) {n : BitVec 32}
    (hn : load32 memory (ch.offset + 8) = some n) : n.toNat = ch.segs.length := by
  have b := hd t ht
  obtain ⟨hidx, hko, hat, hsz, hend⟩ := b.chunk k ch hch
  have hlen := chunkBytes_length ch
  have hat' : At memory ch.offset ((chunkWords ch).flatMap bytesLE) := At.agree hat fun q h1 h2 => hm q h1 (by omega)
  have hmem := hbulk t ht
  have l2 := load32_of_words _ hat' 2 _ rfl
  rw [show ch.offset + 8 = ch.offset + 4 * 2 from rfl, l2, Option.some.injEq] at hn
  rw [← hn, BitVec.toNat_ofNat, Nat.mod_eq_of_lt (by omega)]

/-- The metadata while a chunk is being registered: what it was, or what it will be. -/
theorem moment_word (hd : d.Ok clips) (hsmall : runtimeSize clips < 2 ^ 32) (hbulk : ∀ t, t < 2 → (d.memory t).length < 2 ^ 32)
    {loaded : Nat → Nat → Bool} {headers headers' : List (BitVec 8)} (hst : Streamed d clips loaded headers) {t : Nat} (ht : t < 2) {k : Nat} {ch : Chunk}
    (hch : (d.bulk t).chunks[k]? = some ch) {memory : List (BitVec 8)} (hm : Agree memory (d.memory t) ch) {j : Nat} (hj : j ≤ ch.segs.length)
    (hu : updateSegs false true t memory j (ch.offset + 12) headers = some headers')
    {c : Nat} {clip : DbClip} (hc : clips[c]? = some clip) {s : Nat} (hs : s < clip.numSegments) {t' : Nat} (ht' : t' < 2) :
    ∃ v l, load64 headers' (slot clips c s t') = some v ∧ MetaIs d l c s t' v ∧
      (l = loaded ∨ l = fun u i => if u = t ∧ i = k then true else loaded u i) := by
  obtain ⟨value, hv⟩ := value_exists hd
  obtain ⟨on, hsi, hon⟩ := hst.state hv
  have b := hd t ht
  obtain ⟨hidx, hko, hat, hsz, hend⟩ := b.chunk k ch hch
  have hlen := chunkBytes_length ch
  have hat' : At memory ch.offset ((chunkWords ch).flatMap bytesLE) := At.agree hat fun q h1 h2 => hm q h1 (by omega)
  have hkl : k < (d.bulk t).chunks.length := (List.getElem?_eq_some_iff.1 hch).1
  obtain ⟨g, hg⟩ : ∃ g, (d.groups t)[k]? = some g := ⟨_, List.getElem?_eq_getElem (by rw [b.length]; exact hkl)⟩
  have hcnt := b.counts k g ch hg hch
  unfold chunkWords at hat'
  rw [List.flatMap_append, at_append] at hat'
  have hgn : g.Nodup := (List.nodup_flatten.1 b.nodup).1 g (List.mem_iff_getElem?.2 ⟨k, hg⟩)
  have hhas : ∀ (j : Nat) h c s, ch.segs[j]? = some h → g[j]? = some (c, s) → d.Has t k c s h := fun j h c s h1 h2 => ⟨j, g, ch, hg, hch, h2, h1⟩
  have hat2 : At memory (ch.offset + 12) (((ch.segs.take j).flatMap segWords).flatMap bytesLE) := by
    have h := hat'.2
    rw [words_length] at h
    have h2 : (ch.segs.flatMap segWords).flatMap bytesLE = ((ch.segs.take j).flatMap segWords).flatMap bytesLE ++ ((ch.segs.drop j).flatMap segWords).flatMap bytesLE := by
      rw [← List.flatMap_append, ← List.flatMap_append, List.take_append_drop]
    rw [h2, at_append] at h
    exact h.1
  obtain ⟨h', r1, r2⟩ := updateSegs_ok (value := value) ht false true memory hsmall (ch.segs.take j) (g.take j) (ch.offset + 12) on headers
    (by rw [List.length_take, List.length_take, hcnt]) (hgn.sublist (List.take_sublist _ _)) hat2 (fun i h c s h1 h2 => by
      rw [List.getElem?_take] at h1 h2
      split at h1
      · rename_i hij
        rw [if_pos hij] at h2
        obtain ⟨is, -⟩ := b.each k c s h (hhas i h c s h1 h2)
        obtain ⟨clip, e1, e2, e3, -⟩ := is.clip
        exact ⟨⟨clip, e1, e2, e3⟩, is.clipOffset, is.segmentOffset, hv t ht k c s h (hhas i h c s h1 h2), fun hck => by simp at hck⟩
      · simp at h1) hsi
  rw [List.length_take, Nat.min_eq_left hj, hu, Option.some.injEq] at r1
  subst r1
  have hw := r2.slots c clip hc s hs t' ht'
  by_cases hin : t' = t ∧ (c, s) ∈ g.take j
  · obtain ⟨rfl, hin⟩ := hin
    obtain ⟨i, hi⟩ := List.mem_iff_getElem?.1 (List.mem_of_mem_take hin)
    have hil : i < ch.segs.length := by rw [hcnt]; exact (List.getElem?_eq_some_iff.1 hi).1
    have hh := hhas i _ c s (List.getElem?_eq_getElem hil) hi
    rw [if_pos (show (if t' = t' ∧ (c, s) ∈ g.take j then true else on t' c s) = true from if_pos ⟨rfl, hin⟩), hv t' ht k c s _ hh] at hw
    exact ⟨_, _, hw, ⟨Or.inl ⟨k, _, hh, by rw [if_pos ⟨rfl, rfl⟩], rfl⟩⟩, Or.inr rfl⟩
  · rw [if_neg hin] at hw
    refine ⟨_, loaded, hw, ⟨?_⟩, Or.inl rfl⟩
    by_cases ho : on t' c s = true
    · obtain ⟨i, h, h1, h2⟩ := (hon t' ht' c s).1 ho
      exact Or.inl ⟨i, h, h1, h2, by rw [if_pos ho, hv t' ht' i c s h h1]⟩
    · refine Or.inr ⟨fun i h h1 => ?_, by rw [if_neg ho]; rfl⟩
      cases hl : loaded t' i with
      | false => rfl
      | true => exact absurd ((hon t' ht' c s).2 ⟨i, h, h1, hl⟩) ho

end Acl.Runtime

namespace Acl.DbBuild
open Acl.Headers Acl.Tiers Acl.Chunks Acl.Runtime Acl.Rewrite Acl.Transform Acl.Meta Acl.C43 Acl.C21 Acl.C22 Acl.C23 Acl.DbBuffer Acl.Seek.Spec

section
variable {E : Type} {d : Tiers E} {dbClips : List DbClip} {db : List (BitVec 8)} {bulk : Nat → List (BitVec 8)} {v : View}

/-- What is loaded of the metadata at a moment. -/
theorem Serves.moment (h : Serves d dbClips db bulk v) (hd : d.Ok dbClips) (hsmall : Context.runtimeSize dbClips < 2 ^ 32)
    (hbulk : ∀ t, t < 2 → (d.memory t).length < 2 ^ 32) {before after : Nat → Nat → Bool} {headers : List (BitVec 8)}
    (hm : Moment db bulk before after headers) {c : Nat} {clip : DbClip} (hc : dbClips[c]? = some clip) {s : Nat} (hs : s < clip.numSegments) {t : Nat} (ht : t < 2) :
    ∃ w l, Context.load64 headers (slot dbClips c s t) = some w ∧ MetaIs d l c s t w ∧
      (∀ u i, u < 2 → before u i = true → l u i = true) ∧ ∀ u i, l u i = true → after u i = true := by
  obtain ⟨events, h0, hl, hst, hbef, haft, hx⟩ := hm
  obtain ⟨h0', e1, e2⟩ := h.streamed hd hsmall hbulk false events hl (by simp)
  rw [hst, Option.some.injEq] at e1
  subst e1
  rcases hx with rfl | ⟨e, hadd, hle, hea, hmem⟩
  · obtain ⟨w, h1, h2⟩ := e2.word hc hs ht
    exact ⟨w, _, h1, h2, hbef, haft⟩
  · obtain ⟨het, hhas⟩ := hle e List.mem_cons_self
    obtain ⟨n, dd, a1, a2, a3, -⟩ := id hhas
    obtain ⟨ch, c1, c2, c3, -⟩ := h.agree hd hbulk het hhas
    unfold chunkMoments at hmem
    rw [a3, Option.bind_some] at hmem
    have hoff : dd.2.toNat = ch.offset := by
      have hdi : (d.descs e.tier)[e.chunk]? = some ⟨ch.size, ch.offset⟩ := by
        rw [(hd e.tier het).descs, List.getElem?_map, c1]; rfl
      have := h.represents.chunks (tierOf e.tier) e.chunk (descWords ⟨ch.size, ch.offset⟩) (by rw [c3, List.getElem?_map, hdi]; rfl)
      rw [a3, Option.some.injEq] at this
      rw [this]
      exact (desc_small hd hbulk het (List.mem_of_getElem? hdi)).2
    rw [hoff] at hmem
    cases hn : load32 e.memory (ch.offset + 8) with
    | none => rw [hn] at hmem; simp at hmem
    | some n =>
      rw [hn, Option.map_some, Option.getD_some, List.mem_filterMap] at hmem
      obtain ⟨j, hj, hu⟩ := hmem
      rw [List.mem_range] at hj
      rw [hadd] at hu
      have hcount := chunk_segments hd hbulk het c1 c2 hn
      obtain ⟨w, l, h1, h2, h3⟩ := moment_word hd hsmall hbulk e2 het c1 c2 (j := j) (by omega) hu hc hs ht
      refine ⟨w, l, h1, h2, ?_⟩
      rcases h3 with rfl | rfl
      · exact ⟨hbef, haft⟩
      · constructor
        · intro u i hu hb
          dsimp only
          split
          · rfl
          · exact hbef u i hu hb
        · intro u i hli
          dsimp only at hli
          split at hli
          · rename_i hui
            rw [hui.1, hui.2]; exact hea
          · exact haft u i hli

end

section
variable {E : Type} [LinearOrder E] [OrderTop E] [Zero E]
variable {xs : List Input} {max wantLow wantMedium : Nat} {outs : List (List (BitVec 8))} {content : DbBuffer.Content}
  {clips : List (Tiers.Clip E)} {d : Tiers E} {high : List (Frame E)} {dbClips : List DbClip}

theorem chunkLoaded_mono {d : Tiers E} {l l' : Nat → Nat → Bool} {t k g : Nat} (h : ∀ i, l t i = true → l' t i = true) (hc : ChunkLoaded d l t k g) :
    ChunkLoaded d l' t k g := by
  obtain ⟨i, x, h1, h2⟩ := hc
  exact ⟨i, x, h1, h i h2⟩

theorem availableAt_mono {d : Tiers E} {high : List (Frame E)} {l l' : Nat → Nat → Bool} {k g i : Nat} (h : ∀ t j, t < 2 → l t j = true → l' t j = true)
    (ha : AvailableAt d high l k g i) : AvailableAt d high l' k g i := by
  rcases ha with ha | ⟨t, ht, h1, h2⟩
  · exact Or.inl ha
  · exact Or.inr ⟨t, ht, h1, chunkLoaded_mono (fun i => h t i ht) h2⟩

/-- **The round trip**, while another thread registers chunks. -/
theorem Made.decodesWhile (h : Made xs max wantLow wantMedium outs content clips d high dbClips) (hsmall : Context.runtimeSize dbClips < 2 ^ 32)
    (hbulk : ∀ t, t < 2 → (d.memory t).length < 2 ^ 32) (hout : ∀ m' ∈ outs, m'.length < 2 ^ 32)
    {db : List (BitVec 8)} {bulk : Nat → List (BitVec 8)} {v : View} (hs : Serves d dbClips db bulk v) : DecodesWhile xs outs db bulk (placeOf d) := by
  intro before after k x m' hx hm' headersAt hmom α remapAlpha wrapping kf0 kf1 hkf alpha
  have hin := h.inDb k x m' hx hm' (hout m' (List.mem_of_getElem? hm'))
  obtain ⟨clip, k1, k2, k3⟩ := hin.clip
  have hw : ∀ v s t, ∃ w l, v < 2 → s < x.c.segments.length → t < 2 → Context.load64 (headersAt v s t) (slot dbClips k s t) = some w ∧ MetaIs d l k s t w ∧
      (∀ u i, u < 2 → before u i = true → l u i = true) ∧ ∀ u i, l u i = true → after u i = true := by
    intro v s t
    by_cases hst : v < 2 ∧ s < x.c.segments.length ∧ t < 2
    · obtain ⟨w, l, hwl⟩ := hs.moment h.chunks hsmall hbulk (hmom v s t hst.1 hst.2.1 hst.2.2) k1 (by rw [k2]; exact hst.2.1) hst.2.2
      exact ⟨w, l, fun _ _ _ => hwl⟩
    · exact ⟨0, fun _ _ => false, fun h0 h1 h2 => absurd ⟨h0, h1, h2⟩ hst⟩
  choose w L hw using hw
  obtain ⟨v, g0, i0, g1, i1, t0, t1, n0, n1, hv, r3, r4, r5, r6, r7, r8, r9, r10, r11, r12, r13, r14, r15⟩ := hin.seekAt h.chunks hsmall hbulk (L := L)
    (headersAt := headersAt) (fun v s t hv hs ht => ⟨_, (hw v s t hv hs ht).1, (hw v s t hv hs ht).2.1⟩) remapAlpha wrapping kf0 kf1 hkf alpha
  have f0 : C49.Frame x.c n0 g0 i0 := ⟨t0, r3, r4, r5⟩
  have f1 : C49.Frame x.c n1 g1 i1 := ⟨t1, r6, r7, r8⟩
  have hsum : ∀ n g i, C49.Frame x.c n g i → n < x.c.numSamples := by
    rintro n g i ⟨s, hs, hi, e⟩
    have hsz : (x.c.segments.map (·.numSamples))[g]? = some s.numSamples := by rw [List.getElem?_map, hs]; rfl
    have h1 := C49.sum_take_succ _ g _ hsz
    have h2 := C49.sum_take_mono (x.c.segments.map (·.numSamples)) (show g + 1 ≤ (x.c.segments.map (·.numSamples)).length from (List.getElem?_eq_some_iff.1 hsz).1)
    rw [List.take_of_length_le (Nat.le_refl _)] at h2
    rw [e, List.map_take]
    rw [sum_sizes] at h2
    omega
  have hlt : ∀ (g : Nat) t, x.c.segments[g]? = some t → g < x.c.segments.length := fun g t ht => (List.getElem?_eq_some_iff.1 ht).1
  refine ⟨n0, n1, ⟨r9, (h.available_iff hx f0 _).1 (availableAt_mono (fun t j ht hl => (hw 0 g0 t (by omega) (hlt _ _ r3) ht).2.2.2 t j hl) r10), ?_⟩,
    ⟨r12, (h.available_iff hx f1 _).1 (availableAt_mono (fun t j ht hl => (hw v g1 t hv (hlt _ _ r6) ht).2.2.2 t j hl) r13), ?_⟩, ?_⟩
  · intro j hj1 hj2 ha
    obtain ⟨g, i, f⟩ := frame_exists x.c j (by have := hkf.1; omega)
    obtain ⟨t, f2, f3, f4⟩ := id f
    exact r11 g i t f2 f3 (by omega) (by omega) (availableAt_mono (fun u j hu hb => (hw 0 g u (by omega) (hlt _ _ f2) hu).2.2.1 u j hu hb) ((h.available_iff hx f _).2 ha))
  · intro j hj1 hj2 ha
    obtain ⟨g, i, f⟩ := frame_exists x.c j (by have := hsum n1 g1 i1 f1; omega)
    obtain ⟨t, f2, f3, f4⟩ := id f
    exact r14 g i t f2 f3 (by omega) (by omega) (availableAt_mono (fun u j hu hb => (hw v g u hv (hlt _ _ f2) hu).2.2.1 u j hu hb) ((h.available_iff hx f _).2 ha))
  · intro perTrack rounding medium low hr0 hr1
    have hm : ∀ t, t < 2 → ∀ memory, Resident db (bulk t) after t memory → ∀ u g, u < 2 → g < x.c.segments.length → MemoryOk d (L u g t) t memory := by
      intro t ht memory hr u g hu hg i hi
      exact hs.memoryOk h.chunks hbulk ht hr i ((hw u g t hu hg ht).2.2.2 t i hi)
    obtain ⟨ctx, c1, c2⟩ := r15 perTrack rounding medium low (hm 0 (by omega) _ hr0) (hm 1 (by omega) _ hr1)
    exact ⟨ctx, c1, fun w hp => C49.reads_of hin.input.compressed.clip c2 f0 f1 w hp⟩

end
end Acl.DbBuild
