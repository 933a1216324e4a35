import Verif.Database.BuildTiers
import Verif.Database.BuildSpec
/-
A context of a database that build_database made (or that was split or stripped) reads the chunks it was built from.
-/
namespace Acl.DbBuild
open Acl.Headers Acl.Tiers Acl.Chunks Acl.Runtime Acl.Rewrite Acl.Transform Acl.Meta Acl.C43 Acl.C21 Acl.C22 Acl.C23 Acl.DbBuffer Acl.Seek.Spec

variable {E : Type}

/-- A database with the chunks of `d`, maybe without those of a tier. -/
structure Serves (d : Tiers E) (dbClips : List DbClip) (db : List (BitVec 8)) (bulk : Nat → List (BitVec 8)) (v : View) : Prop where
  represents : Represents db v
  clips : v.clips = (clipMetadata dbClips 0).map fun e => (e.1, BitVec.ofNat 32 e.2)
  numSegments : v.numSegments = BitVec.ofNat 32 (dbClips.map (·.numSegments)).sum
  descs : ∀ t, t < 2 → v.descs (tierOf t) = [] ∨ (v.descs (tierOf t) = (d.descs t).map descWords ∧ ∃ pad, bulk t = d.memory t ++ pad)

theorem clipMetadata_length (clips : List DbClip) (o : Nat) : (clipMetadata clips o).length = clips.length := by
  induction clips generalizing o with
  | nil => rfl
  | cons c l ih => rw [clipMetadata, List.length_cons, List.length_cons, ih]

theorem each_range {α : Type} {f : Nat → Option α} (l : List α) (h : ∀ i a, l[i]? = some a → f i = some a) : each f (List.range l.length) = some l := by
  cases l with
  | nil => rfl
  | cons a0 l0 =>
    rw [each_some (fun i => (a0 :: l0).getD i a0) (List.range (a0 :: l0).length)]
    · congr 1
      apply List.ext_getElem?
      intro i
      by_cases hi : i < (a0 :: l0).length
      · rw [List.getElem?_map, List.getElem?_range hi, Option.map_some, List.getD_eq_getElem?_getD, List.getElem?_eq_getElem hi]
        rfl
      · rw [List.getElem?_eq_none (by rw [List.length_map, List.length_range]; omega), List.getElem?_eq_none (by omega)]
    · intro i hi
      rw [List.mem_range] at hi
      have := List.getElem?_eq_getElem hi
      rw [h i _ this, List.getD_eq_getElem?_getD, this]
      rfl

section
variable {d : Tiers E} {dbClips : List DbClip} {db : List (BitVec 8)} {bulk : Nat → List (BitVec 8)} {v : View}

theorem chunk_count (hd : d.Ok dbClips) (hbulk : ∀ t, t < 2 → (d.memory t).length < 2 ^ 32) {t : Nat} (ht : t < 2) : (d.descs t).length < 2 ^ 32 := by
  have b := hd t ht
  rw [b.descs, List.length_map]
  rcases Nat.eq_zero_or_pos (d.bulk t).chunks.length with h | h
  · omega
  · have hlt : (d.bulk t).chunks.length - 1 < (d.bulk t).chunks.length := by omega
    obtain ⟨-, h1, -, h2, h3⟩ := b.chunk _ _ (List.getElem?_eq_getElem hlt)
    have := hbulk t ht
    omega

theorem desc_small (hd : d.Ok dbClips) (hbulk : ∀ t, t < 2 → (d.memory t).length < 2 ^ 32) {t : Nat} (ht : t < 2) {e : ChunkDesc} (he : e ∈ d.descs t) :
    (descWords e).1.toNat = e.size ∧ (descWords e).2.toNat = e.offset := by
  have b := hd t ht
  rw [b.descs] at he
  obtain ⟨ch, hch, rfl⟩ := List.mem_map.1 he
  obtain ⟨i, hi⟩ := List.mem_iff_getElem?.1 hch
  obtain ⟨-, h1, -, h2, h3⟩ := b.chunk i ch hi
  have := hbulk t ht
  unfold descWords
  dsimp only
  rw [BitVec.toNat_ofNat, BitVec.toNat_ofNat, Nat.mod_eq_of_lt (by omega), Nat.mod_eq_of_lt (by omega)]
  exact ⟨rfl, rfl⟩

/-- The chunk descriptions the context reads. -/
theorem Serves.readDescs (h : Serves d dbClips db bulk v) (hd : d.Ok dbClips) (hbulk : ∀ t, t < 2 → (d.memory t).length < 2 ^ 32) {t : Nat} (ht : t < 2) :
    ∃ l, readDescs db t = some l ∧ (l = [] ∨ l = d.descs t) := by
  have hc := chunk_count hd hbulk ht
  have hn := h.represents.numChunks (tierOf t)
  have hcount : (v.descs (tierOf t)).length < 2 ^ 32 := by
    rcases h.descs t ht with h1 | ⟨h1, -⟩
    · rw [h1]; simp
    · rw [h1, List.length_map]; exact hc
  refine ⟨(v.descs (tierOf t)).map fun e => ⟨e.1.toNat, e.2.toNat⟩, ?_, ?_⟩
  · unfold DbBuild.readDescs
    rw [hn, Option.bind_some, DbBuffer.ofNat_toNat _ hcount, each_range (v.descs (tierOf t)) fun i a ha => h.represents.chunks _ i a ha]
    rfl
  · rcases h.descs t ht with h1 | ⟨h1, -⟩
    · left; rw [h1]; rfl
    · right
      rw [h1, List.map_map]
      conv_rhs => rw [← List.map_id (d.descs t)]
      refine List.map_congr_left fun e he => ?_
      obtain ⟨a, b⟩ := desc_small hd hbulk ht he
      simp only [Function.comp_apply, a, b, id]

theorem Serves.openHeaders (h : Serves d dbClips db bulk v) (hsmall : Context.runtimeSize dbClips < 2 ^ 32) :
    openHeaders db = Context.initHeaders dbClips := by
  unfold DbBuild.openHeaders Context.initHeaders
  have hrt : Context.runtimeSize dbClips = 8 * dbClips.length + 16 * (dbClips.map (·.numSegments)).sum := rfl
  have hlen : v.clips.length = dbClips.length := by rw [h.clips, List.length_map, clipMetadata_length]
  rw [h.represents.numClips, Option.bind_some, h.represents.numSegments, Option.bind_some, h.numSegments, hlen]
  rw [DbBuffer.ofNat_toNat _ (by omega), DbBuffer.ofNat_toNat _ (by omega)]
  have he := each_range (f := getClipMetadata db) v.clips fun i a ha => h.represents.clips i a ha
  rw [hlen] at he
  rw [he, Option.bind_some, ← hrt]
  congr 1
  rw [h.clips, List.map_map]
  conv_rhs => rw [← List.map_id (clipMetadata dbClips 0)]
  refine List.map_congr_left fun e hem => ?_
  obtain ⟨i, hi⟩ := List.mem_iff_getElem?.1 hem
  have hil : i < dbClips.length := by
    have := (List.getElem?_eq_some_iff.1 hi).1
    rwa [clipMetadata_length] at this
  have hoff : e.2 ≤ Context.runtimeSize dbClips := by
    have h1 := C40.metadata_get dbClips 0 i hil
    rw [hi, Option.some.injEq] at h1
    rw [h1]
    show 0 + _ ≤ _
    rw [Nat.zero_add]
    exact C40.size_take_mono dbClips i dbClips.length hil.le (Nat.le_refl _) |>.trans (by rw [List.take_of_length_le (Nat.le_refl _)])
  simp only [Function.comp_apply, id, DbBuffer.ofNat_toNat e.2 (by omega)]

/-- The bytes of a chunk are those it was built with. -/
theorem Serves.agree (h : Serves d dbClips db bulk v) (hd : d.Ok dbClips) (hbulk : ∀ t, t < 2 → (d.memory t).length < 2 ^ 32) {t i : Nat} (ht : t < 2)
    {memory : List (BitVec 8)} (hm : HasChunk db (bulk t) t i memory) :
    ∃ ch, (d.bulk t).chunks[i]? = some ch ∧ Agree memory (d.memory t) ch ∧ v.descs (tierOf t) = (d.descs t).map descWords ∧
      (d.memory t).length ≤ (bulk t).length := by
  obtain ⟨n, e, h1, h2, h3, h4⟩ := hm
  have hc := chunk_count hd hbulk ht
  rw [h.represents.numChunks, Option.some.injEq] at h1
  subst h1
  rcases h.descs t ht with hz | ⟨hz, pad, hp⟩
  · rw [hz] at h2; simp at h2
  · rw [hz, List.length_map, DbBuffer.ofNat_toNat _ hc] at h2
    have hdl : (d.descs t).length = (d.bulk t).chunks.length := by rw [(hd t ht).descs, List.length_map]
    have hlt : i < (d.bulk t).chunks.length := by omega
    have hch := List.getElem?_eq_getElem hlt
    obtain ⟨-, a1, -, a2, a3⟩ := (hd t ht).chunk i _ hch
    have hdi : (d.descs t)[i]? = some ⟨(d.bulk t).chunks[i].size, (d.bulk t).chunks[i].offset⟩ := by
      rw [(hd t ht).descs, List.getElem?_map, hch]; rfl
    have hr := h.represents.chunks (tierOf t) i (descWords ⟨(d.bulk t).chunks[i].size, (d.bulk t).chunks[i].offset⟩) (by
      rw [hz, List.getElem?_map, hdi]; rfl)
    rw [hr, Option.some.injEq] at h3
    subst h3
    obtain ⟨s1, s2⟩ := desc_small hd hbulk ht (List.mem_of_getElem? hdi)
    rw [s1, s2] at h4
    refine ⟨_, hch, fun p p1 p2 => ?_, hz, by rw [hp, List.length_append]; omega⟩
    rw [h4 p p1 p2, hp, List.getElem?_append_left (by omega)]

theorem Serves.history (h : Serves d dbClips db bulk v) (hd : d.Ok dbClips) (hbulk : ∀ t, t < 2 → (d.memory t).length < 2 ^ 32) (checks : Bool) :
    ∀ (events : List Runtime.Event), Legal db bulk events → LegalHistory d events ∧
      ∀ l : Nat → List ChunkDesc, (∀ t, t < 2 → v.descs (tierOf t) = (d.descs t).map descWords → l t = d.descs t) →
        ∀ headers, runEvents checks l events headers = runEvents checks d.descs events headers := by
  intro events
  induction events with
  | nil => intro _; exact ⟨fun e he => absurd he List.not_mem_nil, fun _ _ _ => rfl⟩
  | cons e rest ih =>
    intro hl
    obtain ⟨ht, hc⟩ := hl e List.mem_cons_self
    obtain ⟨ch, h1, h2, h3, -⟩ := h.agree hd hbulk ht hc
    obtain ⟨i1, i2⟩ := ih fun x hx => hl x (List.mem_cons_of_mem _ hx)
    refine ⟨fun x hx => ?_, fun l hl headers => ?_⟩
    · rcases List.mem_cons.1 hx with rfl | hx
      · exact ⟨ht, ch, h1, h2⟩
      · exact i1 x hx
    · rw [runEvents, runEvents, hl e.tier ht h3]
      congr 1
      funext x
      congr 1
      funext y
      exact i2 l hl y

theorem Serves.streamed (h : Serves d dbClips db bulk v) (hd : d.Ok dbClips) (hsmall : Context.runtimeSize dbClips < 2 ^ 32)
    (hbulk : ∀ t, t < 2 → (d.memory t).length < 2 ^ 32) (checks : Bool) (events : List Runtime.Event) (hl : Legal db bulk events)
    (ha : checks = true → Alternates events fun _ _ => false) :
    ∃ headers, streamed checks db events = some headers ∧ Streamed d dbClips (loadedBy events) headers := by
  obtain ⟨hh, hrun⟩ := h.history hd hbulk checks events hl
  obtain ⟨headers, h1, h2⟩ := history_ok hd hsmall hbulk checks events hh ha
  refine ⟨headers, ?_, h2⟩
  obtain ⟨l0, a1, a2⟩ := h.readDescs hd hbulk (t := 0) (by omega)
  obtain ⟨l1, b1, b2⟩ := h.readDescs hd hbulk (t := 1) (by omega)
  unfold DbBuild.streamed
  rw [h.openHeaders hsmall, ← h1]
  congr 1
  funext x
  unfold applyEvents
  rw [a1, Option.bind_some, b1, Option.bind_some]
  refine hrun _ (fun t ht hz => ?_) x
  have key : ∀ l, DbBuild.readDescs db t = some l → l = d.descs t := by
    intro l hrl
    unfold DbBuild.readDescs at hrl
    have hc := chunk_count hd hbulk ht
    have hcount : (v.descs (tierOf t)).length < 2 ^ 32 := by rw [hz, List.length_map]; exact hc
    rw [h.represents.numChunks, Option.bind_some, DbBuffer.ofNat_toNat _ hcount,
      each_range (v.descs (tierOf t)) fun i a ha => h.represents.chunks _ i a ha, Option.map_some, Option.some.injEq] at hrl
    rw [← hrl, hz, List.map_map]
    conv_rhs => rw [← List.map_id (d.descs t)]
    refine List.map_congr_left fun e he => ?_
    obtain ⟨p, q⟩ := desc_small hd hbulk ht he
    simp only [Function.comp_apply, p, q, id]
  rcases (show t = 0 ∨ t = 1 by omega) with rfl | rfl
  · exact key l0 a1
  · exact key l1 b1

theorem streamed_release {db : List (BitVec 8)} {events : List Runtime.Event} {headers : List (BitVec 8)} (h : DbBuild.streamed true db events = some headers) :
    DbBuild.streamed false db events = some headers := by
  unfold DbBuild.streamed applyEvents at h ⊢
  simp only [Option.bind_eq_some_iff] at h ⊢
  obtain ⟨a, h1, b, h2, c, h3, h4⟩ := h
  exact ⟨a, h1, b, h2, c, h3, runEvents_release h4⟩

/-- Where the chunks of the database are. -/
theorem Serves.chunked (h : Serves d dbClips db bulk v) (hd : d.Ok dbClips) (hmem : ∀ t, t < 2 → (d.memory t).length < 2 ^ 32)
    (hbulk : ∀ t, t < 2 → (bulk t).length < 2 ^ 32) {max : Nat} (hmax : 4096 ≤ max)
    (hv : v.maxChunkSize = BitVec.ofNat 32 max)
    (hl : ∀ t, t < 2 → ∀ (i : Nat) ch, (d.bulk t).chunks[i]? = some ch → ch.offset = i * max ∧ (i + 1 < (d.bulk t).chunks.length → ch.size = max)) :
    Chunked db bulk := by
  refine ⟨_, h.represents.maxChunkSize, fun t ht => ⟨hbulk t ht, _, h.represents.numChunks _, ?_⟩⟩
  rw [hv]
  rcases h.descs t ht with hz | ⟨hz, pad, hp⟩
  · rw [hz]
    exact ⟨fun hc => absurd hc (by simp), fun i hi => absurd hi (by simp)⟩
  · have b := hd t ht
    have hb := hbulk t ht
    rw [hp, List.length_append] at hb
    have hdl : (d.descs t).length = (d.bulk t).chunks.length := by rw [b.descs, List.length_map]
    rw [hz, List.length_map, hdl]
    have hend : ∀ i, i < (d.bulk t).chunks.length → i * max + 12 ≤ (d.memory t).length := by
      intro i hi
      obtain ⟨-, -, -, h2, h3⟩ := b.chunk i _ (List.getElem?_eq_getElem hi)
      obtain ⟨h4, -⟩ := hl t ht i _ (List.getElem?_eq_getElem hi)
      omega
    have hcount : (d.bulk t).chunks.length < 2 ^ 32 := by
      rcases Nat.eq_zero_or_pos (d.bulk t).chunks.length with hc | hc
      · omega
      · have := hend ((d.bulk t).chunks.length - 1) (by omega)
        have h5 : (d.bulk t).chunks.length - 1 ≤ ((d.bulk t).chunks.length - 1) * max := Nat.le_mul_of_pos_right _ (by omega)
        omega
    rw [DbBuffer.ofNat_toNat _ hcount]
    have hsmall : 2 ≤ (d.bulk t).chunks.length → max < 2 ^ 32 := by
      intro hc
      have := hend 1 (by omega)
      omega
    refine ⟨fun hc => by rw [DbBuffer.ofNat_toNat _ (hsmall hc)]; exact hmax, fun i hi => ?_⟩
    have hch := List.getElem?_eq_getElem hi
    obtain ⟨-, -, -, a2, a3⟩ := b.chunk i _ hch
    obtain ⟨a4, a5⟩ := hl t ht i _ hch
    have hdi : (d.descs t)[i]? = some ⟨(d.bulk t).chunks[i].size, (d.bulk t).chunks[i].offset⟩ := by
      rw [b.descs, List.getElem?_map, hch]; rfl
    obtain ⟨s1, s2⟩ := desc_small hd hmem ht (List.mem_of_getElem? hdi)
    refine ⟨_, h.represents.chunks (tierOf t) i (descWords ⟨(d.bulk t).chunks[i].size, (d.bulk t).chunks[i].offset⟩) (by
      rw [hz, List.getElem?_map, hdi]; rfl), ?_⟩
    rw [s1, s2]
    dsimp only
    refine ⟨?_, fun h1 => ?_, by omega, by rw [hp, List.length_append]; omega⟩
    · rcases Nat.eq_zero_or_pos i with rfl | hi0
      · rw [a4, Nat.zero_mul, Nat.zero_mul]
      · rw [a4, DbBuffer.ofNat_toNat _ (hsmall (by omega))]
    · rw [a5 h1, DbBuffer.ofNat_toNat _ (hsmall (by omega))]

theorem Serves.memoryOk (h : Serves d dbClips db bulk v) (hd : d.Ok dbClips) (hbulk : ∀ t, t < 2 → (d.memory t).length < 2 ^ 32)
    {loaded : Nat → Nat → Bool} {t : Nat} (ht : t < 2) {memory : Option (List (BitVec 8))} (hr : Resident db (bulk t) loaded t memory) :
    MemoryOk d loaded t memory := by
  intro i hi
  obtain ⟨mem, h1, h2, h3⟩ := hr i hi
  obtain ⟨ch, c1, c2, -, c4⟩ := h.agree hd hbulk ht h3
  refine ⟨mem, h1, by omega, fun ch' hch' => ?_⟩
  rw [c1, Option.some.injEq] at hch'
  subst hch'
  exact c2

end

end Acl.DbBuild
