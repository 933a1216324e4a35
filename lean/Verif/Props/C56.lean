import Verif.Database.Timeline
import Verif.Props.C54
/-
C56: decompressing while another thread streams in ("It is safe to stream in data while decompression is in progress",
docs/database_support.md). A thread completes requests to stream in, word after word of the metadata, while another one decompresses.
Whatever the moments at which the decoder loads each word of the metadata, then the pointers to the bulk data, then each byte of the
bulk data, it succeeds and reads whole key frames of the clip: none that was not in memory in the end, and none farther than those
that were in memory in the beginning.
-/
namespace Acl.C56
open Acl.Streaming Acl.Streaming.Spec Acl.Runtime Acl.DbBuild Acl.Transform Acl.Seek.Spec Acl.DbStream Acl.Tiers

variable {xs : List Input} {outs : List (List (BitVec 8))} {db : List (BitVec 8)} {bulk : Nat → List (BitVec 8)} {place : Place}

/-- Moments can be made less precise. -/
theorem moment_mono {before after after' : Nat → Nat → Bool} {headers : List (BitVec 8)} (h : Moment db bulk before after headers)
    (hw : ∀ t i, t < 2 → after t i = true → after' t i = true) : Moment db bulk before after' headers := by
  obtain ⟨events, h0, h1, h2, h3, h4, h5⟩ := h
  refine ⟨events, h0, h1, h2, h3, fun t i hi => ?_, ?_⟩
  · by_cases ht : t < 2
    · exact hw t i ht (h4 t i hi)
    · rw [loadedBy_false h1 (by omega)] at hi
      simp at hi
  · rcases h5 with h5 | ⟨e, e1, e2, e3, e4⟩
    · exact .inl h5
    · exact .inr ⟨e, e1, e2, hw _ _ (e2 e (by simp)).1 e3, e4⟩

theorem available_mono {l l' : Nat → Nat → Bool} (hpl : ∀ k n t i, place k n = some (t, i) → t < 2) (h : ∀ t i, t < 2 → l t i = true → l' t i = true) {k n : Nat}
    (ha : Available place l k n) : Available place l' k n := by
  rcases ha with h1 | ⟨t, i, h1, h2⟩
  · exact .inl h1
  · exact .inr ⟨t, i, h1, h t i (hpl _ _ _ _ h1) h2⟩

/-- The conclusion: with `trace` seen by the decoder, every word of the metadata loaded at its own moment (`load v s t`: tier `t` of
segment `s` for key frame `v`), then the pointer of tier `t` read at moment `pointer t`, then the bytes of the bulk data. -/
def SamplesWhile (xs : List Input) (outs : List (List (BitVec 8))) (place : Place) (before after : Nat → Nat → Bool) (trace : List Shared) : Prop :=
  ∀ (k : Nat) x m', xs[k]? = some x → outs[k]? = some m' →
  ∀ (load : Nat → Nat → Nat → Nat) (pointer : Nat → Nat), (∀ v s t u, u < 2 → load v s t ≤ pointer u) →
  ∀ (medium low : Option (List (BitVec 8))), Fetched trace (pointer 0) 0 medium → Fetched trace (pointer 1) 1 low →
  ∀ (α : Type) (remapAlpha : α → Nat → Nat → Nat → α) (wrapping : Bool) (kf0 kf1 : Nat), KeyFramePair wrapping x.c.numSamples kf0 kf1 →
  ∀ (alpha : α) (perTrack : Bool) (rounding : Transform.Rounding),
  ∃ ctx n0 n1, seekWhile remapAlpha m' (fun v s t => headersIn trace (load v s t)) medium low wrapping kf0 kf1 alpha perTrack rounding =
      some (ctx, remapAlpha alpha kf0 n0 n1) ∧
    NearBefore place before after k kf0 n0 ∧ NearAfter place before after k kf1 n1 ∧
    ∀ w : Writer, (perTrack = true → ∀ t, t < x.c.bones.length → w.rounding rounding t ≠ .perTrack) →
      C49.Reads x.c ctx w perTrack rounding n0 n1

theorem timeline_samples (hd : DecodesWhile xs outs db bulk place) (hpl : ∀ k n t i, place k n = some (t, i) → t < 2)
    {before first last : Nat → Nat → Bool} {l : List Shared} (h : Timeline db bulk before first l last) : SamplesWhile xs outs place before last l := by
  obtain ⟨now, hn⟩ := h.now
  intro k x m' hx hm load pointer hle medium low hf0 hf1 α remapAlpha wrapping kf0 kf1 hkf alpha perTrack rounding
  have hlen : ∀ u, u < 2 → ∃ y, l[pointer u]? = some y := by
    intro u hu
    rcases (show u = 0 ∨ u = 1 by omega) with rfl | rfl
    · obtain ⟨y, hy, -⟩ := hf0; exact ⟨y, hy⟩
    · obtain ⟨y, hy, -⟩ := hf1; exact ⟨y, hy⟩
  have hlt : ∀ u, u < 2 → pointer u < l.length := fun u hu => by
    obtain ⟨y, hy⟩ := hlen u hu
    exact (List.getElem?_eq_some_iff.1 hy).1
  obtain ⟨n0, n1, e1, e2, e3⟩ := hd before (fun t i => now (pointer t) t i) k x m' hx hm (fun v s t => headersIn l (load v s t)) (by
      intro v s t _ _ _
      have hj : load v s t < l.length := Nat.lt_of_le_of_lt (hle v s t 0 (by decide)) (hlt 0 (by decide))
      have hy := List.getElem?_eq_getElem hj
      have hh : headersIn l (load v s t) = l[load v s t].headers := by
        unfold headersIn
        rw [hy]
        rfl
      rw [hh]
      obtain ⟨g1, -, -, g4⟩ := hn _ _ hy
      exact moment_mono g1.1 fun u i hu hi => g4 _ (hle v s t u hu) (hlt u hu) u i hu hi)
    α remapAlpha wrapping kf0 kf1 hkf alpha
  have hres : ∀ t, t < 2 → ∀ view, Fetched l (pointer t) t view → Resident db (bulk t) (fun t i => now (pointer t) t i) t view := by
    intro t ht view hf i hi
    obtain ⟨y, hy, hv⟩ := hf
    dsimp only at hi
    obtain ⟨g1, -, -, g4⟩ := hn _ _ hy
    obtain ⟨p1, -, -⟩ := g1.2 t ht i hi
    rcases hv with ⟨hv, -⟩ | ⟨-, bytes, hb, hbytes⟩
    · rw [p1] at hv
      simp at hv
    · have hlater : ∀ (j : Nat) z, pointer t ≤ j → l[j]? = some z → HasChunk db (bulk t) t i (z.memory t) ∧ (bulk t).length ≤ (z.memory t).length := by
        intro j z hj hz
        have := g4 j hj (List.getElem?_eq_some_iff.1 hz).1 t i ht hi
        exact ((hn j z hz).1.2 t ht i this).2
      refine ⟨bytes, hb, ?_, ?_⟩
      · by_contra hc
        obtain ⟨j, z, h1, h2, h3⟩ := hbytes bytes.length
        have h4 := (hlater j z h1 h2).2
        rw [List.getElem?_eq_none (Nat.le_refl _)] at h3
        have := List.getElem?_eq_none_iff.1 h3.symm
        omega
      · obtain ⟨⟨n, e, c1, c2, c3, -⟩, -⟩ := hlater _ _ (Nat.le_refl _) hy
        refine ⟨n, e, c1, c2, c3, fun q q1 q2 => ?_⟩
        obtain ⟨j, z, h1, h2, h3⟩ := hbytes q
        obtain ⟨⟨n', e', d1, d2, d3, d4⟩, -⟩ := hlater j z h1 h2
        rw [c3, Option.some.injEq] at d3
        subst d3
        rw [h3]
        exact d4 q q1 q2
  obtain ⟨ctx, c1, c2⟩ := e3 perTrack rounding medium low (hres 0 (by decide) _ hf0) (hres 1 (by decide) _ hf1)
  have hlast : ∀ t i, t < 2 → now (pointer t) t i = true → last t i = true := by
    intro t i ht hi
    obtain ⟨y, hy⟩ := hlen t ht
    exact (hn _ _ hy).2.2.1 t i ht hi
  exact ⟨ctx, n0, n1, c1, ⟨e1.1, available_mono hpl hlast e1.2.1, e1.2.2⟩, ⟨e2.1, available_mono hpl hlast e2.2.1, e2.2.2⟩, c2⟩

/-- **C56**: a history `ops`, then `ops'` in which nothing is asked to be streamed out, while another thread decompresses. `usable a`
and `usable a'` are the chunks that can be used before and after `ops'`. -/
theorem C56_decompress_while_streaming_in (hc : Chunked db bulk) (hd : Decodes xs outs db bulk place) (hw : DecodesWhile xs outs db bulk place)
    (hpl : ∀ k n t i, place k n = some (t, i) → t < 2)
    (streamerOf : Tier → Nat) (requests : Nat → List Request) (hf : FreshRequests requests) (memory : Nat → List (BitVec 8)) (checks : Bool)
    (ops ops' : List DbOp) (hops : ∀ op ∈ calls (ops ++ ops'), OpOk op) (hin : OnlyIn ops') (s0 s s' : DbState)
    (h0 : dbInit db streamerOf requests memory = some s0) (hh : Honors checks db bulk (cfgOf db streamerOf) s0 Ledger.empty (ops ++ ops'))
    (h : dbRun checks db (cfgOf db streamerOf) s0 ops = some s) (h' : dbRun checks db (cfgOf db streamerOf) s ops' = some s') :
    ∃ a ds a' ds', Run (cfgOf db streamerOf) AState.empty (calls ops) a ds ∧ C24.Observes (cfgOf db streamerOf) s.book a ∧
      Run (cfgOf db streamerOf) a (calls ops') a' ds' ∧ C24.Observes (cfgOf db streamerOf) s'.book a' ∧
      (∀ t i, t < 2 → usable a t i = true → usable a' t i = true) ∧
      SamplesWhile xs outs place (usable a) (usable a') (trace checks db (cfgOf db streamerOf) s ops') := by
  unfold dbInit at h0
  rw [Option.map_eq_some_iff] at h0
  obtain ⟨hd0, e1, rfl⟩ := h0
  have hs0 : streamed false db [] = some hd0 := by
    obtain ⟨h', g1, -⟩ := hd [] (fun e he => by simp at he)
    have : streamed false db [] = (openHeaders db).bind (applyEvents false db []) := rfl
    rw [e1, Option.bind_some] at this
    rw [this] at g1 ⊢
    rw [g1]
    unfold applyEvents at g1
    simp only [Option.bind_eq_some_iff] at g1
    obtain ⟨b, -, c, -, g⟩ := g1
    exact g.symm
  have hcalls : calls (ops ++ ops') = calls ops ++ calls ops' := by
    unfold calls
    rw [List.filterMap_append]
  obtain ⟨a, L, events, ds, -, g2, g3, g4, g5⟩ := run_inv_append hc ops ops' _ _ _ _ (Core.init db bulk streamerOf hf memory) hs0
    (fun op hop => hops op (by rw [hcalls]; simp [hop])) hh s h
  obtain ⟨a', L', events', ds', k1, k2, k3, k4⟩ := run_timeline (before := usable a) hc ops' s L a events g3 g4 (fun op hop => hops op (by rw [hcalls]; simp [hop])) hin
    (fun t i ht hi => by rw [g3.loaded t ht]; exact hi) g5 s' h'
  refine ⟨a, ds, a', ds', g2, C24.observes_of_rel (small_chunks hc streamerOf) g3.rel, k1, C24.observes_of_rel (small_chunks hc streamerOf) k2.rel, ?_, ?_⟩
  · intro t i ht hi
    rw [← k2.loaded t ht]
    obtain ⟨now, hn⟩ := k4.now
    cases ht' : trace checks db (cfgOf db streamerOf) s ops' with
    | nil => cases ops' <;> simp [trace] at ht'
    | cons y l =>
      obtain ⟨-, q1, q2, -⟩ := hn 0 y (by rw [ht']; rfl)
      exact q2 t i ht (q1 t i ht (by rw [g3.loaded t ht]; exact hi))
  · intro k x m' hx hm load pointer hle medium low hf0 hf1 α remapAlpha wrapping kf0 kf1 hkf alpha perTrack rounding
    obtain ⟨ctx, n0, n1, c1, c2, c3, c4⟩ := timeline_samples hw hpl k4 k x m' hx hm load pointer hle medium low hf0 hf1 α remapAlpha wrapping kf0 kf1 hkf alpha perTrack rounding
    have hl : ∀ t i, t < 2 → loadedBy events' t i = true → usable a' t i = true := fun t i ht hi => by rw [← k2.loaded t ht]; exact hi
    exact ⟨ctx, n0, n1, c1, ⟨c2.1, available_mono hpl hl c2.2.1, c2.2.2⟩, ⟨c3.1, available_mono hpl hl c3.2.1, c3.2.2⟩, c4⟩

/-- The decoder which sees one moment only, the last one, is the one of C54. -/
theorem trace_last (checks : Bool) (db : List (BitVec 8)) (cfg : Cfg) : ∀ (ops : List DbOp) (s s' : DbState), dbRun checks db cfg s ops = some s' →
    (trace checks db cfg s ops).getLast? = some (sharedOf s') := by
  intro ops
  induction ops with
  | nil =>
    intro s s' h
    rw [dbRun, Option.some.injEq] at h
    subst h
    rfl
  | cons op ops ih =>
    intro s s' h
    rw [dbRun, Option.bind_eq_some_iff] at h
    obtain ⟨⟨s1, sent⟩, h1, h2⟩ := h
    rw [trace, h1, Option.map_some, Option.getD_some]
    have := ih s1 s' h2
    have hne : trace checks db cfg s1 ops ≠ [] := by
      intro hc
      rw [hc] at this
      simp at this
    rw [List.getLast?_cons, List.getLast?_append, this]
    rfl

/-- The first moment is the state before. -/
theorem trace_first (checks : Bool) (db : List (BitVec 8)) (cfg : Cfg) (ops : List DbOp) (s : DbState) : (trace checks db cfg s ops).head? = some (sharedOf s) := by
  cases ops <;> rfl

/-- From the clips: build_database, split_database_bulk_data, a context on the split database with streamers which hold the two bulk
data. -/
theorem C56_split {E : Type} [LinearOrder E] [OrderTop E] [Zero E] (value : BitVec 32 → E) (sort : List (Frame E) → List (Frame E)) (hsort : ∀ l, SortedFrames l (sort l))
    (metrics : Nat → List (SegmentMetric E)) (xs : List Input) (hne : xs ≠ []) (hx : ∀ (k : Nat) x, xs[k]? = some x → InputOk value (metrics k) x)
    (max wantLow wantMedium : Nat) (hfit : Fits xs max) (hmod : max % 4096 = 0) (hheaders : headersSize xs < 2 ^ 32) :
    ∃ outs content, buildContent value sort wantLow wantMedium max (xs.map (·.m)) = some (outs, content) ∧
      ((∀ m' ∈ outs, m'.length < 2 ^ 32) → databaseSize content < 2 ^ 32 →
        ∃ db place db' medium low, buildDatabase value sort wantLow wantMedium max (xs.map (·.m)) = some (some (outs, db)) ∧
          Placement xs wantLow wantMedium db place ∧ DbBuffer.split db = some (some (db', medium, low)) ∧
          ∀ (streamerOf : Tier → Nat) (requests : Nat → List Request), FreshRequests requests → ∀ (memory : Nat → List (BitVec 8)) (checks : Bool),
          ∃ s0, dbInit db' streamerOf requests memory = some s0 ∧ ∀ (ops ops' : List DbOp), (∀ op ∈ calls (ops ++ ops'), OpOk op) → OnlyIn ops' →
            Honors checks db' (fun t => if t = 0 then medium else low) (cfgOf db' streamerOf) s0 Ledger.empty (ops ++ ops') →
            ∀ s s', dbRun checks db' (cfgOf db' streamerOf) s0 ops = some s → dbRun checks db' (cfgOf db' streamerOf) s ops' = some s' →
            ∃ a ds a' ds', Run (cfgOf db' streamerOf) AState.empty (calls ops) a ds ∧ C24.Observes (cfgOf db' streamerOf) s.book a ∧
              Run (cfgOf db' streamerOf) a (calls ops') a' ds' ∧ C24.Observes (cfgOf db' streamerOf) s'.book a' ∧
              SamplesWhile xs outs place (usable a) (usable a') (trace checks db' (cfgOf db' streamerOf) s ops')) := by
  obtain ⟨outs, content, h1, -, h2⟩ := C52.C52_round_trip value sort hsort metrics xs hne hx max wantLow wantMedium hfit hmod hheaders
  refine ⟨outs, content, h1, fun hout hsize => ?_⟩
  obtain ⟨db, place, g1, -, -, g4, -, -, -, -, ⟨db', medium, low, g5, g6, g7, g8⟩, -⟩ := h2 hout hsize
  refine ⟨db, place, db', medium, low, g1, g4, g5, fun streamerOf requests hf memory checks => ?_⟩
  have hpl : ∀ k n t i, place k n = some (t, i) → t < 2 := fun k n t i h => (g4.chunk k n t i h).1
  obtain ⟨s0, k1, -⟩ := C54.C54_total g6 g7 streamerOf requests hf memory
  refine ⟨s0, k1, fun ops ops' hops hin hh s s' hs hs' => ?_⟩
  obtain ⟨a, ds, a', ds', e1, e2, e3, e4, -, e6⟩ := C56_decompress_while_streaming_in g6 g7 g8 hpl streamerOf requests hf memory checks ops ops' hops hin s0 s s' k1 hh hs hs'
  exact ⟨a, ds, a', ds', e1, e2, e3, e4, e6⟩

/-! ### An example, and why the order matters -/
section Example
open C52

/-- What a decoder reads of the bulk data of tier `t` at one moment. -/
def viewIn (l : List Shared) (p t : Nat) : Option (List (BitVec 8)) := (l[p]?).bind fun x => if x.pointer t then some (x.memory t) else none

theorem fetched_viewIn (l : List Shared) (p t : Nat) (h : p < l.length) : Fetched l p t (viewIn l p t) := by
  have hp := List.getElem?_eq_getElem h
  refine ⟨_, hp, ?_⟩
  unfold viewIn
  rw [hp, Option.bind_some]
  cases hx : l[p].pointer t with
  | false => exact .inl ⟨rfl, by simp⟩
  | true => exact .inr ⟨rfl, _, by rw [if_pos rfl], fun q => ⟨p, _, Nat.le_refl _, hp, rfl⟩⟩

/-- The database of C52, split, with streamers which have the bulk data in memory. The chunk of the low tier was asked for; its request
is completed while key frames `kf0` and `kf1` of the first clip are read. The result: the number of moments, and the key frames read. -/
def exWhile (load : Nat → Nat → Nat → Nat) (pointer kf0 kf1 : Nat) : Option (Nat × Option (Nat × Nat × Nat)) :=
  (buildDatabase exValue exSort 1 1 4096 [exInput.m, exInput.m]).bind fun r => r.bind fun (outs, db) =>
    (DbBuffer.split db).bind fun x => x.bind fun (db', medium, low) =>
    (dbInit db' (fun _ => 0) C24.exReq (fun _ => [])).bind fun s0 =>
    (dbRun true db' (cfgOf db' fun _ => 0) s0 [.write 0 medium, .write 1 low, .call (.streamIn .lowest 5)]).bind fun s =>
    (outs[0]?).map fun m =>
      let l := trace true db' (cfgOf db' fun _ => 0) s [.call (.complete 0 0)]
      (l.length, (seekWhile (fun (_ : Nat × Nat × Nat) k n0 n1 => (k, n0, n1)) m (fun v s t => headersIn l (load v s t)) (viewIn l pointer 0) (viewIn l pointer 1)
        false kf0 kf1 (0, 0, 0) false .none).map (·.2))

/-- Eight moments. Key frame 1 is in the low tier: it is read from the moment the metadata of its segment is stored. The two loads of
a segment can be at different moments. -/
example : [exWhile (fun _ _ _ => 0) 0 1 2, exWhile (fun _ _ _ => 1) 1 1 2, exWhile (fun _ _ _ => 2) 2 1 2,
    exWhile (fun v _ _ => if v = 0 then 0 else 7) 7 1 1, exWhile (fun v _ _ => if v = 0 then 7 else 0) 7 1 1] =
    [some (8, some (1, 0, 2)), some (8, some (1, 0, 2)), some (8, some (1, 1, 2)), some (8, some (1, 0, 1)), some (8, some (1, 1, 2))] := by
  decide +kernel

/-- **Finding**: the order of the reads is needed. If the pointer to the bulk data is read before the metadata, the metadata can say that
key frame 1 is in the low tier when the pointer is still null: the samples are read from a null pointer. Nothing in the code keeps
a compiler or a processor from this order: the loads and stores of the metadata are `memory_order_relaxed`, and the pointer is a plain
field (decompression.transform.h:299-300, 331-332; database_streamer.impl.h:76-86, 112). -/
theorem C56_stale_pointer_finding : exWhile (fun _ _ _ => 2) 0 1 2 = some (8, none) := by decide +kernel

end Example

end Acl.C56
