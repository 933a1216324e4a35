import Verif.Props.C54
/-!
C57: sampling a clip of a database at a time. A decompression context is initialized with a clip build_database gave back and a
context of the database, a looping policy is set, `seek` is called with a time: the pose that is then written blends the nearest
frames around the position of the time which are in memory, in the clip or in a chunk that was streamed in, with the factor that goes
with the position. With the bulk data inline those are the frames around the position themselves.
Specification vocabulary: `Blend` (Props/C50.lean), `Available`, `Placement` (Database/BuildSpec.lean), `usable` (which chunks are in,
Database/StreamContextSpec.lean), `C49.Reads`; `InMemory`, `SampledAt` below.
-/
namespace Acl.C57
open Acl.Streaming Acl.Streaming.Spec Acl.Runtime Acl.DbBuild Acl.Transform Acl.Seek.Spec Acl.DbStream Acl.Tiers Acl.Context Acl.F32 Acl.Interp
open Acl.C50 (Blend Nearest clipOf effective)

/-- What is in memory: at `a` the compressed tracks `m'`, at `d` a context of the database `db`, with the runtime headers `headers`
and the bulk data `medium` and `low`. `memory` is what bulk data pointers point to. -/
structure InMemory (supported : Nat → Bool) (m' db headers : List (BitVec 8)) (medium low : Option (List (BitVec 8))) (memory : Nat → List (BitVec 8))
    (w : World) (a d : Nat) : Prop where
  tracks : tracksOf supported m' = some (w.tracks a)
  database : ∃ b, (w.contexts d).db = some b ∧ databaseOf db = some (w.databases b)
  headers : (w.contexts d).headers = headers
  medium : (w.contexts d).bulkMedium.map memory = medium
  low : (w.contexts d).bulkLow.map memory = low

/-- Specification: a decompression context can be initialized with the tracks at `a` and the database context at `d`. For every
looping policy, time and rounding policy seek succeeds, and the frames and the factor are those of the index of the time (clamped to
the clip, times the sample rate), among the frames for which `kept` holds. The decompression functions read those frames of `c`. -/
def SampledAt (cs : Context.Settings) (c : ClipSource) (f : ClipFlags) (m' : List (BitVec 8)) (memory : Nat → List (BitVec 8)) (w : World) (a d : Nat)
    (kept : Nat → Prop) : Prop :=
  ∀ (p : Looping) (t : ℚ), t < pow2 128 → ∀ (r : Interp.Rounding) (perTrack : Bool) (writer : Transform.Writer),
    (perTrack = true → ∀ i, i < c.bones.length → writer.rounding r i ≠ .perTrack) →
    ∃ x x' q pose n0 n1, C20.Fresh transformKind cs w a (some d) p x ∧ Context.seek transformKind cs w x t r = some x' ∧ x'.seen = some q ∧
      poseDbContext m' memory q perTrack r = some pose ∧ C49.Reads c pose writer perTrack r n0 n1 ∧
      Blend kept c.numSamples (effective cs (clipOf c f) p == .wrap) r
        (fmul (clampTime t ((clipOf c f).finiteDuration (effective cs (clipOf c f) p))) (ofBits f.sampleRate)) n0 n1 q.alpha

/-! ### Proof -/

/-- Sampling at a time, from what is read for two key frames. -/
theorem sampled_at {x : Input} {m' db headers : List (BitVec 8)} {medium low : Option (List (BitVec 8))} {memory : Nat → List (BitVec 8)} {supported : Nat → Bool}
    {w : World} {a d : Nat} {kept : Nat → Prop} (hc : ClipOk x.c) (hw : InMemory supported m' db headers medium low memory w a d)
    (hR : Readable x supported m' (w.tracks a)) (hknown : Context.contains w d (w.tracks a) = some true)
    (hk0 : kept 0) (hkl : kept (x.c.numSamples - 1)) (hr : 0 < ofBits x.f.sampleRate ∧ ofBits x.f.sampleRate < pow2 128)
    (hn : x.c.numSamples ≤ 2 ^ 23 - 4) (hv : supported 10 = true) (cs : Context.Settings) (hcl : cs.clampTimes = true) (hdb : cs.databases = true)
    (hs : ∀ (kf0 kf1 : Nat), KeyFramePair cs.wrapping x.c.numSamples kf0 kf1 → ∀ (alpha : ℚ) (perTrack : Bool) (r : Interp.Rounding),
      ∃ ctx n0 n1, seekDbContext (fun alpha k c0 c1 => interpolationAlpha (fadd alpha (ofNat k)) c0 c1 .none) m' headers medium low cs.wrapping kf0 kf1 alpha perTrack r =
          some (ctx, interpolationAlpha (fadd alpha (ofNat kf0)) n0 n1 .none) ∧
        Nearest kept kf0 kf1 n0 n1 ∧ ∀ w : Writer, (perTrack = true → ∀ t, t < x.c.bones.length → w.rounding r t ≠ .perTrack) → C49.Reads x.c ctx w perTrack r n0 n1) :
    SampledAt cs x.c x.f m' memory w a d kept := by
  intro p t ht r perTrack writer hp
  have hb := hc.bones
  have hseg := Transform.segments_le hc
  have hsp := Transform.segments_pos hc
  obtain ⟨b, hdb1, hdb2⟩ := hw.database
  have hch : checks cs w (w.tracks a) (some d) = some true := by
    show (if cs.skipChecks then some true else if !(w.tracks a).isValid then some false else if (w.contexts d).db.isNone then some false
      else if !(w.tracks a).isVersionSupported then some false else Context.contains w d (w.tracks a)) = some true
    rw [hR.valid, hdb1, hR.version, hv, hknown]
    cases cs.skipChecks <;> rfl
  obtain ⟨xx, x', q, n0, n1, a1, a2, a3, ⟨pose, a4, a5⟩, a6⟩ := C50.at_time (k := clipOf x.c x.f) (count := x.c.numSamples) (stripped := true) rfl hk0 hkl (by simp) hr
    (by omega) hn cs hcl w a (some d) hch hR.clip (by rw [hR.numTracks]; omega) p t ht r
    (P := fun q n0 n1 => ∃ pose, poseDbContext m' memory q perTrack r = some pose ∧ C49.Reads x.c pose writer perTrack r n0 n1) (by
      intro k0 k1 al hk
      obtain ⟨pose, n0, n1, hctx, hnear, hre⟩ := hs k0 k1 hk al perTrack r
      obtain ⟨sc, po, q1, q2, q3, q4⟩ := hR.seek
      unfold seekDbContext at hctx
      rw [q1, Option.bind_some, q2, Option.bind_some, q3, Option.bind_some, Option.bind_eq_some_iff] at hctx
      obtain ⟨md, hmd, hctx⟩ := hctx
      rw [Option.bind_eq_some_iff] at hctx
      obtain ⟨⟨f0, f1, b⟩, hsk, hop⟩ := hctx
      rw [Option.map_eq_some_iff] at hop
      obtain ⟨y, hy, he⟩ := hop
      rw [Prod.mk.injEq] at he
      obtain ⟨rfl, he⟩ := he
      dsimp only at hy he
      refine ⟨_, f0, f1, b, n0, n1, ?_, hsk, ⟨y, ?_, hre writer hp⟩, hnear, by rw [he, if_pos rfl]⟩
      · rw [q4] at hmd ⊢
        unfold seekClip
        rw [hdb, hR.database]
        dsimp only at hmd
        simp [hw.headers, hmd]
      · unfold poseDbContext
        simp only [Option.bind_some]
        rw [hw.medium, hw.low]
        exact hy)
  exact ⟨xx, x', q, pose, n0, n1, a1, a2, a3, a4, a5, a6⟩

/-- The first and the last frame of a clip stay in it. -/
theorem boundary_ends {c : ClipSource} (h : ClipOk c) :
    C43.IsBoundary (c.segments.map (·.numSamples)) 0 ∧ C43.IsBoundary (c.segments.map (·.numSamples)) (c.numSamples - 1) := by
  have hp := Transform.segments_pos h
  constructor
  · obtain ⟨t, ht⟩ : ∃ t, c.segments[0]? = some t := ⟨_, List.getElem?_eq_getElem hp⟩
    exact ⟨0, t.numSamples, by rw [List.getElem?_map, ht]; rfl, (h.segments 0 t ht).nonempty, Or.inl (by simp [C43.start])⟩
  · obtain ⟨t, ht⟩ : ∃ t, c.segments[c.segments.length - 1]? = some t := ⟨_, List.getElem?_eq_getElem (by omega)⟩
    have hne := (h.segments _ t ht).nonempty
    refine ⟨_, t.numSamples, by rw [List.getElem?_map, ht]; rfl, hne, Or.inr ?_⟩
    have h2 := C49.sum_take_succ (c.segments.map (·.numSamples)) (c.segments.length - 1) t.numSamples (by rw [List.getElem?_map, ht]; rfl)
    rw [show c.segments.length - 1 + 1 = c.segments.length by omega, List.take_of_length_le (by rw [List.length_map])] at h2
    unfold C43.start ClipSource.numSamples
    omega

/-- **Sampling a clip of a database at a time.** build_database is given clips, split_database_bulk_data gives the database without its
bulk data, a database context is initialized with it and streamers which have the two bulk data. After any history of stream_in,
stream_out, complete and cancel, and of writes of the streamers in their memory (which keep their promises), a decompression context
can be initialized with any of the clips and the database context, and for every looping policy, time and rounding policy it blends
the nearest frames that are in the clip or in a chunk that is in. -/
theorem C57_split {E : Type} [LinearOrder E] [OrderTop E] [Zero E] (value : BitVec 32 → E) (sort : List (Frame E) → List (Frame E)) (hsort : ∀ l, SortedFrames l (sort l))
    (metrics : Nat → List (SegmentMetric E)) (xs : List Input) (hne : xs ≠ []) (hx : ∀ (k : Nat) x, xs[k]? = some x → InputOk value (metrics k) x)
    (max wantLow wantMedium : Nat) (hfit : Fits xs max) (hmod : max % 4096 = 0) (hheaders : headersSize xs < 2 ^ 32) :
    ∃ outs content, buildContent value sort wantLow wantMedium max (xs.map (·.m)) = some (outs, content) ∧ outs.length = xs.length ∧
      ((∀ m' ∈ outs, m'.length < 2 ^ 32) → databaseSize content < 2 ^ 32 →
        ∃ db place db' medium low, buildDatabase value sort wantLow wantMedium max (xs.map (·.m)) = some (some (outs, db)) ∧
          Placement xs wantLow wantMedium db place ∧ DbBuffer.split db = some (some (db', medium, low)) ∧
          (∃ D, databaseOf db' = some D ∧ D.isValid = true) ∧
          ∀ (streamerOf : Tier → Nat) (requests : Nat → List Request), FreshRequests requests → ∀ (memory : Nat → List (BitVec 8)) (checks : Bool),
          ∃ s0, dbInit db' streamerOf requests memory = some s0 ∧ ∀ (ops : List DbOp), (∀ op ∈ calls ops, OpOk op) →
            Honors checks db' (fun t => if t = 0 then medium else low) (cfgOf db' streamerOf) s0 Ledger.empty ops →
            ∀ s, dbRun checks db' (cfgOf db' streamerOf) s0 ops = some s →
            ∃ state ds, Run (cfgOf db' streamerOf) AState.empty (calls ops) state ds ∧ C24.Observes (cfgOf db' streamerOf) s.book state ∧
              ∀ (k : Nat) x m', xs[k]? = some x → outs[k]? = some m' →
              (0 < ofBits x.f.sampleRate ∧ ofBits x.f.sampleRate < pow2 128) → x.c.numSamples ≤ 2 ^ 23 - 4 →
              ∀ (supported : Nat → Bool), supported 10 = true → (tracksOf supported m').isSome = true ∧
                ∀ (cs : Context.Settings), cs.clampTimes = true → cs.databases = true → ∀ (pointed : Nat → List (BitVec 8)) (w : World) (a d : Nat),
                InMemory supported m' db' s.headers (bulkData s 0) (bulkData s 1) pointed w a d →
                SampledAt cs x.c x.f m' pointed w a d (Available place (usable state) k)) := by
  obtain ⟨outs, content, h1, h1', h2⟩ := C52.round_trip_all value sort hsort metrics xs hne hx max wantLow wantMedium hfit hmod hheaders
  refine ⟨outs, content, h1, h1', fun hout hsize => ?_⟩
  obtain ⟨db, place, g1, -, -, g4, g5, -, -, -, -, ⟨db', medium, low, e1, e2, e3, -, e5, e6⟩, -⟩ := h2 hout hsize
  refine ⟨db, place, db', medium, low, g1, g4, e1, e5, fun streamerOf requests hf memory checks => ?_⟩
  have hpl : ∀ k n t i, place k n = some (t, i) → t < 2 := fun k n t i h => (g4.chunk k n t i h).1
  obtain ⟨s0, k1, -⟩ := C54.C54_total e2 e3 streamerOf requests hf memory
  refine ⟨s0, k1, fun ops hops hh s hs => ?_⟩
  obtain ⟨state, ds, events, l1, l2, -, l3, l4, l5⟩ := C54.run_samples e2 e3 hpl streamerOf requests hf memory checks ops hops s0 s k1 hh hs
  refine ⟨state, ds, l3, l4, fun k x m' hxk hmk hr hn supported hv => ?_⟩
  obtain ⟨t, t1, t2⟩ := g5 supported k x m' hxk hmk
  refine ⟨by rw [t1]; rfl, fun cs hcl hdb pointed w a d hw => ?_⟩
  have ht := hw.tracks
  rw [t1, Option.some.injEq] at ht
  obtain ⟨b, b1, b2⟩ := hw.database
  have hc := (hx k x hxk).compressed.clip
  obtain ⟨hb0, hbl⟩ := boundary_ends hc
  refine sampled_at hc hw (ht ▸ t2) (e6 events l1 s.headers l2 m' (List.mem_of_getElem? hmk) supported _ w d b hw.tracks b1 hw.headers b2)
    (Or.inl (g4.boundary k x 0 hxk hb0)) (Or.inl (g4.boundary k x _ hxk hbl)) hr hn hv cs hcl hdb fun kf0 kf1 hk alpha perTrack r => ?_
  obtain ⟨ctx, n0, n1, q1, q2, q3, q4⟩ := l5 k x m' hxk hmk ℚ _ cs.wrapping kf0 kf1 hk alpha perTrack r
  exact ⟨ctx, n0, n1, q1, ⟨q2, q3⟩, q4⟩

/-- **With the bulk data inline.** A database context initialized with the database build_database gave has all the frames: the clips
are sampled as if all their frames were there. `(p0, p1)` is where the bulk data is in the database. -/
theorem C57_inline {E : Type} [LinearOrder E] [OrderTop E] [Zero E] (value : BitVec 32 → E) (sort : List (Frame E) → List (Frame E)) (hsort : ∀ l, SortedFrames l (sort l))
    (metrics : Nat → List (SegmentMetric E)) (xs : List Input) (hne : xs ≠ []) (hx : ∀ (k : Nat) x, xs[k]? = some x → InputOk value (metrics k) x)
    (max wantLow wantMedium : Nat) (hfit : Fits xs max) (hmod : max % 4096 = 0) (hheaders : headersSize xs < 2 ^ 32) :
    ∃ outs content, buildContent value sort wantLow wantMedium max (xs.map (·.m)) = some (outs, content) ∧ outs.length = xs.length ∧
      ((∀ m' ∈ outs, m'.length < 2 ^ 32) → databaseSize content < 2 ^ 32 →
        ∃ db events headers p0 p1, buildDatabase value sort wantLow wantMedium max (xs.map (·.m)) = some (some (outs, db)) ∧
          (∃ D, databaseOf db = some D ∧ D.isValid = true) ∧ inlineEvents db = some events ∧ streamed true db events = some headers ∧
          DbBuffer.getBulkData db .medium = some p0 ∧ DbBuffer.getBulkData db .lowest = some p1 ∧
          ∀ (k : Nat) x m', xs[k]? = some x → outs[k]? = some m' →
          (0 < ofBits x.f.sampleRate ∧ ofBits x.f.sampleRate < pow2 128) → x.c.numSamples ≤ 2 ^ 23 - 4 →
          ∀ (supported : Nat → Bool), supported 10 = true → (tracksOf supported m').isSome = true ∧
            ∀ (cs : Context.Settings), cs.clampTimes = true → cs.databases = true → ∀ (pointed : Nat → List (BitVec 8)) (w : World) (a d : Nat),
            InMemory supported m' db headers (p0.map db.drop) (p1.map db.drop) pointed w a d →
            SampledAt cs x.c x.f m' pointed w a d (fun _ => True)) := by
  obtain ⟨outs, content, h1, h1', h2⟩ := C52.round_trip_all value sort hsort metrics xs hne hx max wantLow wantMedium hfit hmod hheaders
  refine ⟨outs, content, h1, h1', fun hout hsize => ?_⟩
  obtain ⟨db, place, g1, -, -, g4, g5, -, -, ⟨-, -, e5, e6⟩, ⟨events, headers, p0, p1, i1, i2, i3, i4, i5, i6⟩, -⟩ := h2 hout hsize
  refine ⟨db, events, headers, p0, p1, g1, e5, i1, i3, i4, i5, fun k x m' hxk hmk hr hn supported hv => ?_⟩
  obtain ⟨t, t1, t2⟩ := g5 supported k x m' hxk hmk
  refine ⟨by rw [t1]; rfl, fun cs hcl hdb pointed w a d hw => ?_⟩
  have ht := hw.tracks
  rw [t1, Option.some.injEq] at ht
  obtain ⟨b, b1, b2⟩ := hw.database
  refine sampled_at (hx k x hxk).compressed.clip hw (ht ▸ t2)
    (e6 events i2 headers (streamed_release i3) m' (List.mem_of_getElem? hmk) supported _ w d b hw.tracks b1 hw.headers b2)
    trivial trivial hr hn hv cs hcl hdb fun kf0 kf1 hk alpha perTrack r => ?_
  obtain ⟨ctx, q1, q2⟩ := i6 k x m' hxk hmk ℚ _ cs.wrapping kf0 kf1 hk alpha perTrack r
  exact ⟨ctx, kf0, kf1, q1, ⟨⟨Nat.le_refl _, trivial, fun n h1 h2 => by omega⟩, ⟨Nat.le_refl _, trivial, fun n h1 h2 => by omega⟩⟩, q2⟩

/-- The blend is at the time, up to float rounding: as C50_accuracy, among the frames that are in memory. -/
theorem C57_accuracy {xs : List Input} {wantLow wantMedium : Nat} {db : List (BitVec 8)} {place : Place} (hp : Placement xs wantLow wantMedium db place)
    {k : Nat} {y : Input} (hy : xs[k]? = some y) (hc : ClipOk y.c) {loaded : Nat → Nat → Bool} {loops : Bool} {x rate time alpha : ℚ} {n0 n1 : Nat}
    (hb : Blend (Available place loaded k) y.c.numSamples loops .none x n0 n1 alpha) (hx : x = fmul time rate) (ht : 0 ≤ time * rate) (h01 : n0 < n1) :
    |(n0 + alpha * (n1 - n0)) - time * rate| ≤ (time * rate + (n1 - n0)) / 2 ^ 24 + (n1 - n0 + 1) * pow2 (-150) :=
  C50.blend_accuracy (Or.inl (hp.boundary k y _ hy (boundary_ends hc).2)) hb hx ht h01

/-! ### The hypotheses are met -/
section Example
open C52

/-- The clips of C52 (`exInput_ok`: what build_database asks of them): 6 frames at 30 Hz. -/
example : (0 < ofBits exInput.f.sampleRate ∧ ofBits exInput.f.sampleRate < pow2 128) ∧ exInput.c.numSamples ≤ 2 ^ 23 - 4 := by
  refine ⟨⟨by decide +kernel, by decide +kernel⟩, by decide⟩

/-- initialize, set_looping_policy and seek: the frames and the factor. -/
def exSeek (m db headers : List (BitVec 8)) (medium low : Option Nat) (p : Looping) (t : ℚ) (r : Interp.Rounding) : Option (Nat × Nat × ℚ) :=
  (tracksOf (fun v => v == 10) m).bind fun tr => (databaseOf db).bind fun D =>
  let cs : Context.Settings := ⟨false, true, true, true⟩
  let w : World := ⟨fun _ => tr, fun _ => D, fun _ => ⟨some 0, D.hash, medium, low, headers⟩⟩
  (initCtx transformKind cs w {} 0 (some 0)).bind fun i => if !i.2 then none else
  (setLoopingPolicy cs w i.1 p).bind fun x => (Context.seek transformKind cs w x t r).bind fun x => x.seen.map fun q =>
  (q.frame0.clipIndex, q.frame1.clipIndex, q.alpha)

/-- The database of C52, split. Its first clip is sampled at 0.05 s, which is half way between frames 1 and 2: frame 1 is in the low
tier. Nothing is streamed in; then both tiers are; then the time is 11/60 s in a looping clip, between the last frame and the first. -/
example : ((buildDatabase exValue exSort 1 1 4096 [exInput.m, exInput.m]).bind fun r => r.bind fun (outs, db) =>
    (DbBuffer.split db).bind fun x => x.bind fun (db', medium, low) =>
    (dbInit db' (fun _ => 0) C24.exReq (fun _ => [])).bind fun s0 =>
    let run := fun (ops : List Streaming.Op) (p : Looping) (t : ℚ) =>
      (dbRun true db' (cfgOf db' fun _ => 0) s0 (.write 0 medium :: .write 1 low :: ops.map .call)).bind fun s =>
      (outs[0]?).bind fun m => exSeek m db' s.headers ((bulkData s 0).map fun _ => 0) ((bulkData s 1).map fun _ => 1) p t .none
    (run [] .clamp (rnd (1 / 20))).bind fun a =>
    (run [.streamIn .medium 1, .complete 0 0, .streamIn .lowest 5, .complete 0 (2 ^ 32 + 1)] .clamp (rnd (1 / 20))).bind fun b =>
    (run [] .wrap (rnd (11 / 60))).map fun c => [a, b, c]) = some [(0, 2, 3 / 4), (1, 2, 1 / 2), (5, 0, 1 / 2)] := by
  decide +kernel

end Example

end Acl.C57
