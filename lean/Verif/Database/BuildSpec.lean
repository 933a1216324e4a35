import Verif.Database.BuildLemmas
import Verif.Database.RewriteApi
import Verif.Database.Concurrent
import Verif.Props.C49
/-
Specification of C52: what it means that a database and its clips decode as the clips they were built from, for every history of
chunks streamed in and out.
-/
namespace Acl.DbBuild
open Acl.Chunks Acl.Runtime Acl.Transform Acl.C43 Acl.Seek.Spec

/-- `memory`, the bulk data of tier `t` in memory, has the bytes of chunk `i`; `bulk` is the bulk data of the tier. -/
def HasChunk (db bulk : List (BitVec 8)) (t i : Nat) (memory : List (BitVec 8)) : Prop :=
  ∃ n e, DbBuffer.getNumChunks db (tierOf t) = some n ∧ i < n.toNat ∧ DbBuffer.getChunkDescription db (tierOf t) i = some e ∧
    ∀ q, e.2.toNat ≤ q → q < e.2.toNat + e.1.toNat → memory[q]? = bulk[q]?

/-- A history of the chunks of a database: when the context registers a chunk (it has been streamed in) or unregisters it (it is
streamed out), the memory of its tier has its bytes (the rest of that memory can be anything). -/
def Legal (db : List (BitVec 8)) (bulk : Nat → List (BitVec 8)) (events : List Runtime.Event) : Prop :=
  ∀ e ∈ events, e.tier < 2 ∧ HasChunk db (bulk e.tier) e.tier e.chunk e.memory

/-- The chunks of a database: chunk `i` of a tier starts at `i` times the size of a chunk, has that size unless it is the last
one of its tier, and is in the bulk data of the tier. -/
def Chunked (db : List (BitVec 8)) (bulk : Nat → List (BitVec 8)) : Prop :=
  ∃ max, DbBuffer.getMaxChunkSize db = some max ∧ ∀ t, t < 2 → (bulk t).length < 2 ^ 32 ∧
    ∃ n, DbBuffer.getNumChunks db (tierOf t) = some n ∧ (2 ≤ n.toNat → 4096 ≤ max.toNat) ∧ ∀ i, i < n.toNat →
      ∃ e, DbBuffer.getChunkDescription db (tierOf t) i = some e ∧ e.2.toNat = i * max.toNat ∧ (i + 1 < n.toNat → e.1.toNat = max.toNat) ∧
        0 < e.1.toNat ∧ e.2.toNat + e.1.toNat ≤ (bulk t).length

/-- The chunks that are in after a history of a context that starts with none. -/
abbrev loadedBy (events : List Runtime.Event) : Nat → Nat → Bool := loadedAfter events fun _ _ => false

/-- The bulk data of tier `t` the context has: all its chunks that are in are there. -/
def Resident (db bulk : List (BitVec 8)) (loaded : Nat → Nat → Bool) (t : Nat) (memory : Option (List (BitVec 8))) : Prop :=
  ∀ i, loaded t i = true → ∃ mem, memory = some mem ∧ bulk.length ≤ mem.length ∧ HasChunk db bulk t i mem

/-- The bulk data of tier `t` that is in the database. -/
def bulkOf (db : List (BitVec 8)) (t : Nat) : List (BitVec 8) :=
  ((DbBuffer.getBulkData db (tierOf t)).bind fun p => (DbBuffer.getBulkDataSize db (tierOf t)).bind fun n => DbBuffer.copyOut db p n.toNat).getD []

/-- The size of a database: its headers, a description of 8 bytes for each chunk and clip, and the bulk data; both tiers start
on 16 bytes. -/
def databaseSize (c : DbBuffer.Content) : Nat :=
  (64 + 8 * c.medium.length + 8 * c.low.length + 8 * c.clips.length + 15) / 16 * 16 + (c.bulkMedium.length + 15) / 16 * 16 + c.bulkLow.length

/-- The size of the runtime headers a context allocates for these clips. -/
def headersSize (xs : List Input) : Nat := (xs.map fun x => 8 + 16 * x.c.segments.length).sum

/-- The frames a segment can give to a tier fit in a chunk: the first and the last sample of a segment never move. The size of
a chunk is at least 4 kB. Asserted by the code (compress.database.impl.h:928, 1014). -/
structure Fits (xs : List Input) (max : Nat) : Prop where
  min : 4096 ≤ max
  segment : ∀ x ∈ xs, ∀ (g : Nat) t, x.c.segments[g]? = some t → ((t.numSamples - 2) * frameWidth x.c.bones g + 7) / 8 + 35 ≤ max

/-- Where key frames went: key frame `n` of clip `k` stayed in the clip (`none`) or went to a chunk of a tier of the database
(0 medium, 1 low). -/
abbrev Place := Nat → Nat → Option (Nat × Nat)

/-- A decoder can use key frame `n` of clip `k`: it is in the clip or in a chunk which is in. -/
def Available (place : Place) (loaded : Nat → Nat → Bool) (k n : Nat) : Prop :=
  place k n = none ∨ ∃ t i, place k n = some (t, i) ∧ loaded t i = true

/-- How many key frames went to tier `t`. -/
def movedTo (xs : List Input) (place : Place) (t : Nat) : Nat :=
  ((List.range xs.length).map fun k => ((List.range ((xs[k]?).map Input.sizes |>.getD []).sum).filter fun n => ((place k n).map (·.1)) == some t).length).sum

/-- How many key frames may go: those which are not the first or the last one of a segment. -/
def movable (xs : List Input) : Nat := (xs.map fun x => (x.sizes.map fun n => n - 2).sum).sum

/-- What the proportions of the settings ask for. -/
structure Placement (xs : List Input) (wantLow wantMedium : Nat) (db : List (BitVec 8)) (place : Place) : Prop where
  /-- the first and the last key frame of a segment stay in the clip -/
  boundary : ∀ (k : Nat) x n, xs[k]? = some x → IsBoundary x.sizes n → place k n = none
  chunk : ∀ k n t i, place k n = some (t, i) → t < 2 ∧ ∃ num, DbBuffer.getNumChunks db (tierOf t) = some num ∧ i < num.toNat
  low : movedTo xs place 1 = min (movable xs) wantLow
  medium : movedTo xs place 0 = min (movable xs - movedTo xs place 1) wantMedium

/-- `n` is the last key frame not after `kf` that can be used. -/
def NearestBefore (place : Place) (loaded : Nat → Nat → Bool) (k kf n : Nat) : Prop :=
  n ≤ kf ∧ Available place loaded k n ∧ ∀ j, n < j → j ≤ kf → ¬ Available place loaded k j

/-- `n` is the first key frame not before `kf` that can be used. -/
def NearestAfter (place : Place) (loaded : Nat → Nat → Bool) (k kf n : Nat) : Prop :=
  kf ≤ n ∧ Available place loaded k n ∧ ∀ j, kf ≤ j → j < n → ¬ Available place loaded k j

/-- The clips `outs` bound to a context of `db` decode as the clips `xs`: after any history, at any time, every track reads the
nearest two key frames that are in memory, and what is read of them is what was in the clip given to build_database.
No assert of the code fails when chunks are registered only when they are not, and unregistered only when they are.
`(kf0, kf1)` are the key frames around the time, `alpha` the interpolation alpha, remapped when other key frames are used. -/
def Decodes (xs : List Input) (outs : List (List (BitVec 8))) (db : List (BitVec 8)) (bulk : Nat → List (BitVec 8)) (place : Place) : Prop :=
  ∀ events, Legal db bulk events → ∃ headers, streamed false db events = some headers ∧
    (Alternates events (fun _ _ => false) → streamed true db events = some headers) ∧
    ∀ (k : Nat) x m', xs[k]? = some x → outs[k]? = some m' →
    ∀ medium low, Resident db (bulk 0) (loadedBy events) 0 medium → Resident db (bulk 1) (loadedBy events) 1 low →
    ∀ (α : Type) (remapAlpha : α → Nat → Nat → Nat → α) (wrapping : Bool) (kf0 kf1 : Nat), KeyFramePair wrapping x.c.numSamples kf0 kf1 →
    ∀ (alpha : α) (perTrack : Bool) (rounding : Transform.Rounding),
    ∃ ctx n0 n1, seekDbContext remapAlpha m' headers medium low wrapping kf0 kf1 alpha perTrack rounding = some (ctx, remapAlpha alpha kf0 n0 n1) ∧
      NearestBefore place (loadedBy events) k kf0 n0 ∧ NearestAfter place (loadedBy events) k kf1 n1 ∧
      ∀ w : Writer, (perTrack = true → ∀ t, t < x.c.bones.length → w.rounding rounding t ≠ .perTrack) →
        C49.Reads x.c ctx w perTrack rounding n0 n1

/-- What a decoder may see of the runtime headers while chunks are registered by another thread: the chunks of `before` are
registered, nothing else than the chunks of `after` is, and one of them may be half registered. -/
def Moment (db : List (BitVec 8)) (bulk : Nat → List (BitVec 8)) (before after : Nat → Nat → Bool) (headers : List (BitVec 8)) : Prop :=
  ∃ events h, Legal db bulk events ∧ streamed false db events = some h ∧ (∀ t i, t < 2 → before t i = true → loadedBy events t i = true) ∧
    (∀ t i, loadedBy events t i = true → after t i = true) ∧
    (headers = h ∨ ∃ e, e.add = true ∧ Legal db bulk [e] ∧ after e.tier e.chunk = true ∧ headers ∈ chunkMoments db e h)

/-- `n` is a key frame not after `kf` that can be used in the end, and no key frame between them could be used in the beginning. -/
def NearBefore (place : Place) (before after : Nat → Nat → Bool) (k kf n : Nat) : Prop :=
  n ≤ kf ∧ Available place after k n ∧ ∀ j, n < j → j ≤ kf → ¬ Available place before k j

/-- `n` is a key frame not before `kf` that can be used in the end, and no key frame between them could be used in the beginning. -/
def NearAfter (place : Place) (before after : Nat → Nat → Bool) (k kf n : Nat) : Prop :=
  kf ≤ n ∧ Available place after k n ∧ ∀ j, kf ≤ j → j < n → ¬ Available place before k j

/-- `Decodes` while chunks are registered by another thread: every word of the metadata is loaded at its own moment. The key frames
used are usable in the end, and at least as near as those that were usable in the beginning. -/
def DecodesWhile (xs : List Input) (outs : List (List (BitVec 8))) (db : List (BitVec 8)) (bulk : Nat → List (BitVec 8)) (place : Place) : Prop :=
  ∀ (before after : Nat → Nat → Bool) (k : Nat) x m', xs[k]? = some x → outs[k]? = some m' →
  ∀ headersAt : Nat → Nat → Nat → List (BitVec 8),
    (∀ v s t, v < 2 → s < x.c.segments.length → t < 2 → Moment db bulk before after (headersAt v s t)) →
  ∀ (α : Type) (remapAlpha : α → Nat → Nat → Nat → α) (wrapping : Bool) (kf0 kf1 : Nat), KeyFramePair wrapping x.c.numSamples kf0 kf1 →
  ∀ alpha : α, ∃ n0 n1, NearBefore place before after k kf0 n0 ∧ NearAfter place before after k kf1 n1 ∧
    ∀ (perTrack : Bool) (rounding : Transform.Rounding) medium low, Resident db (bulk 0) after 0 medium → Resident db (bulk 1) after 1 low →
    ∃ ctx, seekWhile remapAlpha m' headersAt medium low wrapping kf0 kf1 alpha perTrack rounding = some (ctx, remapAlpha alpha kf0 n0 n1) ∧
      ∀ w : Writer, (perTrack = true → ∀ t, t < x.c.bones.length → w.rounding rounding t ≠ .perTrack) →
        C49.Reads x.c ctx w perTrack rounding n0 n1

/-- The accessors of the clips build_database gives back: those of the clips given, see `SameApi`; a clip says it has stripped key
frames exactly when one of its key frames went to the database. -/
def SameAccessors (xs : List Input) (outs : List (List (BitVec 8))) (place : Place) : Prop :=
  ∀ (k : Nat) x m', xs[k]? = some x → outs[k]? = some m' →
    ∃ stripped, Rewrite.SameApi x.m m' stripped ∧ (stripped = true ↔ ∃ n, n < x.c.numSamples ∧ place k n ≠ none)

/-- Every chunk of the database is in. -/
def AllLoaded (db : List (BitVec 8)) (loaded : Nat → Nat → Bool) : Prop :=
  ∀ t, t < 2 → ∀ n, DbBuffer.getNumChunks db (tierOf t) = some n → ∀ i, i < n.toNat → loaded t i = true

/-- The seek of a decoder on clip `k` of a database ends on the key frames `kf0` and `kf1` themselves: nothing is lost. -/
def Exact (xs : List Input) (outs : List (List (BitVec 8))) (headers : List (BitVec 8)) (medium low : Option (List (BitVec 8))) : Prop :=
  ∀ (k : Nat) x m', xs[k]? = some x → outs[k]? = some m' →
  ∀ (α : Type) (remapAlpha : α → Nat → Nat → Nat → α) (wrapping : Bool) (kf0 kf1 : Nat), KeyFramePair wrapping x.c.numSamples kf0 kf1 →
  ∀ (alpha : α) (perTrack : Bool) (rounding : Transform.Rounding),
  ∃ ctx, seekDbContext remapAlpha m' headers medium low wrapping kf0 kf1 alpha perTrack rounding = some (ctx, remapAlpha alpha kf0 kf0 kf1) ∧
    ∀ w : Writer, (perTrack = true → ∀ t, t < x.c.bones.length → w.rounding rounding t ≠ .perTrack) →
      C49.Reads x.c ctx w perTrack rounding kf0 kf1

end Acl.DbBuild
