import Verif.Context.DbContext
/-
The chunks of a database tier in memory, and what streaming them in and out does to the runtime headers of the database
context.
/repo/includes/acl/compression/impl/compress.database.impl.h:967-1128 (the chunk headers)
/repo/includes/acl/decompression/database/impl/database.impl.h:149-207 (bulk data inline), 605-640 (stream out)
/repo/includes/acl/decompression/database/impl/database_streamer.impl.h:59-135 (stream in)
/repo/includes/acl/core/impl/compressed_headers.h:398-522 (the layouts)

The bulk data of a tier in the model of Chunks.lean has the headers of the chunks as records beside the bytes of the samples;
here they are put in the bytes. The code writes them as it goes over the segments (compress.database.impl.h:1016-1121); the
final bytes are the same because a byte belongs to one header or to one sample only (`bulk_is` in RuntimeLemmas.lean shows that the samples
are not overwritten).
-/
namespace Acl.Runtime
open Acl.Chunks Acl.Context

/-- compressed_headers.h:447-468: the five words of a segment header of a chunk -/
def segWords (h : SegHeader) : List (BitVec 32) :=
  [h.clipHash, h.sampleIndices.headD 0, BitVec.ofNat 32 h.samplesOffset, BitVec.ofNat 32 h.clipHeaderOffset, BitVec.ofNat 32 h.segmentHeaderOffset]

/-- compressed_headers.h:477-501: the header of a chunk and those of its segments -/
def chunkWords (ch : Chunk) : List (BitVec 32) :=
  [BitVec.ofNat 32 ch.index, BitVec.ofNat 32 ch.size, BitVec.ofNat 32 ch.segs.length] ++ ch.segs.flatMap segWords

/-- compress.database.impl.h:1016-1121: all the headers -/
def storeHeaders : List Chunk → Bytes → Option Bytes
  | [], m => some m
  | ch :: rest, m => do
    let m ← store m ch.offset ((chunkWords ch).flatMap bytesLE)
    storeHeaders rest m

/-- The bulk data of a tier as it is in the database, or in the file the streamer reads. -/
def bulkMemory (b : Bulk) : Option Bytes := storeHeaders b.chunks b.bytes

/-- The value of tier_metadata: `(uint64_t(samples_offset) << 32) | sample_indices` -/
def metadataOf (samplesOffset indices : BitVec 32) : BitVec 64 := samplesOffset ++ indices

/-- database_streamer.impl.h:108-111, 114, database.impl.h:179-185 (`add`) and 623-631: the asserts on the segment header of a
chunk: its clip is the one with this hash, and the metadata is not there yet, or is what the chunk says. -/
def segCheck (add : Bool) (tier : Nat) (hash clipOffset segmentOffset : BitVec 32) (metadata : BitVec 64) (headers : Bytes) : Option Bool := do
  let h ← load32 headers clipOffset.toNat
  let old ← load64 headers (segmentOffset.toNat + 8 * tier)
  some (h == hash && old == (if add then 0#64 else metadata))

/-- database_streamer.impl.h:103-119, database.impl.h:174-189 (`add`) and database.impl.h:618-633: the loop over the segment
headers of a chunk, from the one at `p` in the bulk data `mem` on. With `checks` the asserts are compiled in, and when one does
not hold there is no result. -/
def updateSegs (checks add : Bool) (tier : Nat) (mem : Bytes) : Nat → Nat → Bytes → Option Bytes
  | 0, _, headers => some headers
  | n + 1, p, headers => do
    let hash ← load32 mem p
    let indices ← load32 mem (p + 4)
    let samplesOffset ← load32 mem (p + 8)
    let clipOffset ← load32 mem (p + 12)
    let segmentOffset ← load32 mem (p + 16)
    let metadata := metadataOf samplesOffset indices
    if checks && segCheck add tier hash clipOffset segmentOffset metadata headers != some true then none
    else
      let headers ← store headers (segmentOffset.toNat + 8 * tier) (bytesLE (if add then metadata else 0#64))
      updateSegs checks add tier mem n (p + 20) headers

/-- database_streamer.impl.h:97-102, database.impl.h:167-173, 613-617: chunk number `index`, whose description has the
offset `offset` -/
def updateChunk (checks add : Bool) (tier : Nat) (mem : Bytes) (offset index : Nat) (headers : Bytes) : Option Bytes := do
  let i ← load32 mem offset
  if checks && i.toNat != index then none
  else
    let n ← load32 mem (offset + 8)
    updateSegs checks add tier mem n.toNat (offset + 12) headers

/-- A chunk is registered (streamed in) or unregistered (streamed out), with what is in the memory of its tier then. -/
structure Event where
  add : Bool
  tier : Nat
  chunk : Nat
  memory : Bytes

/-- The runtime headers after a history; `descs` are the chunk descriptions of the tiers. -/
def runEvents (checks : Bool) (descs : Nat → List ChunkDesc) : List Event → Bytes → Option Bytes
  | [], headers => some headers
  | e :: rest, headers => do
    let d ← (descs e.tier)[e.chunk]?
    let headers ← updateChunk checks e.add e.tier e.memory d.offset e.chunk headers
    runEvents checks descs rest headers

/-- The chunks of a tier that are registered after a history. -/
def loadedAfter : List Event → (Nat → Nat → Bool) → Nat → Nat → Bool
  | [], l => l
  | e :: rest, l => loadedAfter rest fun t i => if t = e.tier ∧ i = e.chunk then e.add else l t i

/-- A chunk is registered only when it is not, and unregistered only when it is: what the asserts of the code ask for. -/
def Alternates : List Event → (Nat → Nat → Bool) → Prop
  | [], _ => True
  | e :: rest, l => l e.tier e.chunk = !e.add ∧ Alternates rest fun t i => if t = e.tier ∧ i = e.chunk then e.add else l t i

/-- Without the asserts the result is the same. -/
theorem updateSegs_release {add : Bool} {tier : Nat} {mem : Bytes} : ∀ {n p : Nat} {headers headers' : Bytes},
    updateSegs true add tier mem n p headers = some headers' → updateSegs false add tier mem n p headers = some headers' := by
  intro n
  induction n with
  | zero => intro p headers headers' h; exact h
  | succ n ih =>
    intro p headers headers' h
    unfold updateSegs at h ⊢
    simp only [Option.bind_eq_bind, Option.bind_eq_some_iff] at h ⊢
    obtain ⟨a, h1, b, h2, c, h3, d, h4, e, h5, h6⟩ := h
    refine ⟨a, h1, b, h2, c, h3, d, h4, e, h5, ?_⟩
    rw [Bool.false_and, if_neg (by simp)]
    split at h6
    · simp at h6
    · simp only [Option.bind_eq_some_iff] at h6 ⊢
      obtain ⟨f, h7, h8⟩ := h6
      exact ⟨f, h7, ih h8⟩

theorem updateChunk_release {add : Bool} {tier offset index : Nat} {mem headers headers' : Bytes}
    (h : updateChunk true add tier mem offset index headers = some headers') : updateChunk false add tier mem offset index headers = some headers' := by
  unfold updateChunk at h ⊢
  simp only [Option.bind_eq_bind, Option.bind_eq_some_iff] at h ⊢
  obtain ⟨a, h1, h2⟩ := h
  refine ⟨a, h1, ?_⟩
  rw [Bool.false_and, if_neg (by simp)]
  split at h2
  · simp at h2
  · simp only [Option.bind_eq_some_iff] at h2 ⊢
    obtain ⟨b, h3, h4⟩ := h2
    exact ⟨b, h3, updateSegs_release h4⟩

theorem runEvents_release {descs : Nat → List ChunkDesc} : ∀ {events : List Event} {headers headers' : Bytes},
    runEvents true descs events headers = some headers' → runEvents false descs events headers = some headers' := by
  intro events
  induction events with
  | nil => intro headers headers' h; exact h
  | cons e rest ih =>
    intro headers headers' h
    unfold runEvents at h ⊢
    simp only [Option.bind_eq_bind, Option.bind_eq_some_iff] at h ⊢
    obtain ⟨a, h1, b, h2, h3⟩ := h
    exact ⟨a, h1, b, updateChunk_release h2, ih h3⟩

theorem runEvents_append {checks : Bool} {descs : Nat → List ChunkDesc} : ∀ (a b : List Event) (headers : Bytes),
    runEvents checks descs (a ++ b) headers = (runEvents checks descs a headers).bind (runEvents checks descs b) := by
  intro a
  induction a with
  | nil => intro b headers; rfl
  | cons e rest ih =>
    intro b headers
    have step : ∀ l, runEvents checks descs (e :: l) headers = (descs e.tier)[e.chunk]?.bind fun d =>
        (updateChunk checks e.add e.tier e.memory d.offset e.chunk headers).bind (runEvents checks descs l) := fun _ => rfl
    rw [List.cons_append, step, step, Option.bind_assoc]
    simp only [Option.bind_assoc, ih]

theorem loadedAfter_append : ∀ (a b : List Event) (l : Nat → Nat → Bool), loadedAfter (a ++ b) l = loadedAfter b (loadedAfter a l) := by
  intro a
  induction a with
  | nil => intro b l; rfl
  | cons e rest ih => intro b l; exact ih b _

theorem alternates_append : ∀ (a b : List Event) (l : Nat → Nat → Bool), Alternates (a ++ b) l ↔ Alternates a l ∧ Alternates b (loadedAfter a l) := by
  intro a
  induction a with
  | nil => intro b l; exact ⟨fun h => ⟨trivial, h⟩, fun h => h.2⟩
  | cons e rest ih =>
    intro b l
    rw [List.cons_append]
    show _ ∧ Alternates (rest ++ b) _ ↔ (_ ∧ Alternates rest _) ∧ _
    rw [ih, and_assoc]
    rfl

end Acl.Runtime
