import Verif.Core.Bitset
import Verif.Transform.SubTracks
import Verif.Transform.BitRateSearch
/-
The cache of sampled sub-tracks that the search for bit rates goes through.
/repo/includes/acl/compression/impl/track_bit_rate_database.h

A sample is a value of a type `V` (quatf or vector4f, 16 bytes); the memory of the samples is an array of them, 4 per 64 bytes. The
functions that sample the streams (sample_streams.h) are parameters (`Streams`). Memory accesses out of bounds are `none`. Offsets are
`Nat`: faithful while the memory of the cache is below 2^32 bytes (the code has no check). Generation ids are uint32_t and wrap.
-/
namespace Acl.RateCache
open Acl.Transform Acl.Search

/-- track_bit_rate_database.h:348-391: what the constructor decides -/
structure Config where
  numTransforms : Nat
  /-- the number of samples that memory is reserved for, of every cached sub-track -/
  numSamples : Nat
  hasScale : Bool
  /-- by format: m_is_rotation_variable, m_is_translation_variable, m_is_scale_variable -/
  isVariable : Kind → Bool

/-- track_bit_rate_database.h:358-360, m_num_entries_per_transform -/
def Config.entriesPerTransform (c : Config) : Nat := (if c.hasScale then 3 else 2) * 4

/-- track_bit_rate_database.h:363, m_num_cached_tracks -/
def Config.numCached (c : Config) : Nat := c.numTransforms * c.entriesPerTransform

/-- track_bit_rate_database.h:365: words of a validity bit set -/
def Config.bitsetSize (c : Config) : Nat := Acl.bitsetSize c.numSamples

/-- track_bit_rate_database.h:384, m_track_size, in samples of 16 bytes: aligned to 64 bytes -/
def Config.trackSize (c : Config) : Nat := (c.numSamples + 3) / 4 * 4

/-- track_bit_rate_database.h:208-225 transform_cache_entry: one of its three kinds of sub-tracks. 160-171: 0xFF if unused -/
structure Slots where
  rates : List Nat
  generations : List (BitVec 32)
  deriving DecidableEq, Repr

def Slots.empty : Slots := ⟨[255, 255, 255, 255], [0, 0, 0, 0]⟩

structure State (V : Type) where
  /-- m_transforms -/
  transforms : List (Kind → Slots)
  /-- m_generation_id -/
  generation : BitVec 32
  /-- m_track_entry_bitsets -/
  bits : List (BitVec 32)
  /-- m_data -/
  data : List V

/-- The streams of a segment, and what sample_streams.h computes from them -/
structure Streams (V T : Type) where
  isDefault : Nat → Kind → Bool
  isConstant : Nat → Kind → Bool
  default : Nat → Kind → V
  /-- of the first raw sample -/
  constant : Nat → Kind → V
  /-- at a bit rate: key frame, bit rate -/
  sampleAt : Nat → Kind → Nat → Nat → V
  /-- with a format that is not variable: key frame -/
  sampleFull : Nat → Kind → Nat → V
  /-- sample_streams.h:556-601 get_uniform_sample_key -/
  key : T → Nat
  /-- parent_bone_index -/
  parents : List Nat

def rateOf (r : Rates) : Kind → Nat
  | .rotation => r.rotation
  | .translation => r.translation
  | .scale => r.scale

def kindIndex : Kind → Nat
  | .rotation => 0
  | .translation => 1
  | .scale => 2

/-- track_bit_rate_database.h:336-345 find_bit_rate_index -/
def findBitRate (rates : List Nat) (rate : Nat) : Nat → Nat → Option Nat
  | _, 0 => none
  | i, n + 1 => if rates[i]? = some rate then some i else findBitRate rates rate (i + 1) n

/-- track_bit_rate_database.h:478-487: the loop, from slot `i` -/
def oldestFrom (generations : List (BitVec 32)) : Nat → Nat → BitVec 32 → Nat → Nat
  | _, 0, _, index => index
  | i, n + 1, oldest, index =>
    if generations.getD i 0 < oldest then oldestFrom generations (i + 1) n (generations.getD i 0) i
    else oldestFrom generations (i + 1) n oldest index

/-- track_bit_rate_database.h:478-487 -/
def oldestSlot (generations : List (BitVec 32)) : Nat := oldestFrom generations 1 3 (generations.getD 0 0) 0

/-- Assignment of the slots of a sub-track -/
def setSlots {V : Type} (st : State V) (track : Nat) (kind : Kind) (s : Slots) : State V :=
  { st with transforms := st.transforms.modify track fun f => fun k => if k = kind then s else f k }

/-- track_bit_rate_database.h:452-456, 495-496: the validity bit set of a cached sub-track is reset -/
def resetBits {V : Type} (c : Config) (st : State V) (index : Nat) : Option (State V) := do
  let bits ← bitsetResetFrom st.bits (c.bitsetSize * index) c.bitsetSize false
  pure { st with bits := bits }

/-- track_bit_rate_database.h:444-464: constant and default sub-tracks, or without a bit rate -/
def findSingle {V : Type} (c : Config) (st : State V) (track : Nat) (kind : Kind) (base : Nat) (s : Slots) : Option (State V × Nat) :=
  if s.generations.getD 0 0 = 0 then do
    let st ← resetBits c st base
    pure ({ setSlots st track kind { s with generations := s.generations.set 0 st.generation } with generation := st.generation + 1 }, base)
  else some (st, base)

/-- track_bit_rate_database.h:473-500: not found, the oldest one is replaced -/
def replaceOldest {V : Type} (c : Config) (st : State V) (track : Nat) (kind : Kind) (base rate : Nat) (s : Slots) : Option (State V × Nat) := do
  let slot := oldestSlot s.generations
  let st ← resetBits c { setSlots st track kind ⟨s.rates.set slot rate, s.generations.set slot st.generation⟩ with generation := st.generation + 1 }
    (base + slot)
  pure (st, base + slot)

/-- track_bit_rate_database.h:466-501 -/
def findRated {V : Type} (c : Config) (st : State V) (track : Nat) (kind : Kind) (base rate : Nat) (s : Slots) : Option (State V × Nat) :=
  match findBitRate s.rates rate 0 4 with
  | some slot => some (st, base + slot)
  | none => replaceOldest c st track kind base rate s

/-- track_bit_rate_database.h:432-435, 566: the first cached sub-track of a kind -/
def baseIndex (c : Config) (track : Nat) (kind : Kind) : Nat := track * c.entriesPerTransform + kindIndex kind * 4

/-- track_bit_rate_database.h:444-503 (rotations), 505-558 (translations), 566-620 (scales) -/
def findEntry {V : Type} (c : Config) (st : State V) (track : Nat) (kind : Kind) (rate : Nat) : Option (State V × Nat) := do
  let entry ← st.transforms[track]?
  if rate = 255 then findSingle c st track kind (baseIndex c track kind) (entry kind)
  else findRated c st track kind (baseIndex c track kind) rate (entry kind)

/-- track_bit_rate_database.h:561-562 -/
def findScale {V : Type} (c : Config) (st : State V) (track : Nat) (rate : Nat) : Option (State V × Nat) :=
  if c.hasScale then findEntry c st track .scale rate else some (st, 0xFFFFFFFF)

/-- The indices of a bone in a query: 80-85, 119-121, 147-152 -/
structure Indices where
  rotation : Nat
  translation : Nat
  scale : Nat
  deriving DecidableEq, Repr

def indexOf (x : Indices) : Kind → Nat
  | .rotation => x.rotation
  | .translation => x.translation
  | .scale => x.scale

/-- track_bit_rate_database.h:411-625 find_cache_entries -/
def findCacheEntries {V : Type} (c : Config) (st : State V) (track : Nat) (rates : Rates) : Option (State V × Indices) := do
  let (st, rotation) ← findEntry c st track .rotation rates.rotation
  let (st, translation) ← findEntry c st track .translation rates.translation
  let (st, scale) ← findScale c st track rates.scale
  pure (st, ⟨rotation, translation, scale⟩)

/-- track_bit_rate_database.h:641-655, 675-703: cached, or computed and cached -/
def cached {V : Type} (c : Config) (st : State V) (index key : Nat) (value : V) : Option (State V × V) := do
  let valid ← bitsetTest st.bits (32 * (c.bitsetSize * index) + key)
  if valid then
    let v ← st.data[c.trackSize * index + key]?
    pure (st, v)
  else if c.trackSize * index + key < st.data.length then
    let bits ← bitsetSet st.bits (32 * (c.bitsetSize * index) + key) true
    pure ({ st with data := st.data.set (c.trackSize * index + key) value, bits := bits }, value)
  else none

/-- track_bit_rate_database.h:627-704 sample_rotation, 706-775 sample_translation, 777-846 sample_scale -/
def sampleSub {V T : Type} (c : Config) (s : Streams V T) (st : State V) (kind : Kind) (track key rate index : Nat) : Option (State V × V) :=
  if s.isDefault track kind then some (st, s.default track kind)
  else if s.isConstant track kind then cached c st index 0 (s.constant track kind)
  else cached c st index key (if c.isVariable kind then s.sampleAt track kind key rate else s.sampleFull track kind key)

/-- A local transform: rtm::qvvf -/
structure Transform (V : Type) where
  rotation : V
  translation : V
  scale : V
  deriving DecidableEq, Repr

/-- track_bit_rate_database.h:863-867, 891-895, 922-926: the three sub-tracks of a bone -/
def sampleTrack {V T : Type} (c : Config) (s : Streams V T) (st : State V) (track key : Nat) (rates : Rates) (x : Indices) :
    Option (State V × Transform V) := do
  let (st, rotation) ← sampleSub c s st .rotation track key rates.rotation x.rotation
  let (st, translation) ← sampleSub c s st .translation track key rates.translation x.translation
  let (st, scale) ← sampleSub c s st .scale track key rates.scale x.scale
  pure (st, ⟨rotation, translation, scale⟩)

/-- The three kinds of queries: 93-124 single_track_query, 52-91 hierarchical_track_query, 126-158 every_track_query -/
inductive Which where
  | single (track : Nat)
  | chain (track : Nat)
  | every

/-- track_bit_rate_database.h:281-292, 883-897: the loops from a bone to its root, `fuel` bounds their length -/
def chainOf (parents : List Nat) : Nat → Nat → Option (List Nat)
  | 0, _ => none
  | fuel + 1, track => do
    let parent ← parents[track]?
    if parent = 0xFFFFFFFF then some [track]
    else
      let rest ← chainOf parents fuel parent
      pure (track :: rest)

/-- The bones of a query, in the order of the loops -/
def tracksOf {V T : Type} (c : Config) (s : Streams V T) : Which → Option (List Nat)
  | .single track => some [track]
  | .chain track => chainOf s.parents (s.parents.length + 1) track
  | .every => some (List.range c.numTransforms)

/-- A query that was built: m_indices, and the bit rates it was built with -/
structure Query where
  which : Which
  rates : Nat → Rates
  indices : Nat → Indices

/-- One bone of `build`: the indices of other bones do not change -/
def buildTrack {V : Type} (c : Config) (rates : Nat → Rates) (p : State V × (Nat → Indices)) (track : Nat) : Option (State V × (Nat → Indices)) := do
  let (st, x) ← findCacheEntries c p.1 track (rates track)
  pure (st, fun t => if t = track then x else p.2 t)

/-- track_bit_rate_database.h:270-293, 301-309, 320-334 build; `old` are the indices the query held -/
def build {V T : Type} (c : Config) (s : Streams V T) (st : State V) (which : Which) (rates : Nat → Rates) (old : Nat → Indices) :
    Option (State V × Query) := do
  let tracks ← tracksOf c s which
  let (st, indices) ← tracks.foldlM (buildTrack c rates) (st, old)
  pure (st, ⟨which, rates, indices⟩)

/-- One bone of `sample`; the output are the transforms of the bones, in the order they are written -/
def sampleOne {V T : Type} (c : Config) (s : Streams V T) (q : Query) (key : Nat) (p : State V × List (Nat × Transform V)) (track : Nat) :
    Option (State V × List (Nat × Transform V)) := do
  let (st, x) ← sampleTrack c s p.1 track key (q.rates track) (q.indices track)
  pure (st, p.2 ++ [(track, x)])

/-- track_bit_rate_database.h:848-870, 872-900, 902-930 sample -/
def sample {V T : Type} (c : Config) (s : Streams V T) (st : State V) (q : Query) (time : T) : Option (State V × List (Nat × Transform V)) := do
  let tracks ← tracksOf c s q.which
  tracks.foldlM (sampleOne c s q (s.key time)) (st, [])

/-- track_bit_rate_database.h:348-391: after construction. The memory is not initialized -/
def State.fresh {V : Type} (c : Config) (bits : List (BitVec 32)) (data : List V) : State V :=
  ⟨List.replicate c.numTransforms fun _ => Slots.empty, 1, bits, data⟩

/-- track_bit_rate_database.h:393-409 set_segment: the cache is reset -/
def setSegment {V : Type} (st : State V) : State V := { st with transforms := st.transforms.map fun _ _ => Slots.empty }

/-- What uses the cache: it may change to another segment, build a query, and sample the query that was built last
(quantize.transform.h:229, 715-726, 815-826, 1633-1671); what it does next can depend on all it was given. -/
inductive Client (V T A : Type) where
  | done (a : A)
  | segment (g : Nat) (next : Client V T A)
  | build (which : Which) (rates : Nat → Rates) (next : Client V T A)
  | sample (time : T) (next : List (Nat × Transform V) → Client V T A)

/-- The indices a query object holds before `build` -/
def oldIndices : Option Query → Nat → Indices
  | some q => q.indices
  | none => fun _ => ⟨0, 0, 0⟩

/-- A client run with the cache, from segment `g`. -/
def Client.run {V T A : Type} (c : Config) (segments : Nat → Streams V T) : Client V T A → Nat → State V → Option Query → Option A
  | .done a, _, _, _ => some a
  | .segment g next, _, st, _ => next.run c segments g (setSegment st) none
  | .build which rates next, g, st, q =>
    match RateCache.build c (segments g) st which rates (oldIndices q) with
    | some (st, q) => next.run c segments g st (some q)
    | none => none
  | .sample time next, g, st, some q =>
    match RateCache.sample c (segments g) st q time with
    | some (st, out) => (next out).run c segments g st (some q)
    | none => none
  | .sample _ _, _, _, none => none

/-- quantize.transform.h:720-769, 819-868: the loop over the samples of a segment; `error` is the metric, given the sampled transforms -/
def scanSamples {V T A E : Type} [LinearOrder E] (time : Nat → T) (error : Nat → List (Nat × Transform V) → E) (threshold : E)
    (untilTooHigh : Bool) (next : E → Client V T A) : List Nat → E → Client V T A
  | [], m => next m
  | i :: rest, m => .sample (time i) fun out =>
    if untilTooHigh ∧ threshold ≤ error i out then next (max m (error i out))
    else scanSamples time error threshold untilTooHigh next rest (max m (error i out))

/-- quantize.transform.h:673-769 calculate_max_error_at_bit_rate_local (a single bone), 771-868 calculate_max_error_at_bit_rate_object
(a bone and its ancestors): then `next` is given the largest error -/
def measure {V T A E : Type} [LinearOrder E] (which : Which) (rates : Nat → Rates) (numSamples : Nat) (time : Nat → T)
    (error : Nat → List (Nat × Transform V) → E) (threshold : E) (untilTooHigh : Bool) (zero : E) (next : E → Client V T A) : Client V T A :=
  .build which rates (scanSamples time error threshold untilTooHigh next (List.range numSamples) zero)

end Acl.RateCache
