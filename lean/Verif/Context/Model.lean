import Verif.Core.Interpolation
import Verif.Transform.Seek
import Verif.Layout.Bytes
/-
decompression_context as a state machine: initialize, relocated, reset, set_looping_policy, seek, is_bound_to.
/repo/includes/acl/decompression/impl/decompress.impl.h:40-290
/repo/includes/acl/decompression/impl/decompression.transform.h:84-565
/repo/includes/acl/decompression/impl/decompression.scalar.h:55-205
/repo/includes/acl/decompression/database/impl/database.impl.h:100-115, 150-160, 357-412

Pointers are numbers, and `World` says what is there: a function call sees the world as it is then. The persistent
universal context (decompression.universal.h) is not modelled. Asserts are not modelled; `none` is undefined behaviour.
-/
namespace Acl.Context
open Acl.Interp Acl.F32

abbrev Bytes := List (BitVec 8)

/-- What is read of a compressed_tracks instance. `isValid` is `is_valid(false).empty()`, `isVersionSupported` what the
version selector says of its version. -/
structure Tracks where
  hash : BitVec 32
  isValid : Bool
  isVersionSupported : Bool
  numTracks : Nat
  /-- num_samples, sample_rate, version, is_wrap_optimized -/
  clip : Interp.Clip
  /-- transform_tracks_header: segments and their start indices, and sample_indices of the stripped segment headers -/
  numSegments : Nat
  startIndices : List Nat
  hasStrippedKeyframes : Bool
  sampleIndices : List (BitVec 32)
  hasDatabase : Bool
  /-- tracks_database_header::clip_header_offset -/
  clipHeaderOffset : BitVec 32
  /-- scalar_tracks_header::num_bits_per_frame -/
  numBitsPerFrame : BitVec 32

/-- What is read of a compressed_database instance. -/
structure Database where
  hash : BitVec 32
  isValid : Bool
  isInline : Bool
  numClips : BitVec 32
  numSegments : BitVec 32

/-- database_context_v0: the database it is bound to, its hash, the bulk data pointers and the runtime headers
(clip_segment_headers). -/
structure DbContext where
  db : Option Nat
  hash : BitVec 32
  bulkMedium : Option Nat
  bulkLow : Option Nat
  headers : Bytes

/-- Memory, as seen by the decompression context. -/
structure World where
  tracks : Nat → Tracks
  databases : Nat → Database
  contexts : Nat → DbContext

/-- The parts of decompression_settings used here. -/
structure Settings where
  skipChecks : Bool
  wrapping : Bool
  clampTimes : Bool
  databases : Bool

/-- A persistent decompression context. `F` are the fields seek computes. A context that never was initialized has no
meaningful fields, the model uses defaults. -/
structure Ctx (F : Type) where
  tracks : Option Nat := none
  db : Option Nat := none
  tracksHash : BitVec 32 := 0
  dbHash : BitVec 32 := 0
  duration : FInf := .fin 0
  looping : Looping := .clamp
  rounding : Rounding := .none
  sampleTime : ℚ := 0
  seen : Option F := none

/-- What differs between transforms and scalars: which track lists are empty for seek, whether a database can be bound,
and what seek computes from the clamped time. -/
structure Kind (F : Type) where
  isEmpty : Tracks → Bool
  bindsDatabase : Bool
  compute : Settings → World → Tracks → Option Nat → Looping → ℚ → Rounding → Option F

/-- compressed_tracks.impl.h:136-143 get_looping_policy -/
def Tracks.loopingPolicy (t : Tracks) : Looping := resolveLooping t.clip .asCompressed

/-- database.impl.h:370-412 database_context::contains -/
def contains (w : World) (dbContext : Nat) (t : Tracks) : Option Bool :=
  let c := w.contexts dbContext
  match c.db with
  | none => some false
  | some d =>
    if !t.hasDatabase then some false
    else if t.clipHeaderOffset = 0xFFFFFFFF#32 then some false
    else
      let largestOffset := (w.databases d).numClips * 8#32 + (w.databases d).numSegments * 16#32 - 16#32
      if t.clipHeaderOffset > largestOffset then some false
      else do
        let hash ← load32 c.headers t.clipHeaderOffset.toNat
        pure (hash == t.hash)

variable {F : Type} (k : Kind F) (s : Settings)

/-- decompress.impl.h:69-85, 90-112 and 128-147, 150-170: the checks of initialize and relocated -/
def checks (w : World) (t : Tracks) : Option Nat → Option Bool
  | none => some ((s.skipChecks || t.isValid) && (s.skipChecks || t.isVersionSupported))
  | some d =>
    if s.skipChecks then some true
    else if !t.isValid then some false
    else if (w.contexts d).db.isNone then some false
    else if !t.isVersionSupported then some false
    else contains w d t

/-- decompression.transform.h:111, 141: `db != nullptr ? db->db_hash : 0` -/
def dbHashOf (w : World) : Option Nat → BitVec 32
  | some d => (w.contexts d).hash
  | none => 0

/-- decompression.transform.h:84-131, decompression.scalar.h:99-122: initialize_v0 -/
def bind (w : World) (c : Ctx F) (a : Nat) (db : Option Nat) : Ctx F × Bool :=
  let t := w.tracks a
  if !k.bindsDatabase && db.isSome then (c, false)
  else
    let p := if s.wrapping then t.loopingPolicy else .clamp
    ({ c with
        tracks := some a, db := db, tracksHash := t.hash, dbHash := dbHashOf w db,
        sampleTime := -1, looping := p, duration := t.clip.finiteDuration p }, true)

/-- decompress.impl.h:66-114 initialize -/
def initCtx (w : World) (c : Ctx F) (a : Nat) (db : Option Nat) : Option (Ctx F × Bool) := do
  if ← checks s w (w.tracks a) db then pure (bind k s w c a db) else pure (c, false)

/-- decompression.transform.h:133-157, decompression.scalar.h:124-141: relocated_v0 -/
def rebind (w : World) (c : Ctx F) (a : Nat) (db : Option Nat) : Ctx F × Bool :=
  if c.tracksHash ≠ (w.tracks a).hash then (c, false)
  else if !k.bindsDatabase then
    if db.isSome then (c, false) else ({ c with tracks := some a, sampleTime := -1 }, true)
  else if c.dbHash ≠ dbHashOf w db then (c, false)
  else ({ c with tracks := some a, db := db, sampleTime := -1 }, true)

/-- decompress.impl.h:122-172 relocated -/
def relocated (w : World) (c : Ctx F) (a : Nat) (db : Option Nat) : Option (Ctx F × Bool) := do
  if c.tracks.isNone then pure (c, false)
  else if ← checks s w (w.tracks a) db then pure (rebind k w c a db) else pure (c, false)

/-- decompress.impl.h:116-120 reset -/
def reset (c : Ctx F) : Ctx F := { c with tracks := none }

/-- decompression.transform.h:186-203, decompression.scalar.h:163-179: set_looping_policy_v0. On a context that is not
initialized (asserted) the code dereferences null when wrapping is supported. -/
def setLoopingPolicy (w : World) (c : Ctx F) (p : Looping) : Option (Ctx F) :=
  if !s.wrapping then some c
  else match c.tracks with
    | none => none
    | some a =>
      let p := if p = .asCompressed then (w.tracks a).loopingPolicy else p
      if c.looping ≠ p then some { c with looping := p, duration := (w.tracks a).clip.finiteDuration p } else some c

/-- decompress.impl.h:214-226 seek, decompression.transform.h:205-241, decompression.scalar.h:181-205 -/
def seek (w : World) (c : Ctx F) (time : ℚ) (r : Rounding) : Option (Ctx F) :=
  match c.tracks with
  | none => some c
  | some a =>
    if k.isEmpty (w.tracks a) then some c
    else
      let time := if s.clampTimes then clampTime time c.duration else time
      if c.sampleTime = time ∧ c.rounding = r then some c
      else do
        let f ← k.compute s w (w.tracks a) c.db (if s.wrapping then c.looping else .clamp) time r
        pure { c with sampleTime := time, rounding := r, seen := some f }

/-- decompression.transform.h:159-169, decompression.scalar.h:143-153 is_bound_to(compressed_tracks) -/
def isBoundTo (w : World) (c : Ctx F) (a : Nat) : Bool := c.tracks == some a && c.tracksHash == (w.tracks a).hash

/-- decompress.impl.h:183-190, decompression.transform.h:171-184, decompression.scalar.h:155-161
is_bound_to(compressed_database) -/
def isBoundToDatabase (w : World) (c : Ctx F) (d : Nat) : Bool :=
  if c.tracks.isNone then false
  else if !k.bindsDatabase then false
  else match c.db with
    | none => false
    | some x => (w.contexts x).db == some d && c.dbHash == (w.databases d).hash

/-- decompress.impl.h:193-205, get_looping_policy -/
def getLoopingPolicy (c : Ctx F) : Looping := c.looping

/-- What decompress_tracks and decompress_track go by (decompression.transform.h decompress_tracks_v0: nothing when the
track list is empty or the context was not seeked since it was bound; otherwise the tracks, what seek computed and the
rounding policy). -/
def observe (w : World) (c : Ctx F) : Option (Tracks × Option F × Rounding) :=
  match c.tracks with
  | none => none
  | some a =>
    if (w.tracks a).numTracks = 0 ∨ c.sampleTime < 0 then none else some (w.tracks a, c.seen, c.rounding)

/-! ### Scalar tracks -/

/-- decompression.scalar.h:197-204: the bit offsets of the two key frames (uint32_t) and the interpolation factor -/
def scalarKind : Kind (BitVec 32 × BitVec 32 × ℚ) where
  isEmpty t := t.clip.numSamples == 0
  bindsDatabase := false
  compute _ _ t _ looping time r := do
    let (k0, k1, alpha) ← samplesWithRate t.clip.numSamples t.clip.sampleRate time r looping
    pure (BitVec.ofNat 32 k0 * t.numBitsPerFrame, BitVec.ofNat 32 k1 * t.numBitsPerFrame, alpha)

/-! ### Transform tracks -/

/-- A little endian 64 bit word -/
def load64 (m : Bytes) (p : Nat) : Option (BitVec 64) := do
  let lo ← load32 m p
  let hi ← load32 m (p + 4)
  pure (hi ++ lo)

/-- decompression.transform.h:293-301: the metadata of the segments of a clip, from its runtime header on -/
def tierMetadata (m : Bytes) (clipHeader : Nat) : Nat → Option (List Seek.TierMetadata)
  | 0 => some []
  | n + 1 => do
    let rest ← tierMetadata m clipHeader n
    let medium ← load64 m (clipHeader + 8 + 16 * n)
    let low ← load64 m (clipHeader + 8 + 16 * n + 8)
    pure (rest ++ [⟨medium, low⟩])

/-- The clip seek_v0 sees: decompression.transform.h:256-266, 289-304 -/
def seekClip (w : World) (t : Tracks) (db : Option Nat) : Option Seek.Clip := do
  let stripped := (s.databases && t.hasDatabase) || t.hasStrippedKeyframes
  let md ← match (if s.databases && stripped then db else none) with
    | none => pure none
    | some d => (tierMetadata (w.contexts d).headers t.clipHeaderOffset.toNat t.numSegments).map some
  pure ⟨t.clip.numSamples, t.numSegments, t.startIndices, stripped, t.sampleIndices, md⟩

/-- What a transform context holds after a seek: the key frames (which determine the pointers to formats, ranges and
samples in the clip), the bulk data they point to when they are in the database, the interpolation factor. -/
structure TransformSeek where
  frame0 : Seek.KeyFrame
  frame1 : Seek.KeyFrame
  alpha : ℚ
  bulkMedium : Option Nat
  bulkLow : Option Nat

/-- decompression.transform.h:236-565 -/
def transformKind : Kind TransformSeek where
  isEmpty t := t.numTracks == 0
  bindsDatabase := true
  compute s w t db looping time r := do
    let (k0, k1, alpha) ← samplesWithRate t.clip.numSamples t.clip.sampleRate time r looping
    let c ← seekClip s w t db
    let (f0, f1, alpha) ← Seek.seekKeyFrames (fun alpha k c0 c1 => interpolationAlpha (fadd alpha (ofNat k)) c0 c1 .none)
      s.wrapping c k0 k1 alpha
    pure ⟨f0, f1, alpha, db.bind fun d => (w.contexts d).bulkMedium, db.bind fun d => (w.contexts d).bulkLow⟩

/-! ### Histories -/

/-- An operation on the context, or a change of the world (streaming, relocation, anything else). -/
inductive Op where
  | init (tracks : Nat) (db : Option Nat)
  | relocated (tracks : Nat) (db : Option Nat)
  | reset
  | setLoopingPolicy (p : Looping)
  | seek (time : ℚ) (r : Rounding)
  | world (w : World)

/-- One operation; the flag is what initialize and relocated return. -/
def step (st : World × Ctx F) : Op → Option ((World × Ctx F) × Bool)
  | .init a db => (initCtx k s st.1 st.2 a db).map fun r => ((st.1, r.1), r.2)
  | .relocated a db => (relocated k s st.1 st.2 a db).map fun r => ((st.1, r.1), r.2)
  | .reset => some ((st.1, reset st.2), true)
  | .setLoopingPolicy p => (setLoopingPolicy s st.1 st.2 p).map fun c => ((st.1, c), true)
  | .seek t r => (seek k s st.1 st.2 t r).map fun c => ((st.1, c), true)
  | .world w => some ((w, st.2), true)

/-- A history from a state. -/
def run : List Op → World × Ctx F → Option (World × Ctx F)
  | [], st => some st
  | op :: ops, st => do
    let r ← step k s st op
    run ops r.1

end Acl.Context
