import Verif.Context.Model
import Verif.Float.Bits
/-
The universal decompression context: a union of the scalar and the transform context, used when the settings support both
kinds of tracks.
/repo/includes/acl/decompression/impl/decompression.universal.h:54-283
/repo/includes/acl/decompression/impl/decompression_context_selector.h:40-64
/repo/includes/acl/decompression/impl/decompress.impl.h:54-290

Asserts are not modelled; `none` is undefined behaviour. Two functions of decompression.universal.h do not compile when they
are instantiated: set_looping_policy_v0 takes a const context that it changes (line 172), and is_bound_to for a database lacks
the suffix _v0 its caller uses (line 151). They are modelled as they are meant.
-/
namespace Acl.Context.Universal
open Acl.Interp

/-- What a scalar context holds after a seek. -/
abbrev ScalarSeek := BitVec 32 × BitVec 32 × ℚ

/-- decompression.universal.h:54-90, the union. `M` are its 128 bytes; a member can be read, and written. What is written to
a member is read back from it, and the pointer to the tracks comes first in both members. Nothing is said of what the other
fields of the other member are after a write. Simplified: a member holds any `Ctx`, floats are rationals. -/
structure Storage (M : Type) where
  scalar : M → Ctx ScalarSeek
  transform : M → Ctx TransformSeek
  writeScalar : M → Ctx ScalarSeek → M
  writeTransform : M → Ctx TransformSeek → M
  scalar_write : ∀ m c, scalar (writeScalar m c) = c
  transform_write : ∀ m c, transform (writeTransform m c) = c
  same_tracks : ∀ m, (transform m).tracks = (scalar m).tracks

inductive Family where
  | scalar
  | transform
  deriving DecidableEq

/-- The cases of every switch of decompression.universal.h, over the values of track_types.h:51-70. -/
def family (trackType : Nat) : Option Family :=
  if trackType = 0 ∨ trackType = 1 ∨ trackType = 2 ∨ trackType = 3 ∨ trackType = 4 then some .scalar
  else if trackType = 12 then some .transform
  else none

/-! `ty` is what get_track_type() says of compressed tracks. -/
variable {M : Type} (u : Storage M) (ty : Tracks → Nat) (s : Settings)

/-- decompression.universal.h:63, 79: scalar.tracks -/
def boundTracks (m : M) : Option Nat := (u.scalar m).tracks

/-- The bytes are written when initialize_v0 and relocated_v0 of the member succeed. -/
def storeScalar (m : M) (r : Ctx ScalarSeek × Bool) : M × Bool := (if r.2 then u.writeScalar m r.1 else m, r.2)
def storeTransform (m : M) (r : Ctx TransformSeek × Bool) : M × Bool := (if r.2 then u.writeTransform m r.1 else m, r.2)

/-- decompress.impl.h:66-114, decompression.universal.h:92-111 initialize -/
def init (w : World) (m : M) (a : Nat) (db : Option Nat) : Option (M × Bool) := do
  if ← checks s w (w.tracks a) db then
    match family (ty (w.tracks a)) with
    | some .scalar => pure (storeScalar u m (bind scalarKind s w (u.scalar m) a db))
    | some .transform => pure (storeTransform u m (bind transformKind s w (u.transform m) a db))
    | none => pure (m, false)
  else pure (m, false)

/-- decompress.impl.h:122-172, decompression.universal.h:113-132 relocated: the type is that of the new tracks -/
def relocated (w : World) (m : M) (a : Nat) (db : Option Nat) : Option (M × Bool) := do
  if (boundTracks u m).isNone then pure (m, false)
  else if ← checks s w (w.tracks a) db then
    match family (ty (w.tracks a)) with
    | some .scalar => pure (storeScalar u m (rebind scalarKind w (u.scalar m) a db))
    | some .transform => pure (storeTransform u m (rebind transformKind w (u.transform m) a db))
    | none => pure (m, false)
  else pure (m, false)

/-- decompression.universal.h:85-89 reset: only the pointer to the tracks is written -/
def reset (m : M) : M := u.writeScalar m { u.scalar m with tracks := none }

/-- decompression.universal.h:171-192 set_looping_policy: the tracks are read first, also when wrapping is not supported -/
def setLoopingPolicy (w : World) (m : M) (p : Looping) : Option M :=
  match boundTracks u m with
  | none => none
  | some a =>
    match family (ty (w.tracks a)) with
    | some .scalar => (Context.setLoopingPolicy s w (u.scalar m) p).map (u.writeScalar m)
    | some .transform => (Context.setLoopingPolicy s w (u.transform m) p).map (u.writeTransform m)
    | none => some m

/-- decompress.impl.h:214-226, decompression.universal.h:194-217 seek -/
def seek (w : World) (m : M) (t : ℚ) (r : Rounding) : Option M :=
  match boundTracks u m with
  | none => some m
  | some a =>
    match family (ty (w.tracks a)) with
    | some .scalar => (Context.seek scalarKind s w (u.scalar m) t r).map (u.writeScalar m)
    | some .transform => (Context.seek transformKind s w (u.transform m) t r).map (u.writeTransform m)
    | none => some m

/-- decompression.universal.h:134-154 is_bound_to(compressed_tracks) -/
def isBoundTo (w : World) (m : M) (a : Nat) : Bool :=
  match boundTracks u m with
  | none => false
  | some b =>
    match family (ty (w.tracks b)) with
    | some .scalar => Context.isBoundTo w (u.scalar m) a
    | some .transform => Context.isBoundTo w (u.transform m) a
    | none => false

/-- decompress.impl.h:183-190, decompression.universal.h:156-169 is_bound_to(compressed_database) -/
def isBoundToDatabase (w : World) (m : M) (d : Nat) : Bool :=
  match boundTracks u m with
  | none => false
  | some b =>
    match family (ty (w.tracks b)) with
    | some .scalar => Context.isBoundToDatabase scalarKind w (u.scalar m) d
    | some .transform => Context.isBoundToDatabase transformKind w (u.transform m) d
    | none => false

/-- decompression.universal.h:65-83 get_looping_policy; non_looping is clamp (core/sample_looping_policy.h). The code
dereferences null when the context is not initialized. -/
def getLoopingPolicy (w : World) (m : M) : Option Looping :=
  match boundTracks u m with
  | none => none
  | some b =>
    match family (ty (w.tracks b)) with
    | some .scalar => some (u.scalar m).looping
    | some .transform => some (u.transform m).looping
    | none => some .clamp

/-- What decompress_tracks and decompress_track go by. -/
inductive Pose where
  | scalar (x : Tracks × Option ScalarSeek × Rounding)
  | transform (x : Tracks × Option TransformSeek × Rounding)

/-- decompress.impl.h:228-258, decompression.universal.h:219-265 decompress_tracks and decompress_track -/
def observe (w : World) (m : M) : Option Pose :=
  match boundTracks u m with
  | none => none
  | some b =>
    match family (ty (w.tracks b)) with
    | some .scalar => (Context.observe w (u.scalar m)).map .scalar
    | some .transform => (Context.observe w (u.transform m)).map .transform
    | none => none

/-- One operation; the flag is what initialize and relocated return. -/
def step (st : World × M) : Op → Option ((World × M) × Bool)
  | .init a db => (init u ty s st.1 st.2 a db).map fun r => ((st.1, r.1), r.2)
  | .relocated a db => (relocated u ty s st.1 st.2 a db).map fun r => ((st.1, r.1), r.2)
  | .reset => some ((st.1, reset u st.2), true)
  | .setLoopingPolicy p => (setLoopingPolicy u ty s st.1 st.2 p).map fun c => ((st.1, c), true)
  | .seek t r => (seek u ty s st.1 st.2 t r).map fun c => ((st.1, c), true)
  | .world w => some ((w, st.2), true)

/-- A history and what its operations returned. -/
def run : List Op → World × M → Option (List Bool × (World × M))
  | [], st => some ([], st)
  | op :: ops, st => do
    let r ← step u ty s st op
    let rest ← run ops r.1
    pure (r.2 :: rest.1, rest.2)

/-- Where the fields are with 64 bit pointers, as far as relocated reads them from the member that was not written
(decompression.scalar.h:60-79, decompression_context.transform.h:53-72): the scalar interpolation_alpha and sample_time are
at 16 and 20, where the transform tracks_hash and db_hash are; the transform pointer to the database is at 8, where the scalar
tracks_hash is. -/
structure Overlay64 : Prop where
  tracksHash : ∀ m c k0 k1 alpha, c.seen = some (k0, k1, alpha) →
    (u.transform (u.writeScalar m c)).tracksHash = F32.toBits alpha
  dbHash : ∀ m c, (u.transform (u.writeScalar m c)).dbHash = F32.toBits c.sampleTime
  scalarHash : ∀ m c, (u.scalar (u.writeTransform m c)).tracksHash = (c.db.map (BitVec.ofNat 32)).getD 0

/-! ### decompression_version_selector.h -/

/-- decompression_version_selector.h:62, 105-108: is_version_supported; `setting` is version_supported() of the settings, `any`
is 0 (compressed_tracks_version.h:50, 71-85) -/
def isVersionSupported (setting version : Nat) : Bool :=
  if setting = 0 then decide (7 ≤ version) && decide (version ≤ 10) else version == setting

/-- decompression_version_selector.h:64-86, 110-274: whether a call gets to the code it is for; the switches of `any` have cases for
7, 8, 9 and 10 -/
def dispatches (setting version : Nat) : Bool :=
  if setting = 0 then version == 7 || version == 8 || version == 9 || version == 10 else true

end Acl.Context.Universal
