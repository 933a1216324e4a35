import Verif.Core.Hash
import Verif.Float.Bits
/-!
Model of the compression settings.
/repo/includes/acl/compression/compression_settings.h
/repo/includes/acl/compression/impl/compression_settings.impl.h
/repo/includes/acl/compression/impl/segment_context.h:55-81

Floats are their 32 bits: what is_valid has to sort out is every pattern, infinities and NaNs included. An error metric is the hash it
gives for itself (transform_error_metrics.h:65), a null pointer is `none`.
-/
namespace Acl.Settings
open Acl.F32

/-- A `float` setting, any pattern. -/
abbrev Bits32 := BitVec 32

/-- rtm::scalar_is_finite -/
def isFinite (b : Bits32) : Bool := decide (b.toNat % 2 ^ 31 < 255 * 2 ^ 23)

/-- `b > 0.0F` for every pattern: false for a NaN, true for +infinity. -/
def positive (b : Bits32) : Bool :=
  if isFinite b then decide (0 < ofBits b) else b == 0x7F800000#32

/-- The bytes of a 32 bit field, as hash32(element) reads them (little endian). -/
def bytes32 (b : BitVec 32) : List (BitVec 8) :=
  [b.extractLsb' 0 8, b.extractLsb' 8 8, b.extractLsb' 16 8, b.extractLsb' 24 8]

/-- The byte of a `bool`. -/
def boolByte (b : Bool) : BitVec 8 := if b then 1 else 0

/-- Errors are told apart by what they are about. -/
inductive Error where
  | chunkTooSmall | chunkNotMultiple | mediumRange | lowRange | sumRange
  | proportionRange | thresholdRange
  | noErrorMetric | strippingWithDatabase
  deriving DecidableEq, Repr

/-- compression_settings.h:46-87 compression_database_settings -/
structure Database where
  medium : Bits32
  low : Bits32
  maxChunkSize : BitVec 32

/-- memory_utils.h align_to for uint32_t with a power of two: it wraps -/
def alignTo4k (v : BitVec 32) : BitVec 32 := (v + 4095#32) &&& ~~~4095#32

/-- compression_settings.impl.h:68: `1.0e-5F` -/
def epsilon : ℚ := rnd (1 / 100000)

/-- compression_settings.impl.h:52-73 compression_database_settings::is_valid; `none` is no error. Past the first four checks both
proportions are in [0, 1] and their sum cannot overflow. -/
def Database.isValid (d : Database) : Option Error :=
  if d.maxChunkSize.toNat < 4 * 1024 then some .chunkTooSmall
  else if alignTo4k d.maxChunkSize != d.maxChunkSize then some .chunkNotMultiple
  else if !isFinite d.medium || decide (ofBits d.medium < 0) || decide (1 < ofBits d.medium) then some .mediumRange
  else if !isFinite d.low || decide (ofBits d.low < 0) || decide (1 < ofBits d.low) then some .lowRange
  else if fadd (ofBits d.low) (ofBits d.medium) < epsilon ∨ fadd 1 epsilon < fadd (ofBits d.low) (ofBits d.medium) then some .sumRange
  else none

/-- compression_settings.impl.h:43-50 compression_database_settings::get_hash -/
def Database.hash (d : Database) : BitVec 32 :=
  let h := hashCombine32 0 (hash32 (bytes32 d.maxChunkSize))
  let h := hashCombine32 h (hash32 (bytes32 d.medium))
  hashCombine32 h (hash32 (bytes32 d.low))

/-- compression_settings.h:91-133 compression_metadata_settings -/
structure Metadata where
  trackListName : Bool
  trackNames : Bool
  parentTrackIndices : Bool
  trackDescriptions : Bool
  contributingError : Bool
  deriving DecidableEq

/-- compression_settings.impl.h:75-85 compression_metadata_settings::get_hash -/
def Metadata.hash (m : Metadata) : BitVec 32 :=
  let h := hashCombine32 0 (hash32 [boolByte m.trackListName])
  let h := hashCombine32 h (hash32 [boolByte m.trackNames])
  let h := hashCombine32 h (hash32 [boolByte m.parentTrackIndices])
  let h := hashCombine32 h (hash32 [boolByte m.trackDescriptions])
  hashCombine32 h (hash32 [boolByte m.contributingError])

/-- compression_settings.h:160-200 compression_keyframe_stripping_settings -/
structure Stripping where
  proportion : Bits32
  threshold : Bits32
  stripTrivial : Bool
  deriving DecidableEq

/-- compression_settings.impl.h:92-95 is_enabled -/
def Stripping.isEnabled (s : Stripping) : Bool := positive s.proportion || positive s.threshold || s.stripTrivial

/-- compression_settings.impl.h:97-105 get_hash -/
def Stripping.hash (s : Stripping) : BitVec 32 :=
  let h := hashCombine32 0 (hash32 (bytes32 s.proportion))
  let h := hashCombine32 h (hash32 (bytes32 s.threshold))
  hashCombine32 h (hash32 [boolByte s.stripTrivial])

/-- compression_settings.impl.h:107-116 is_valid -/
def Stripping.isValid (s : Stripping) : Option Error :=
  if !isFinite s.proportion || decide (ofBits s.proportion < 0) || decide (1 < ofBits s.proportion) then some .proportionRange
  else if !isFinite s.threshold || decide (ofBits s.threshold < 0) then some .thresholdRange
  else none

/-- compression_level.h:47-60 compression_level8 -/
inductive Level where | lowest | low | medium | high | highest | automatic
  deriving DecidableEq, Repr

/-- compression_level.h:49-57: the value of the enumerator, a byte -/
def Level.byte : Level → BitVec 8
  | .lowest => 0 | .low => 1 | .medium => 2 | .high => 3 | .highest => 4 | .automatic => 100

/-- track_formats.h:46-62 rotation_format8 -/
inductive RotationFormat where | full | dropWFull | dropWVariable
  deriving DecidableEq, Repr

/-- track_formats.h:50-53 -/
def RotationFormat.byte : RotationFormat → BitVec 8
  | .full => 0 | .dropWFull => 2 | .dropWVariable => 3

/-- track_formats.h:66-71 vector_format8 -/
inductive VectorFormat where | full | variable
  deriving DecidableEq, Repr

/-- track_formats.h:69-70 -/
def VectorFormat.byte : VectorFormat → BitVec 8
  | .full => 0 | .variable => 1

/-- compression_settings.h:204-257 compression_settings -/
structure Settings where
  level : Level
  rotation : RotationFormat
  translation : VectorFormat
  scale : VectorFormat
  errorMetric : Option (BitVec 32)
  enableDatabase : Bool
  optimizeLoops : Bool
  stripping : Stripping
  metadata : Metadata
  deriving DecidableEq

/-- compression_settings.impl.h:118-136 compression_settings::get_hash; a bool passed as a hash is 0 or 1 -/
def Settings.hash (s : Settings) : BitVec 32 :=
  let h := hashCombine32 0 (hash32 [s.level.byte])
  let h := hashCombine32 h (hash32 [s.rotation.byte])
  let h := hashCombine32 h (hash32 [s.translation.byte])
  let h := hashCombine32 h (hash32 [s.scale.byte])
  let h := match s.errorMetric with | none => h | some m => hashCombine32 h m
  let h := hashCombine32 h ((boolByte s.enableDatabase).setWidth 32)
  let h := hashCombine32 h ((boolByte s.optimizeLoops).setWidth 32)
  let h := hashCombine32 h s.stripping.hash
  hashCombine32 h s.metadata.hash

/-- compression_settings.impl.h:138-155 compression_settings::is_valid (the metadata settings are always valid, :87-90) -/
def Settings.isValid (s : Settings) : Option Error :=
  if s.errorMetric.isNone then some .noErrorMetric
  else match s.stripping.isValid with
    | some e => some e
    | none => if s.stripping.isEnabled && s.enableDatabase then some .strippingWithDatabase else none

/-- compression_settings.h:204-257, the member initializers, and compression_settings.impl.h:157-160 get_raw_compression_settings -/
def raw : Settings where
  level := .low
  rotation := .full
  translation := .full
  scale := .full
  errorMetric := none
  enableDatabase := false
  optimizeLoops := false
  stripping := ⟨0, 0, false⟩
  metadata := ⟨false, false, false, false, false⟩

/-- compression_settings.impl.h:162-172 get_default_compression_settings -/
def default : Settings :=
  { raw with level := .automatic, rotation := .dropWVariable, translation := .variable, scale := .variable, optimizeLoops := true,
             stripping := ⟨0, 0, true⟩ }

/-- compression_settings.h:64, 69, 77: the member initializers of compression_database_settings; 0x3F000000 is 0.5F -/
def defaultDatabase : Database := ⟨0, 0x3F000000#32, 1024 * 1024⟩

end Acl.Settings
