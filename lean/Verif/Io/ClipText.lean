import Verif.Raw.TrackArray
/-
ACL text files: writing and reading raw track lists.
/repo/includes/acl/io/clip_writer.h:54-392
/repo/includes/acl/io/clip_reader.h:188-220, 244-259 (version), 334-374 (header), 376-472 (settings), 516-552 (hexadecimal floats),
  666-1125 (track lists)
/repo/includes/acl/io/clip_reader_error.h:44-54
/repo/includes/acl/core/track_types.h:101-158, core/impl/track_formats.impl.h:41-118,
  compression/impl/compression_level.impl.h:40-113 (names)
/repo/includes/acl/core/track_desc.h:52-128 (default descriptions)

The SJSON library (sjson-cpp) is not part of the repository. It is modelled by its values: a file is a list of keys with
values in the order they were written, the parser is a cursor on such a list (`read` fails when the next key is another
one, `try_read` leaves the cursor where it was), an array is read element by element and must end where the reader
expects. Escapes in names, comments and white space are left out. A string the parser hands out is a view on the file: it
is not terminated, a C function that receives it also sees the closing quote and the text behind it (`Library.behind`).
How the library prints and parses decimal numbers is left open (`Library.decimal`, `Library.toFloat`).
The legacy "clip" files (clip_reader.h:160-186, 261-332, 474-500, 554-664, 1127-) are not modelled.
-/
namespace Acl.Io
open Acl.Raw

/-- The 32 bits of a float. -/
abbrev Word := BitVec 32

/-! ## Hexadecimal floats -/

/-- The digits of `%X`, most significant first; "0" for zero. -/
def hexDigits (n : Nat) : List Nat := if n < 16 then [n] else hexDigits (n / 16) ++ [n % 16]
termination_by n

/-- One digit of `%X`. -/
def digitChar (d : Nat) : Char := if d < 10 then Char.ofNat (48 + d) else Char.ofNat (55 + d)

/-- clip_writer.h:54-67 format_hex_float -/
def formatHex (w : Word) : List Char := (hexDigits w.toNat).map digitChar

/-- A digit of strtoul in base 16. -/
def digitValue (c : Char) : Option Nat :=
  if 48 ≤ c.toNat ∧ c.toNat ≤ 57 then some (c.toNat - 48)
  else if 65 ≤ c.toNat ∧ c.toNat ≤ 70 then some (c.toNat - 55)
  else if 97 ≤ c.toNat ∧ c.toNat ≤ 102 then some (c.toNat - 87)
  else none

/-- strtoul: digits up to the first character that is not one -/
def accumulate : Nat → List Char → Nat
  | a, [] => a
  | a, c :: rest => match digitValue c with | some d => accumulate (a * 16 + d) rest | none => a

/-- strtoul: an optional "0x" -/
def magnitude (s : List Char) : Nat :=
  match s with
  | '0' :: x :: d :: rest =>
    if (x = 'x' ∨ x = 'X') ∧ (digitValue d).isSome then accumulate 0 (d :: rest) else accumulate 0 s
  | _ => accumulate 0 s

/-- isspace of the C locale -/
def isSpace (c : Char) : Bool := c.toNat == 32 || (9 ≤ c.toNat && c.toNat ≤ 13)

/-- `std::strtoul(s, nullptr, 16)` with 64 bit longs; overflow is left out, more than 8 digits are refused by the caller -/
def strtoul16 (s : List Char) : Nat :=
  match s.dropWhile isSpace with
  | '-' :: rest => (2 ^ 64 - magnitude rest) % 2 ^ 64
  | '+' :: rest => magnitude rest
  | t => magnitude t

/-- clip_reader.h:516-529 hex_to_float: `behind` is the text behind the closing quote, `none` is a failed assertion (more
than 8 characters) or a failed safe_static_cast -/
def hexToFloat (behind : List Char) (s : List Char) : Option Word :=
  if s.length ≤ 8 ∧ strtoul16 (s ++ '"' :: behind) < 2 ^ 32 then
    some (BitVec.ofNat 32 (strtoul16 (s ++ '"' :: behind)))
  else none

/-! ## Floats: the tests the reader makes -/

/-- `value < 0.0F`: below zero, not a negative zero and not NaN -/
def isNegative (w : Word) : Bool := decide (0x80000000 < w.toNat) && decide (w.toNat ≤ 0xFF800000)

/-- `value <= 0.0F` -/
def isNotPositive (w : Word) : Bool := decide (w.toNat = 0) || (decide (0x80000000 ≤ w.toNat) && decide (w.toNat ≤ 0xFF800000))

/-- rtm::scalar_is_finite -/
def isFinite (w : Word) : Bool := decide (w.toNat / 2 ^ 23 % 256 ≠ 255)

/-! ## Raw tracks -/

/-- rtm::vector4f, rtm::quatf -/
structure Vec4 where
  x : Word
  y : Word
  z : Word
  w : Word
  deriving DecidableEq, Repr

/-- rtm::qvvf -/
structure Qvv where
  rotation : Vec4
  translation : Vec4
  scale : Vec4
  deriving DecidableEq, Repr

/-- core/track_types.h: the types of scalar tracks that have samples -/
inductive ScalarType where | float1f | float2f | float3f | float4f | vector4f
  deriving DecidableEq, Repr

/-- core/track_types.h:193-220 get_track_num_sample_elements -/
def ScalarType.components : ScalarType → Nat
  | .float1f => 1 | .float2f => 2 | .float3f => 3 | .float4f => 4 | .vector4f => 4

/-- core/track_desc.h track_desc_scalarf, track_desc_transformf and the samples of a track. The deprecated thresholds of
track_desc_transformf are left out. -/
inductive Body where
  | scalar (type : ScalarType) (precision : Word) (outputIndex : Nat) (samples : List (List Word))
  | transform (precision : Word) (outputIndex parentIndex : Nat) (shellDistance : Word) (bind : Qvv) (samples : List Qvv)
  deriving DecidableEq, Repr

/-- compression/track.h track -/
structure Track where
  name : List Char
  rate : Word
  body : Body
  deriving DecidableEq, Repr

/-- track::get_type -/
def Body.type : Body → TrackType
  | .scalar .float1f .. => .float1f | .scalar .float2f .. => .float2f | .scalar .float3f .. => .float3f
  | .scalar .float4f .. => .float4f | .scalar .vector4f .. => .vector4f | .transform .. => .qvvf

/-- track::get_num_samples -/
def Body.numSamples : Body → Nat
  | .scalar _ _ _ samples => samples.length
  | .transform _ _ _ _ _ samples => samples.length

/-- compression/track_array.h track_array; the looping policy is that of the array (track_array.h:198) -/
structure TrackList where
  name : List Char
  tracks : List Track
  looping : Acl.Interp.Looping
  deriving DecidableEq

/-- track_array.h:92 get_num_samples_per_track -/
def TrackList.numSamples (l : TrackList) : Nat := match l.tracks with | [] => 0 | t :: _ => t.body.numSamples
/-- track_array.h:104 get_sample_rate; no track: 0.0 -/
def TrackList.rate (l : TrackList) : Word := match l.tracks with | [] => 0 | t :: _ => t.rate

/-! ## Names -/

/-- core/compression_level.h compression_level8 -/
inductive Level where | lowest | low | medium | high | highest | automatic
  deriving DecidableEq, Repr
/-- core/track_formats.h rotation_format8 -/
inductive RotationFormat where | full | dropWFull | dropWVariable
  deriving DecidableEq, Repr
/-- core/track_formats.h vector_format8 -/
inductive VectorFormat where | full | variable
  deriving DecidableEq, Repr

/-- The fields of compression_settings that a file holds (compression/compression_settings.h). -/
structure Settings where
  level : Level
  rotationFormat : RotationFormat
  translationFormat : VectorFormat
  scaleFormat : VectorFormat
  deriving DecidableEq, Repr

/-- compression_level.impl.h:40-52 get_compression_level_name -/
def levelName : Level → List Char
  | .lowest => "lowest".toList | .low => "low".toList | .medium => "medium".toList | .high => "high".toList
  | .highest => "highest".toList | .automatic => "automatic".toList
/-- track_formats.impl.h:41-50 get_rotation_format_name -/
def rotationName : RotationFormat → List Char
  | .full => "quatf_full".toList | .dropWFull => "quatf_drop_w_full".toList
  | .dropWVariable => "quatf_drop_w_variable".toList
/-- track_formats.impl.h:88-91 get_vector_format_name -/
def vectorName : VectorFormat → List Char
  | .full => "vector3f_full".toList | .variable => "vector3f_variable".toList
/-- track_types.h:101-113 get_track_type_name -/
def typeName : TrackType → List Char
  | .float1f => "float1f".toList | .float2f => "float2f".toList | .float3f => "float3f".toList
  | .float4f => "float4f".toList | .vector4f => "vector4f".toList | .qvvf => "qvvf".toList

/-- `std::strncmp(s, name, std::strlen(name)) == 0` where `s` is the view and the text behind it -/
def startsWith (name s : List Char) : Bool := name.isPrefixOf s

/-- The first entry whose name the string starts with. -/
def lookup {α : Type} : List (List Char × α) → List Char → Option α
  | [], _ => none
  | (name, a) :: rest, s => if startsWith name s then some a else lookup rest s

/-- compression_level.impl.h:54-113 get_compression_level: the tests in their order -/
def levelTable : List (List Char × Level) :=
  [("Lowest".toList, .lowest), ("lowest".toList, .lowest), ("Low".toList, .low), ("low".toList, .low),
   ("Medium".toList, .medium), ("medium".toList, .medium), ("Highest".toList, .highest), ("highest".toList, .highest),
   ("High".toList, .high), ("high".toList, .high), ("automatic".toList, .automatic)]
/-- track_formats.impl.h:52-86 get_rotation_format -/
def rotationTable : List (List Char × RotationFormat) :=
  [("Quat_128".toList, .full), ("quatf_full".toList, .full), ("QuatDropW_96".toList, .dropWFull),
   ("quatf_drop_w_full".toList, .dropWFull), ("QuatDropW_Variable".toList, .dropWVariable),
   ("quatf_drop_w_variable".toList, .dropWVariable)]
/-- track_formats.impl.h:93-118 get_vector_format -/
def vectorTable : List (List Char × VectorFormat) :=
  [("Vector3_96".toList, .full), ("vector3f_full".toList, .full), ("Vector3_Variable".toList, .variable),
   ("vector3f_variable".toList, .variable)]
/-- track_types.h:118-158 get_track_type; `none`: a type no track has -/
def typeTable : List (List Char × Option TrackType) :=
  [("float1f".toList, some .float1f), ("float2f".toList, some .float2f), ("float3f".toList, some .float3f),
   ("float4f".toList, some .float4f), ("vector4f".toList, some .vector4f),
   ("float1d".toList, none), ("float2d".toList, none), ("float3d".toList, none), ("float4d".toList, none),
   ("vector4d".toList, none), ("quatf".toList, none), ("quatd".toList, none), ("qvvf".toList, some .qvvf)]

/-! ## Files -/

/-- A value of an SJSON file. -/
inductive Val where
  | str (s : List Char)
  | num (q : ℚ)
  | bool (b : Bool)
  | arr (items : List Val)
  | obj (fields : List (String × Val))

/-- The keys and values of an object, or of a whole file, that are still to be read. -/
abbrev Fields := List (String × Val)

/-- The parts of the SJSON and RTM libraries the model leaves open: how a float is printed, which float a number becomes,
the text behind the closing quote of a string, and rtm::quat_normalize_deterministic. -/
structure Library where
  decimal : Word → ℚ
  toFloat : ℚ → Word
  behind : List Char → List Char
  normalize : Vec4 → Vec4

/-! ## The writer -/

/-- A hexadecimal float. -/
def hex (w : Word) : Val := .str (formatHex w)
/-- An unsigned integer. -/
def nat (n : Nat) : Val := .num n

/-- clip_writer.h:124-130, 300-306: 4 floats -/
def writeVec4 (v : Vec4) : Val := .arr [hex v.x, hex v.y, hex v.z, hex v.w]
/-- clip_writer.h:131-142, 307-318: 3 floats -/
def writeVec3 (v : Vec4) : Val := .arr [hex v.x, hex v.y, hex v.z]

/-- clip_writer.h:69-79 write_sjson_settings -/
def writeSettings (s : Settings) : Val :=
  .obj [("level", .str (levelName s.level)), ("rotation_format", .str (rotationName s.rotationFormat)),
    ("translation_format", .str (vectorName s.translationFormat)), ("scale_format", .str (vectorName s.scaleFormat))]

/-- clip_writer.h:81-106 write_sjson_header: "track_list" -/
def writeHeader (lib : Library) (l : TrackList) : Val :=
  .obj [("name", .str l.name), ("num_samples", nat l.numSamples), ("sample_rate", .num (lib.decimal l.rate)),
    ("is_binary_exact", .bool true)]

/-- clip_writer.h:297-319: a transform -/
def writeQvv (s : Qvv) : Val := .arr [writeVec4 s.rotation, writeVec3 s.translation, writeVec3 s.scale]

/-- clip_writer.h:108-143, 162-324: the description and the samples -/
def writeBody : Body → Fields
  | .scalar _ precision outputIndex samples =>
    [("precision", hex precision), ("output_index", nat outputIndex),
      ("data", .arr (samples.map fun s => .arr (s.map hex)))]
  | .transform precision outputIndex parentIndex shellDistance bind samples =>
    [("precision", hex precision), ("output_index", nat outputIndex), ("parent_index", nat parentIndex),
      ("shell_distance", hex shellDistance), ("bind_rotation", writeVec4 bind.rotation),
      ("bind_translation", writeVec3 bind.translation), ("bind_scale", writeVec3 bind.scale),
      ("data", .arr (samples.map writeQvv))]

/-- clip_writer.h:145-337 write_sjson_tracks: one track -/
def writeTrack (t : Track) : Val :=
  .obj ([("name", .str t.name), ("type", .str (typeName t.body.type))] ++ writeBody t.body)

/-- clip_writer.h:339-373 write_track_list: the contents of the file -/
def writeTrackList (lib : Library) (l : TrackList) (settings : Option Settings) : Fields :=
  [("version", nat 5), ("track_list", writeHeader lib l)] ++
  (match settings with | some s => [("settings", writeSettings s)] | none => []) ++
  [("tracks", .arr (l.tracks.map writeTrack))]

/-! ## The reader -/

/-- Why a file is refused (clip_reader_error.h:44-54). `syntax`: an error of the parser. `unreported`: the reader returns
false, its error is `None`. `assertion`: a failed assertion, undefined without assertions. -/
inductive Error where
  | syntax | unreported | assertion | outOfBounds
  | unsupportedVersion | unsignedIntegerExpected | positiveValueExpected | invalidCompressionSetting | invalidTrackType
  deriving DecidableEq, Repr

/-- Parser::read for a string -/
def asStr : Val → Option (List Char) | .str s => some s | _ => none
/-- Parser::read for a double -/
def asNum : Val → Option ℚ | .num q => some q | _ => none
/-- Parser::read for a boolean -/
def asBool : Val → Option Bool | .bool b => some b | _ => none
/-- Parser::array_begins -/
def asArr : Val → Option (List Val) | .arr l => some l | _ => none
/-- Parser::object_begins -/
def asObj : Val → Option Fields | .obj f => some f | _ => none
/-- An unsigned integer below a bound, of a number. -/
def toNatBelow (bound : Nat) (q : ℚ) : Option Nat :=
  if q.den = 1 ∧ 0 ≤ q.num ∧ q.num.toNat < bound then some q.num.toNat else none
/-- An unsigned integer below 2^32, of a number. -/
def toU32 (q : ℚ) : Option Nat := toNatBelow (2 ^ 32) q
/-- Parser::read for an uint32_t -/
def asU32 (v : Val) : Option Nat := (asNum v).bind toU32
/-- Parser::read for `n` strings of an array that ends there -/
def asStrs (n : Nat) (v : Val) : Option (List (List Char)) :=
  (asArr v).bind fun l => if l.length = n then l.mapM asStr else none
/-- Parser::read for `n` doubles of an array that ends there -/
def asNums (n : Nat) (v : Val) : Option (List ℚ) :=
  (asArr v).bind fun l => if l.length = n then l.mapM asNum else none

/-- Parser::read with a key -/
def read {α : Type} (f : Fields) (key : String) (conv : Val → Option α) : Except Error (α × Fields) :=
  match f with
  | [] => .error .syntax
  | (k, v) :: rest => if k = key then match conv v with | some a => .ok (a, rest) | none => .error .syntax else .error .syntax

/-- Parser::try_read with a key -/
def tryRead {α : Type} (f : Fields) (key : String) (conv : Val → Option α) : Option α × Fields :=
  match f with
  | [] => (none, f)
  | (k, v) :: rest => if k = key then match conv v with | some a => (some a, rest) | none => (none, f) else (none, f)

/-- Parser::object_ends, nothing_follows -/
def ends (f : Fields) : Except Error Unit := if f.isEmpty then .ok () else .error .syntax

/-- A failed assertion when there is no value. -/
def orAssert {α : Type} : Option α → Except Error α | some a => .ok a | none => .error .assertion

/-- clip_reader.h:244-259 read_version -/
def readVersion (f : Fields) : Except Error Fields := do
  let (version, f) ← read f "version" asU32
  if 5 < version then .error .unsupportedVersion else .ok f

/-- What the header holds (clip_reader.h:217-221). -/
structure Header where
  name : List Char
  numSamples : Nat
  rate : Word
  exact : Bool
  deriving DecidableEq, Repr

/-- clip_reader.h:341-350: the number of samples; a number that is not an unsigned integer of 32 bits is an error -/
def numSamplesOf (q : ℚ) : Except Error Nat :=
  match toU32 q with | some n => .ok n | none => .error .unsignedIntegerExpected

/-- clip_reader.h:352-361: the sample rate -/
def rateOf (lib : Library) (q : ℚ) : Except Error Word :=
  if isNotPositive (lib.toFloat q) then .error .positiveValueExpected else .ok (lib.toFloat q)

/-- clip_reader.h:334-374 read_raw_track_list_header -/
def readHeader (lib : Library) (f : Fields) : Except Error (Header × Fields) := do
  let (inner, f) ← read f "track_list" asObj
  let (name, inner) := tryRead inner "name" asStr
  let (samples, inner) ← read inner "num_samples" asNum
  let numSamples ← numSamplesOf samples
  let (rate, inner) ← read inner "sample_rate" asNum
  let rate ← rateOf lib rate
  let (exact, inner) := tryRead inner "is_binary_exact" asBool
  ends inner
  .ok (⟨name.getD [], numSamples, rate, exact.getD false⟩, f)

/-- Deprecated values that are skipped. -/
def skip {α : Type} (conv : Val → Option α) (keys : List String) (f : Fields) : Fields :=
  keys.foldl (fun f key => (tryRead f key conv).2) f

/-- clip_reader.h:416-433: the deprecated "segmenting" object -/
def skipSegmenting (f : Fields) : Except Error Fields :=
  match tryRead f "segmenting" asObj with
  | (none, f) => .ok f
  | (some inner, f) => do
    let inner := skip asBool ["enabled"] inner
    let inner := skip asNum ["ideal_num_samples", "max_num_samples"] inner
    let inner := skip asBool ["rotation_range_reduction", "translation_range_reduction", "scale_range_reduction"] inner
    ends inner
    .ok f

/-- clip_reader.h:446-456: the formats by their names -/
def settingsOf (lib : Library) (level rotation translation scale : List Char) : Option Settings := do
  let level ← lookup levelTable (level ++ '"' :: lib.behind level)
  let rotation ← lookup rotationTable (rotation ++ '"' :: lib.behind rotation)
  let translation ← lookup vectorTable (translation ++ '"' :: lib.behind translation)
  let scale ← lookup vectorTable (scale ++ '"' :: lib.behind scale)
  some ⟨level, rotation, translation, scale⟩

/-- clip_reader.h:407-462: the fields of "settings" -/
def readSettingsFields (lib : Library) (f : Fields) : Except Error Settings := do
  let (_, f) := tryRead f "algorithm_name" asStr
  let (level, f) := tryRead f "level" asStr
  let (rotation, f) := tryRead f "rotation_format" asStr
  let (translation, f) := tryRead f "translation_format" asStr
  let (scale, f) := tryRead f "scale_format" asStr
  let f := skip asBool ["rotation_range_reduction", "translation_range_reduction", "scale_range_reduction"] f
  let f ← skipSegmenting f
  let f := skip asNum ["constant_rotation_threshold_angle", "constant_translation_threshold",
    "constant_scale_threshold", "error_threshold"] f
  ends f
  match settingsOf lib (level.getD (levelName .low)) (rotation.getD (rotationName .full))
      (translation.getD (vectorName .full)) (scale.getD (vectorName .full)) with
  | some s => .ok s
  | none => .error .invalidCompressionSetting

/-- clip_reader.h:376-472 read_settings -/
def readSettings (lib : Library) (f : Fields) : Except Error (Option Settings × Fields) :=
  match tryRead f "settings" asObj with
  | (none, f) => .ok (none, f)
  | (some inner, f) => do
    let s ← readSettingsFields lib inner
    .ok (some s, f)

/-- clip_reader.h:541-552 hex_to_float4f -/
def hexToFloats (lib : Library) (values : List (List Char)) : Except Error (List Word) :=
  orAssert (values.mapM fun s => hexToFloat (lib.behind s) s)

/-- rtm::vector_load of 4 floats, 0.0 for the lanes that were not set -/
def loadVec4 (l : List Word) : Vec4 := ⟨l.getD 0 0, l.getD 1 0, l.getD 2 0, l.getD 3 0⟩

/-- clip_reader.h:666-679 read_optional_float -/
def readOptionalFloat (lib : Library) (exact : Bool) (f : Fields) (key : String) (dflt : Word) :
    Except Error (Word × Fields) :=
  if exact then
    match tryRead f key asStr with
    | (some s, f) => do
      let w ← orAssert (hexToFloat (lib.behind s) s)
      .ok (w, f)
    | (none, f) => .ok (dflt, f)
  else .ok (((tryRead f key asNum).1.map lib.toFloat).getD dflt, (tryRead f key asNum).2)

/-- rtm::quat_is_finite -/
def finite4 (v : Vec4) : Bool := isFinite v.x && isFinite v.y && isFinite v.z && isFinite v.w
/-- rtm::vector_is_finite3 -/
def finite3 (v : Vec4) : Bool := isFinite v.x && isFinite v.y && isFinite v.z

/-- A test of the reader that sets no error. -/
def check (b : Bool) : Except Error Unit := if b then .ok () else .error .unreported
/-- A value the parser does not find. -/
def orSyntax {α : Type} : Option α → Except Error α | some a => .ok a | none => .error .syntax

/-- clip_reader.h:691-711, 719-742, 750-773: the floats of one part of a transform. `n` strings are read in `values_str`,
but 4 are converted: `stale` is what the last entries still hold. -/
def readPart (lib : Library) (exact : Bool) (n : Nat) (stale : List (List Char)) (v : Val) :
    Except Error (Vec4 × List (List Char)) :=
  if exact then do
    let values ← orSyntax (asStrs n v)
    let floats ← hexToFloats lib (values ++ stale.drop n)
    .ok (loadVec4 floats, values ++ stale.drop n)
  else do
    let values ← orSyntax (asNums n v)
    .ok (loadVec4 (values.map lib.toFloat), [])

/-- clip_reader.h:681-779 read_qvv_sample, of the array that holds it -/
def readQvv (lib : Library) (exact : Bool) : List Val → Except Error Qvv
  | [r, t, s] => do
    let (rotation, values) ← readPart lib exact 4 [] r
    check (finite4 rotation)
    let (translation, values) ← readPart lib exact 3 values t
    check (finite3 translation)
    let (scale, _) ← readPart lib exact 3 values s
    check (finite3 scale)
    .ok ⟨rotation, translation, scale⟩
  | _ => .error .syntax

/-- clip_reader.h:958-968, 995-1005: a scalar sample -/
def readScalar (lib : Library) (exact : Bool) (n : Nat) (v : Val) : Except Error (List Word) :=
  if exact then do
    let values ← orSyntax (asStrs n v)
    hexToFloats lib values
  else do
    let values ← orSyntax (asNums n v)
    .ok (values.map lib.toFloat)

/-- clip_reader.h:940-1032: a loop over the samples, the array must end after them -/
def readSamples {α : Type} (one : Val → Except Error α) : Nat → List Val → Except Error (List α)
  | 0, [] => .ok []
  | 0, _ :: _ => .error .syntax
  | _ + 1, [] => .error .syntax
  | n + 1, v :: rest => do
    let a ← one v
    let rest ← readSamples one n rest
    .ok (a :: rest)

/-- clip_reader.h:943-947, 969-977, 1006-1014, 1024: a transform is an array -/
def readTransform (lib : Library) (exact : Bool) (v : Val) : Except Error Qvv := do
  let items ← orSyntax (asArr v)
  readQvv lib exact items

/-- rtm::qvv_identity -/
def identity : Qvv := ⟨⟨0, 0, 0, 0x3F800000⟩, ⟨0, 0, 0, 0⟩, ⟨0x3F800000, 0x3F800000, 0x3F800000, 0x3F800000⟩⟩

/-- clip_reader.h:856-893: one part of the bind transform -/
def readBindPart (lib : Library) (exact counting : Bool) (f : Fields) (key : String) (n : Nat) (post : Vec4 → Vec4)
    (dflt : Vec4) : Except Error (Vec4 × Fields) :=
  if exact then
    match tryRead f key (asStrs n) with
    | (some values, f) =>
      if counting then .ok (dflt, f)
      else do
        let floats ← hexToFloats lib values
        .ok (loadVec4 floats, f)
    | (none, f) => .ok (dflt, f)
  else
    match tryRead f key (asNums n) with
    | (some values, f) => if counting then .ok (dflt, f) else .ok (post (loadVec4 (values.map lib.toFloat)), f)
    | (none, f) => .ok (dflt, f)

/-- core/track_desc.h:65 the default precision of scalar tracks, 0.00001F -/
def scalarPrecision : Word := 0x3727C5AC
/-- core/track_desc.h:123 the default precision of transform tracks, 0.01F -/
def transformPrecision : Word := 0x3C23D70A
/-- core/track_desc.h:128 the default shell distance, 3.0F -/
def defaultShell : Word := 0x40400000
/-- -1.0F -/
def minusOne : Word := 0xBF800000

/-- clip_reader.h:851-854: a negative precision is replaced by the default -/
def precisionOf (dflt precision : Word) : Word := if isNegative precision then dflt else precision

/-- The scalar type of a track type. -/
def scalarOf : TrackType → Option ScalarType
  | .float1f => some .float1f | .float2f => some .float2f | .float3f => some .float3f | .float4f => some .float4f
  | .vector4f => some .vector4f | .qvvf => none

/-- clip_reader.h:897-1032, 1065-1092: the samples and the track -/
def readData (lib : Library) (h : Header) (type : TrackType) (precision : Word) (output parent : Nat) (shell : Word)
    (bind : Qvv) (data : List Val) : Except Error Body :=
  match scalarOf type with
  | some scalar => do
    let samples ← readSamples (readScalar lib h.exact scalar.components) h.numSamples data
    .ok (.scalar scalar (precisionOf scalarPrecision precision) output samples)
  | none => do
    let samples ← readSamples (readTransform lib h.exact) h.numSamples data
    .ok (.transform (precisionOf transformPrecision precision) output parent shell bind samples)

/-- clip_reader.h:831-1092: the fields of a track behind its type -/
def readBody (lib : Library) (h : Header) (counting : Bool) (i : Nat) (type : TrackType) (f : Fields) :
    Except Error Body := do
  let (precision, f) ← readOptionalFloat lib h.exact f "precision" minusOne
  let (_, f) ← readOptionalFloat lib h.exact f "constant_threshold" minusOne
  let (output, f) := tryRead f "output_index" asU32
  let (parent, f) := tryRead f "parent_index" asU32
  let (shell, f) ← readOptionalFloat lib h.exact f "shell_distance" defaultShell
  let (_, f) ← readOptionalFloat lib h.exact f "constant_rotation_threshold_angle" minusOne
  let (_, f) ← readOptionalFloat lib h.exact f "constant_translation_threshold" minusOne
  let (_, f) ← readOptionalFloat lib h.exact f "constant_scale_threshold" minusOne
  let (rotation, f) ← readBindPart lib h.exact counting f "bind_rotation" 4 lib.normalize identity.rotation
  let (translation, f) ← readBindPart lib h.exact counting f "bind_translation" 3 id identity.translation
  let (scale, f) ← readBindPart lib h.exact counting f "bind_scale" 3 id identity.scale
  let (data, f) ← read f "data" asArr
  let body ← readData lib h type precision (output.getD i) (parent.getD invalidIndex) shell
    ⟨rotation, translation, scale⟩ data
  ends f
  .ok body

/-- clip_reader.h:806-824: the type of a track, which must be that of the first one -/
def readType (lib : Library) (first : Option TrackType) (name : List Char) : Except Error TrackType :=
  match lookup typeTable (name ++ '"' :: lib.behind name) with
  | none => .error .invalidTrackType
  | some type =>
    match type, first with
    | none, none => .error .assertion
    | none, some _ => .error .invalidTrackType
    | some type, none => .ok type
    | some type, some first => if type = first then .ok type else .error .invalidTrackType

/-- clip_reader.h:792-1097: one track -/
def readTrack (lib : Library) (h : Header) (counting : Bool) (i : Nat) (first : Option TrackType) (v : Val) :
    Except Error Track := do
  let f ← orSyntax (asObj v)
  let (name, f) := tryRead f "name" asStr
  let (typeName, f) ← read f "type" asStr
  let type ← readType lib first typeName
  let body ← readBody lib h counting i type f
  .ok ⟨name.getD [], h.rate, body⟩

/-- clip_reader.h:781-1104 process_track_list: the loop over the tracks; when counting only their number is kept -/
def readTracks (lib : Library) (h : Header) (counting : Bool) :
    List Val → Nat → Option TrackType → Except Error (List Track)
  | [], _, _ => .ok []
  | v :: rest, i, first => do
    let track ← readTrack lib h counting i first v
    let rest ← readTracks lib h counting rest (i + 1) (some (first.getD track.body.type))
    .ok (track :: rest)

/-- clip_reader.h:1106-1125 create_track_list: the tracks are counted, then written to an array of that size -/
def createTrackList (lib : Library) (h : Header) (f : Fields) : Except Error (TrackList × Fields) := do
  let (items, _) ← read f "tracks" asArr
  let counted ← readTracks lib h true items 0 none
  let (items, f) ← read f "tracks" asArr
  let tracks ← readTracks lib h false items 0 none
  if counted.length < tracks.length then .error .outOfBounds
  else .ok (⟨h.name, tracks, .clamp⟩, f)

/-- clip_reader.h:188-206 read_raw_track_list -/
def readTrackList (lib : Library) (f : Fields) : Except Error (TrackList × Option Settings) := do
  let f ← readVersion f
  let (h, f) ← readHeader lib f
  let (settings, f) ← readSettings lib f
  let (l, f) ← createTrackList lib h f
  ends f
  .ok (l, settings)

end Acl.Io
