import Verif.Io.ClipTextLemmas
/-
What the reader makes of the text the writer wrote.
-/
namespace Acl.Io
open Acl.Raw

/-- A transform as it is read back: the last lanes of the translation and of the scale hold the last string of the
rotation. -/
def stale (s : Qvv) : Qvv :=
  ⟨s.rotation, ⟨s.translation.x, s.translation.y, s.translation.z, s.rotation.w⟩,
    ⟨s.scale.x, s.scale.y, s.scale.z, s.rotation.w⟩⟩

/-- A bind transform as it is read back: the last lanes are 0. -/
def unset (s : Qvv) : Qvv :=
  ⟨s.rotation, ⟨s.translation.x, s.translation.y, s.translation.z, 0⟩, ⟨s.scale.x, s.scale.y, s.scale.z, 0⟩⟩

/-- A track as it is read back. -/
def backBody (counting : Bool) : Body → Body
  | .scalar type precision output samples => .scalar type (precisionOf scalarPrecision precision) output samples
  | .transform precision output parent shell bind samples =>
    .transform (precisionOf transformPrecision precision) output parent shell (if counting then identity else unset bind) (samples.map stale)

/-- What a body must meet for the text to hold it. -/
def BodyOk : Body → Prop
  | .scalar type _ output samples => output < 2 ^ 32 ∧ ∀ s ∈ samples, s.length = type.components
  | .transform _ output parent _ _ _ => output < 2 ^ 32 ∧ parent < 2 ^ 32

/-- Every number of a transform is finite. -/
def finiteQvv (s : Qvv) : Bool := finite4 s.rotation && finite3 s.translation && finite3 s.scale

/-- Every transform of a track is finite. -/
def finiteBody : Body → Bool
  | .scalar .. => true
  | .transform _ _ _ _ _ samples => samples.all finiteQvv

theorem asStrs_vec4 (v : Vec4) :
    asStrs 4 (writeVec4 v) = some [formatHex v.x, formatHex v.y, formatHex v.z, formatHex v.w] := by
  exact asStrs_hex [v.x, v.y, v.z, v.w]

theorem asStrs_vec3 (v : Vec4) : asStrs 3 (writeVec3 v) = some [formatHex v.x, formatHex v.y, formatHex v.z] := by
  exact asStrs_hex [v.x, v.y, v.z]

theorem floats4 (lib : Library) (a b c d : Word) :
    hexToFloats lib [formatHex a, formatHex b, formatHex c, formatHex d] = .ok [a, b, c, d] :=
  hexToFloats_format lib [a, b, c, d]

theorem floats3 (lib : Library) (a b c : Word) :
    hexToFloats lib [formatHex a, formatHex b, formatHex c] = .ok [a, b, c] :=
  hexToFloats_format lib [a, b, c]

theorem readPart_vec4 (lib : Library) (v : Vec4) : readPart lib true 4 [] (writeVec4 v) =
    .ok (v, [formatHex v.x, formatHex v.y, formatHex v.z, formatHex v.w]) := by
  simp only [readPart, if_true, asStrs_vec4, orSyntax, bind, Except.bind, List.drop_nil, List.append_nil, floats4,
    loadVec4]
  rfl

theorem readPart_vec3 (lib : Library) (v : Vec4) (a b c : List Char) (w : Word) :
    readPart lib true 3 [a, b, c, formatHex w] (writeVec3 v) =
    .ok (⟨v.x, v.y, v.z, w⟩, [formatHex v.x, formatHex v.y, formatHex v.z, formatHex w]) := by
  simp only [readPart, if_true, asStrs_vec3, orSyntax, bind, Except.bind, List.drop, List.cons_append, List.nil_append,
    floats4, loadVec4]
  rfl

theorem readQvv_write (lib : Library) (s : Qvv) :
    readTransform lib true (writeQvv s) = if finiteQvv s then .ok (stale s) else .error .unreported := by
  have ht' : finite3 ⟨s.translation.x, s.translation.y, s.translation.z, s.rotation.w⟩ = finite3 s.translation := rfl
  have hs' : finite3 ⟨s.scale.x, s.scale.y, s.scale.z, s.rotation.w⟩ = finite3 s.scale := rfl
  simp only [readTransform, writeQvv, asArr, orSyntax, bind, Except.bind, readQvv, readPart_vec4, readPart_vec3, check,
    ht', hs', finiteQvv]
  by_cases h1 : finite4 s.rotation = true <;> by_cases h2 : finite3 s.translation = true <;>
    by_cases h3 : finite3 s.scale = true <;> simp [h1, h2, h3, stale]

theorem readScalar_write (lib : Library) (n : Nat) (l : List Word) (h : l.length = n) :
    readScalar lib true n (.arr (l.map hex)) = .ok l := by
  subst h
  simp only [readScalar, if_true, asStrs_hex, orSyntax, bind, Except.bind, hexToFloats_format]

theorem optional_hit (lib : Library) (f : Fields) (key : String) (w d : Word) :
    readOptionalFloat lib true ((key, hex w) :: f) key d = .ok (w, f) := by
  simp only [readOptionalFloat, if_true, tryRead, hex, asStr, hexToFloat_format, orAssert, bind, Except.bind]

theorem optional_miss (lib : Library) (f : Fields) (key k : String) (v : Val) (d : Word) (h : k ≠ key) :
    readOptionalFloat lib true ((k, v) :: f) key d = .ok (d, (k, v) :: f) := by
  simp only [readOptionalFloat, if_true, tryRead, if_neg h]

theorem try_hit {α : Type} (f : Fields) (key : String) (v : Val) (conv : Val → Option α) (a : α) (h : conv v = some a) :
    tryRead ((key, v) :: f) key conv = (some a, f) := by
  simp only [tryRead, if_true, h]

theorem try_miss {α : Type} (f : Fields) (key k : String) (v : Val) (conv : Val → Option α) (h : k ≠ key) :
    tryRead ((k, v) :: f) key conv = (none, (k, v) :: f) := by
  simp only [tryRead, if_neg h]

theorem bind_miss (lib : Library) (counting : Bool) (f : Fields) (key k : String) (v : Val) (n : Nat) (post : Vec4 → Vec4)
    (d : Vec4) (h : k ≠ key) :
    readBindPart lib true counting ((k, v) :: f) key n post d = .ok (d, (k, v) :: f) := by
  simp only [readBindPart, if_true, tryRead, if_neg h]

theorem bind_vec4 (lib : Library) (counting : Bool) (f : Fields) (key : String) (v : Vec4) (post : Vec4 → Vec4) (d : Vec4) :
    readBindPart lib true counting ((key, writeVec4 v) :: f) key 4 post d = .ok (if counting then d else v, f) := by
  cases counting
  · simp only [readBindPart, if_true, tryRead, asStrs_vec4, floats4, bind, Except.bind]
    rfl
  · simp only [readBindPart, if_true, tryRead, asStrs_vec4]

theorem bind_vec3 (lib : Library) (counting : Bool) (f : Fields) (key : String) (v : Vec4) (post : Vec4 → Vec4) (d : Vec4) :
    readBindPart lib true counting ((key, writeVec3 v) :: f) key 3 post d =
      .ok (if counting then d else ⟨v.x, v.y, v.z, 0⟩, f) := by
  cases counting
  · simp only [readBindPart, if_true, tryRead, asStrs_vec3, floats3, bind, Except.bind]
    rfl
  · simp only [readBindPart, if_true, tryRead, asStrs_vec3]

theorem read_hit {α : Type} (f : Fields) (key : String) (v : Val) (conv : Val → Option α) (a : α) (h : conv v = some a) :
    read ((key, v) :: f) key conv = .ok (a, f) := by
  simp only [read, if_true, h]

theorem precisionOf_id {d p : Word} (h : isNegative p = false) : precisionOf d p = p := by
  simp only [precisionOf, h]; rfl

theorem scalarOf_type (type : ScalarType) (p : Word) (o : Nat) (s : List (List Word)) :
    scalarOf (Body.scalar type p o s).type = some type := by
  cases type <;> rfl

theorem readSamples_check {α : Type} (one : Val → Except Error α) (f : α → Val) (k : α → α) (p : α → Bool) (e : Error)
    (l : List α) (h : ∀ a ∈ l, one (f a) = if p a then .ok (k a) else .error e) :
    readSamples one l.length (l.map f) = if l.all p then .ok (l.map k) else .error e := by
  induction l with
  | nil => rfl
  | cons a l ih =>
    simp only [List.length_cons, List.map_cons, readSamples, h a (by simp), ih (fun a ha => h a (by simp [ha])),
      List.all_cons]
    cases p a <;> cases l.all p <;> rfl

theorem readBody_write (lib : Library) (h : Header) (counting : Bool) (i : Nat) (b : Body) (hex : h.exact = true)
    (hn : b.numSamples = h.numSamples) (hb : BodyOk b) :
    readBody lib h counting i b.type (writeBody b) =
      if finiteBody b then .ok (backBody counting b) else .error .unreported := by
  cases b with
  | scalar type p o s =>
    obtain ⟨ho, hs⟩ := hb
    have hs' := readSamples_map (readScalar lib true type.components) (fun s => Val.arr (s.map Io.hex)) id s
      (fun a ha => readScalar_write lib _ a (hs a ha))
    rw [List.map_id] at hs'
    have hn' : h.numSamples = s.length := hn.symm
    unfold readBody writeBody
    simp only [hex, optional_hit, bind, Except.bind]
    rw [optional_miss _ _ _ _ _ _ (by decide)]
    simp only [try_hit _ _ _ _ _ (asU32_nat ho)]
    rw [try_miss _ _ _ _ _ (by decide)]
    simp only
    rw [optional_miss _ _ _ _ _ _ (by decide)]
    simp only
    rw [optional_miss _ _ _ _ _ _ (by decide)]
    simp only
    rw [optional_miss _ _ _ _ _ _ (by decide)]
    simp only
    rw [optional_miss _ _ _ _ _ _ (by decide)]
    simp only
    rw [bind_miss _ _ _ _ _ _ _ _ _ (by decide)]
    simp only
    rw [bind_miss _ _ _ _ _ _ _ _ _ (by decide)]
    simp only
    rw [bind_miss _ _ _ _ _ _ _ _ _ (by decide)]
    simp only
    rw [read_hit _ _ _ asArr _ rfl]
    simp only [readData, scalarOf_type, hex, hn', hs', bind, Except.bind, ends, List.isEmpty_nil, if_true]
    rfl
  | transform p o pa sh bi s =>
    obtain ⟨ho, hpa⟩ := hb
    have hs' := readSamples_check (readTransform lib true) writeQvv stale finiteQvv .unreported s
      (fun a _ => readQvv_write lib a)
    have hn' : h.numSamples = s.length := hn.symm
    have ht : scalarOf (Body.transform p o pa sh bi s).type = none := rfl
    unfold readBody writeBody
    simp only [hex, optional_hit, bind, Except.bind]
    rw [optional_miss _ _ _ _ _ _ (by decide)]
    simp only [try_hit _ _ _ _ _ (asU32_nat ho), try_hit _ _ _ _ _ (asU32_nat hpa), optional_hit]
    rw [optional_miss _ _ _ _ _ _ (by decide)]
    simp only
    rw [optional_miss _ _ _ _ _ _ (by decide)]
    simp only
    rw [optional_miss _ _ _ _ _ _ (by decide)]
    simp only [bind_vec4, bind_vec3]
    rw [read_hit _ _ _ asArr _ rfl]
    simp only [readData, ht, hex, hn', hs', bind, Except.bind, ends, List.isEmpty_nil, if_true]
    simp only [finiteBody]
    by_cases hall : s.all finiteQvv = true
    · simp only [hall, if_true]; cases counting <;> rfl
    · simp only [hall]; rfl

/-! ## Names -/

theorem startsWith_quote : ∀ (n s behind : List Char), ('"' ∈ n) = False →
    startsWith n (s ++ '"' :: behind) = startsWith n s := by
  unfold startsWith
  intro n
  induction n with
  | nil => intro s _ _; cases s <;> rfl
  | cons c n ih =>
    intro s behind h
    have hc : c ≠ '"' := by rintro rfl; simp at h
    have hn : ('"' ∈ n) = False := by simpa [hc.symm] using h
    cases s with
    | nil => simp [List.isPrefixOf, hc]
    | cons d s =>
      simp only [List.cons_append, List.isPrefixOf]
      rw [ih s behind hn]

theorem lookup_quote {α : Type} (table : List (List Char × α)) (s behind : List Char)
    (h : ∀ e ∈ table, ('"' ∈ e.1) = False) : lookup table (s ++ '"' :: behind) = lookup table s := by
  induction table with
  | nil => rfl
  | cons e table ih =>
    obtain ⟨n, a⟩ := e
    simp only [lookup]
    rw [startsWith_quote n s behind (h (n, a) (by simp)), ih (fun e he => h e (by simp [he]))]

theorem no_quote {α : Type} {table : List (List Char × α)} (h : (table.all fun e => !e.1.contains '"') = true) :
    ∀ e ∈ table, ('"' ∈ e.1) = False := by
  intro e he
  have := List.all_eq_true.1 h e he
  simpa using this

theorem lookup_type (t : TrackType) (behind : List Char) : lookup typeTable (typeName t ++ '"' :: behind) = some (some t) := by
  rw [lookup_quote _ _ _ (no_quote (by decide +kernel))]
  cases t <;> decide +kernel

theorem lookup_level (l : Level) (behind : List Char) : lookup levelTable (levelName l ++ '"' :: behind) = some l := by
  rw [lookup_quote _ _ _ (no_quote (by decide +kernel))]
  cases l <;> decide +kernel

theorem lookup_rotation (l : RotationFormat) (behind : List Char) :
    lookup rotationTable (rotationName l ++ '"' :: behind) = some l := by
  rw [lookup_quote _ _ _ (no_quote (by decide +kernel))]
  cases l <;> decide +kernel

theorem lookup_vector (l : VectorFormat) (behind : List Char) :
    lookup vectorTable (vectorName l ++ '"' :: behind) = some l := by
  rw [lookup_quote _ _ _ (no_quote (by decide +kernel))]
  cases l <;> decide +kernel

theorem settingsOf_names (lib : Library) (s : Settings) :
    settingsOf lib (levelName s.level) (rotationName s.rotationFormat) (vectorName s.translationFormat)
      (vectorName s.scaleFormat) = some s := by
  simp only [settingsOf, lookup_level, lookup_rotation, lookup_vector, bind, Option.bind]

theorem readSettingsFields_write (lib : Library) (s : Settings) :
    ∃ f, asObj (writeSettings s) = some f ∧ readSettingsFields lib f = .ok s := by
  refine ⟨_, rfl, ?_⟩
  simp only [readSettingsFields, tryRead, asStr, bind, Except.bind, skip, List.foldl, skipSegmenting, ends,
    show ("level" = "algorithm_name") = False by simp, if_false, if_true, List.isEmpty_nil, Option.getD_some,
    settingsOf_names]

/-! ## Tracks -/

theorem readTrack_write (lib : Library) (h : Header) (counting : Bool) (i : Nat) (first : Option TrackType) (t : Track)
    (hex : h.exact = true) (hn : t.body.numSamples = h.numSamples) (hb : BodyOk t.body)
    (hf : first = none ∨ first = some t.body.type) :
    readTrack lib h counting i first (writeTrack t) =
      if finiteBody t.body then .ok ⟨t.name, h.rate, backBody counting t.body⟩ else .error .unreported := by
  have htype : readType lib first (typeName t.body.type) = .ok t.body.type := by
    unfold readType
    rw [lookup_type]
    rcases hf with hf | hf <;> subst hf <;> simp
  unfold readTrack writeTrack
  simp only [asObj, orSyntax, bind, Except.bind, List.cons_append, List.nil_append]
  rw [try_hit _ "name" (.str t.name) asStr t.name rfl]
  simp only
  rw [read_hit _ "type" (.str (typeName t.body.type)) asStr (typeName t.body.type) rfl]
  simp only [htype, readBody_write lib h counting i t.body hex hn hb]
  cases finiteBody t.body <;> rfl

theorem backBody_type (counting : Bool) (b : Body) : (backBody counting b).type = b.type := by
  cases b with
  | scalar type _ _ _ => cases type <;> rfl
  | transform => rfl

theorem readTracks_write (lib : Library) (h : Header) (counting : Bool) (type : TrackType) (hex : h.exact = true) :
    ∀ (l : List Track) (i : Nat) (first : Option TrackType), (first = none ∨ first = some type) →
      (∀ t ∈ l, t.body.numSamples = h.numSamples ∧ BodyOk t.body ∧ t.body.type = type) →
      readTracks lib h counting (l.map writeTrack) i first =
        if l.all (fun t => finiteBody t.body) then .ok (l.map fun t => ⟨t.name, h.rate, backBody counting t.body⟩)
        else .error .unreported := by
  intro l
  induction l with
  | nil => intro _ _ _ _; rfl
  | cons t l ih =>
    intro i first hf hl
    obtain ⟨hn, hb, ht⟩ := hl t (by simp)
    simp only [List.map_cons, readTracks]
    rw [readTrack_write lib h counting i first t hex hn hb (by rw [ht]; exact hf)]
    simp only [bind, Except.bind, List.all_cons]
    by_cases hfin : finiteBody t.body = true
    swap
    · simp [hfin]
    simp only [hfin, if_true, Bool.true_and]
    rw [ih (i + 1) _ (by
      rcases hf with hf | hf <;> subst hf
      · right; simp only [Option.getD_none, backBody_type, ht]
      · right; rfl) (fun t ht => hl t (by simp [ht]))]
    by_cases hall : (l.all fun t => finiteBody t.body) = true
    · simp only [hall, if_true]
    · simp only [hall]; rfl

end Acl.Io
