import Verif.Io.ClipTextRead
/-
C74: a raw track list written to an ACL text file and read back is the same list, bit for bit.
-/
namespace Acl.C74
open Acl.Io
open Acl.Raw (TrackType)

/-! ## Specification -/

/-- The same three numbers, bit for bit. -/
def Same3 (a b : Vec4) : Prop := a.x = b.x ∧ a.y = b.y ∧ a.z = b.z

/-- The same transform, bit for bit: the fourth lanes of a translation and of a scale mean nothing. -/
def SameTransform (a b : Qvv) : Prop :=
  a.rotation = b.rotation ∧ Same3 a.translation b.translation ∧ Same3 a.scale b.scale

/-- The same description and the same samples. -/
def SameBody : Body → Body → Prop
  | .scalar type precision output samples, .scalar type' precision' output' samples' =>
    type = type' ∧ precision = precision' ∧ output = output' ∧ samples = samples'
  | .transform precision output parent shell bind samples, .transform precision' output' parent' shell' bind' samples' =>
    precision = precision' ∧ output = output' ∧ parent = parent' ∧ shell = shell' ∧ SameTransform bind bind' ∧
      List.Forall₂ SameTransform samples samples'
  | _, _ => False

/-- The same tracks, in the same order. -/
def SameTracks (a b : List Track) : Prop :=
  List.Forall₂ (fun s t => s.name = t.name ∧ s.rate = t.rate ∧ SameBody s.body t.body) a b

/-- The precision of a track. -/
def precision : Body → Word
  | .scalar _ p _ _ => p
  | .transform p _ _ _ _ _ => p

/-- The default precision of a track of this kind (track_desc.h:65, 123). -/
def defaultPrecision : Body → Word
  | .scalar .. => 0x3727C5AC
  | .transform .. => 0x3C23D70A

/-- The transforms of a track. -/
def transforms : Body → List Qvv
  | .scalar .. => []
  | .transform _ _ _ _ _ samples => samples

/-- Every lane that means something is a finite number. -/
def FiniteTransform (s : Qvv) : Prop :=
  ∀ w ∈ [s.rotation.x, s.rotation.y, s.rotation.z, s.rotation.w, s.translation.x, s.translation.y, s.translation.z,
    s.scale.x, s.scale.y, s.scale.z], w.toNat / 2 ^ 23 % 256 ≠ 255

/-- A track list as the API builds them: the tracks have the type, the number of samples and the rate of the list, the
rate is positive, scalar samples have as many floats as their type, integers have 32 bits. The text of the rate gives the
rate back. -/
structure ListOk (lib : Library) (l : TrackList) : Prop where
  rate : isNotPositive l.rate = false
  text : lib.toFloat (lib.decimal l.rate) = l.rate
  samples : l.numSamples < 2 ^ 32
  uniform : ∀ t ∈ l.tracks, t.rate = l.rate ∧ t.body.numSamples = l.numSamples
  type : ∀ t ∈ l.tracks, ∀ u ∈ l.tracks, t.body.type = u.body.type
  body : ∀ t ∈ l.tracks, BodyOk t.body

/-! ## Proofs -/

theorem finiteQvv_iff (s : Qvv) : finiteQvv s = true ↔ FiniteTransform s := by
  simp only [finiteQvv, finite4, finite3, isFinite, FiniteTransform, Bool.and_eq_true, decide_eq_true_eq,
    List.forall_mem_cons, List.not_mem_nil, false_imp_iff, implies_true, and_true]
  tauto

theorem finiteBody_iff (b : Body) : finiteBody b = true ↔ ∀ s ∈ transforms b, FiniteTransform s := by
  cases b with
  | scalar => simp [finiteBody, transforms]
  | transform _ _ _ _ _ samples =>
    simp only [finiteBody, transforms, List.all_eq_true]
    exact ⟨fun h s hs => (finiteQvv_iff s).1 (h s hs), fun h s hs => (finiteQvv_iff s).2 (h s hs)⟩

theorem header_write (lib : Library) (l : TrackList) (h : ListOk lib l) (f : Fields) :
    readHeader lib (("track_list", writeHeader lib l) :: f) = .ok (⟨l.name, l.numSamples, l.rate, true⟩, f) := by
  unfold readHeader writeHeader
  rw [read_hit _ "track_list" _ asObj _ rfl]
  simp only [bind, Except.bind]
  rw [try_hit _ "name" (.str l.name) asStr l.name rfl]
  simp only
  rw [read_hit _ "num_samples" (nat l.numSamples) asNum (l.numSamples : ℚ) rfl]
  simp only [numSamplesOf, toU32_nat h.samples]
  rw [read_hit _ "sample_rate" _ asNum (lib.decimal l.rate) rfl]
  simp only [rateOf, h.text, h.rate]
  rw [try_hit _ "is_binary_exact" (.bool true) asBool true rfl]
  rfl

theorem settings_write (lib : Library) (s : Option Settings) (f : Fields) (hf : ∃ v g, f = ("tracks", v) :: g) :
    readSettings lib ((match s with | some s => [("settings", writeSettings s)] | none => []) ++ f) = .ok (s, f) := by
  cases s with
  | none =>
    obtain ⟨v, g, rfl⟩ := hf
    unfold readSettings
    simp only [List.nil_append]
    rw [try_miss _ _ _ _ _ (by decide)]
  | some s =>
    obtain ⟨inner, h1, h2⟩ := readSettingsFields_write lib s
    unfold readSettings
    simp only [List.cons_append, List.nil_append]
    rw [try_hit _ "settings" (writeSettings s) asObj inner h1]
    simp only [h2, bind, Except.bind]

/-- What comes back. -/
def readBack (l : TrackList) : TrackList :=
  ⟨l.name, l.tracks.map fun t => ⟨t.name, l.rate, backBody false t.body⟩, .clamp⟩

theorem tracks_write (lib : Library) (l : TrackList) (h : ListOk lib l) (counting : Bool) :
    readTracks lib ⟨l.name, l.numSamples, l.rate, true⟩ counting (l.tracks.map writeTrack) 0 none =
      if l.tracks.all (fun t => finiteBody t.body) then
        .ok (l.tracks.map fun t => ⟨t.name, l.rate, backBody counting t.body⟩)
      else .error .unreported := by
  cases hl : l.tracks with
  | nil => rfl
  | cons t rest =>
    refine readTracks_write lib ⟨l.name, l.numSamples, l.rate, true⟩ counting t.body.type rfl (t :: rest) 0 none
      (Or.inl rfl) ?_
    intro u hu
    rw [← hl] at hu
    exact ⟨(h.uniform u hu).2, h.body u hu, h.type u hu t (by rw [hl]; simp)⟩

theorem read_write (lib : Library) (l : TrackList) (s : Option Settings) (h : ListOk lib l) :
    readTrackList lib (writeTrackList lib l s) =
      if l.tracks.all (fun t => finiteBody t.body) then .ok (readBack l, s) else .error .unreported := by
  have hv : readVersion (writeTrackList lib l s) =
      .ok (("track_list", writeHeader lib l) ::
        ((match s with | some s => [("settings", writeSettings s)] | none => []) ++
          [("tracks", .arr (l.tracks.map writeTrack))])) := by
    unfold readVersion writeTrackList
    simp only [List.cons_append, List.nil_append]
    rw [read_hit _ "version" (nat 5) asU32 5 (asU32_nat (by decide))]
    rfl
  unfold readTrackList
  rw [hv]
  simp only [bind, Except.bind]
  rw [header_write lib l h]
  simp only
  rw [settings_write lib s _ ⟨_, _, rfl⟩]
  simp only [createTrackList]
  rw [read_hit _ "tracks" _ asArr (l.tracks.map writeTrack) rfl]
  simp only [bind, Except.bind]
  rw [tracks_write lib l h true, tracks_write lib l h false]
  by_cases hall : (l.tracks.all fun t => finiteBody t.body) = true
  · simp only [hall, if_true]
    simp only [List.length_map, lt_irrefl, if_false]
    rfl
  · simp only [hall]; rfl

theorem same_back (b : Body) (hp : isNegative (precision b) = false) : SameBody b (backBody false b) := by
  cases b with
  | scalar t p o s => exact ⟨rfl, (precisionOf_id hp).symm, rfl, rfl⟩
  | transform p o pa sh bi s =>
    refine ⟨(precisionOf_id hp).symm, rfl, rfl, rfl, ⟨rfl, ⟨rfl, rfl, rfl⟩, rfl, rfl, rfl⟩, ?_⟩
    rw [List.forall₂_map_right_iff]
    exact List.forall₂_same.2 (fun s _ => ⟨rfl, ⟨rfl, rfl, rfl⟩, rfl, rfl, rfl⟩)

/-! ## Theorems -/

/-- Every float survives: the hexadecimal text of every 32 bit pattern (NaNs, infinities and negative zeros included) is at
most 8 characters long and reads back as the same bits, whatever text follows the closing quote. -/
theorem C74_hex (w : Word) (behind : List Char) :
    (formatHex w).length ≤ 8 ∧ hexToFloat behind (formatHex w) = some w :=
  ⟨format_length w, hexToFloat_format behind w⟩

/-- Every name of an enum reads back as the value it was written for, whatever text follows the closing quote, although
the reader only compares prefixes and some names are prefixes of others ("low" and "lowest"). -/
theorem C74_names (behind : List Char) :
    (∀ l : Level, lookup levelTable (levelName l ++ '"' :: behind) = some l) ∧
    (∀ f : RotationFormat, lookup rotationTable (rotationName f ++ '"' :: behind) = some f) ∧
    (∀ f : VectorFormat, lookup vectorTable (vectorName f ++ '"' :: behind) = some f) ∧
    (∀ t : TrackType, lookup typeTable (typeName t ++ '"' :: behind) = some (some t)) :=
  ⟨fun l => lookup_level l behind, fun f => lookup_rotation f behind, fun f => lookup_vector f behind,
    fun t => lookup_type t behind⟩

/-- Writing a track list with or without settings and reading the file gives the same list (names, descriptions, rates and
samples, bit for bit) and the same settings, for every list with finite transforms and no negative precision. -/
theorem C74_round_trip (lib : Library) (l : TrackList) (s : Option Settings) (h : ListOk lib l)
    (hf : ∀ t ∈ l.tracks, ∀ q ∈ transforms t.body, FiniteTransform q)
    (hp : ∀ t ∈ l.tracks, isNegative (precision t.body) = false) :
    ∃ l', readTrackList lib (writeTrackList lib l s) = .ok (l', s) ∧ l'.name = l.name ∧
      SameTracks l.tracks l'.tracks := by
  refine ⟨readBack l, ?_, rfl, ?_⟩
  · rw [read_write lib l s h, if_pos]
    rw [List.all_eq_true]
    exact fun t ht => (finiteBody_iff t.body).2 (hf t ht)
  · unfold SameTracks readBack
    rw [List.forall₂_map_right_iff]
    rw [List.forall₂_same]
    exact fun t ht => ⟨rfl, (h.uniform t ht).1, same_back t.body (hp t ht)⟩

/-- What a track keeps when its precision is negative: the file gives the default precision instead. -/
theorem C74_negative_precision_finding (lib : Library) (l : TrackList) (s : Option Settings) (h : ListOk lib l)
    (hf : ∀ t ∈ l.tracks, ∀ q ∈ transforms t.body, FiniteTransform q) :
    ∃ l', readTrackList lib (writeTrackList lib l s) = .ok (l', s) ∧
      List.Forall₂ (fun t t' => precision t'.body =
        if isNegative (precision t.body) then defaultPrecision t.body else precision t.body) l.tracks l'.tracks := by
  refine ⟨readBack l, ?_, ?_⟩
  · rw [read_write lib l s h, if_pos]
    rw [List.all_eq_true]
    exact fun t ht => (finiteBody_iff t.body).2 (hf t ht)
  · unfold readBack
    rw [List.forall₂_map_right_iff, List.forall₂_same]
    intro t _
    cases t with | mk name rate body => cases body <;> rfl

/-- A list with a single transform that is not finite is written without an error but its file cannot be read, and the
reader reports no error for it. Scalar tracks have no such test. -/
theorem C74_non_finite_finding (lib : Library) (l : TrackList) (s : Option Settings) (h : ListOk lib l)
    (hf : ∃ t ∈ l.tracks, ∃ q ∈ transforms t.body, ¬ FiniteTransform q) :
    readTrackList lib (writeTrackList lib l s) = .error .unreported := by
  rw [read_write lib l s h, if_neg]
  rw [List.all_eq_true]
  intro hall
  obtain ⟨t, ht, q, hq, hn⟩ := hf
  exact hn ((finiteBody_iff t.body).1 (hall t ht) q hq)

/-- The fourth lanes of translations and scales are not those of the list: the reader converts a fourth string that it
did not read, that of the rotation. -/
theorem C74_stale_lane_finding (lib : Library) (l : TrackList) (s : Option Settings) (h : ListOk lib l)
    (hf : ∀ t ∈ l.tracks, ∀ q ∈ transforms t.body, FiniteTransform q) :
    ∃ l', readTrackList lib (writeTrackList lib l s) = .ok (l', s) ∧
      ∀ t ∈ l'.tracks, ∀ q ∈ transforms t.body, q.translation.w = q.rotation.w ∧ q.scale.w = q.rotation.w := by
  refine ⟨readBack l, ?_, ?_⟩
  · rw [read_write lib l s h, if_pos]
    rw [List.all_eq_true]
    exact fun t ht => (finiteBody_iff t.body).2 (hf t ht)
  · intro t ht q hq
    simp only [readBack, List.mem_map] at ht
    obtain ⟨u, _, rfl⟩ := ht
    cases hb : u.body with
    | scalar => simp only [hb, backBody, transforms, List.not_mem_nil] at hq
    | transform p o pa sh bi samples =>
      simp only [hb, backBody, transforms, List.mem_map] at hq
      obtain ⟨r, _, rfl⟩ := hq
      exact ⟨rfl, rfl⟩

/-- The looping policy of a list is not written: every list that is read clamps. -/
theorem C74_looping_finding (lib : Library) (f : Fields) (l : TrackList) (s : Option Settings)
    (h : readTrackList lib f = .ok (l, s)) : l.looping = .clamp := by
  unfold readTrackList createTrackList at h
  simp only [bind, Except.bind] at h
  repeat' split at h
  all_goals try cases h
  all_goals
    rename_i hc _ _ _
    repeat' split at hc
    all_goals try cases hc
    all_goals rfl

/-! ## Every file -/

/-- The floats of a scalar sample. -/
def scalars : Body → List (List Word)
  | .scalar _ _ _ samples => samples
  | .transform .. => []

/-- How many floats a sample of a scalar track has. -/
def width : Body → Nat
  | .scalar type _ _ _ => type.components
  | .transform .. => 0

theorem mapM_length {α β : Type} {g : α → Option β} : ∀ {l : List α} {r : List β}, l.mapM g = some r → r.length = l.length := by
  intro l
  induction l with
  | nil => intro r h; simp only [List.mapM_nil] at h; cases h; rfl
  | cons a l ih =>
    intro r h
    rw [List.mapM_cons] at h
    cases ha : g a with
    | none => rw [ha] at h; cases h
    | some b =>
      rw [ha] at h
      cases hl : l.mapM g with
      | none => rw [hl] at h; cases h
      | some r' =>
        rw [hl] at h
        cases h
        simp [ih hl]

theorem asStrs_length {n : Nat} {v : Val} {l : List (List Char)} (h : asStrs n v = some l) : l.length = n := by
  unfold asStrs at h
  cases ha : asArr v with
  | none => rw [ha] at h; cases h
  | some items =>
    rw [ha, Option.bind_some] at h
    split at h
    · rename_i hn; rw [mapM_length h, hn]
    · cases h

theorem asNums_length {n : Nat} {v : Val} {l : List ℚ} (h : asNums n v = some l) : l.length = n := by
  unfold asNums at h
  cases ha : asArr v with
  | none => rw [ha] at h; cases h
  | some items =>
    rw [ha, Option.bind_some] at h
    split at h
    · rename_i hn; rw [mapM_length h, hn]
    · cases h

theorem hexToFloats_length {lib : Library} {l : List (List Char)} {r : List Word} (h : hexToFloats lib l = .ok r) :
    r.length = l.length := by
  unfold hexToFloats at h
  cases hm : l.mapM (fun s => hexToFloat (lib.behind s) s) with
  | none => rw [hm] at h; cases h
  | some r' => rw [hm] at h; cases h; exact mapM_length hm

theorem readScalar_length {lib : Library} {exact : Bool} {n : Nat} {v : Val} {r : List Word}
    (h : readScalar lib exact n v = .ok r) : r.length = n := by
  unfold readScalar at h
  cases exact
  · cases ha : asNums n v with
    | none => rw [ha] at h; cases h
    | some l =>
      rw [ha] at h
      cases h
      rw [List.length_map]; exact asNums_length ha
  · cases ha : asStrs n v with
    | none => rw [ha] at h; cases h
    | some l =>
      rw [ha] at h
      exact (hexToFloats_length h).trans (asStrs_length ha)

theorem check_ok {b : Bool} {u : Unit} (h : check b = .ok u) : b = true := by
  unfold check at h
  cases b
  · cases h
  · rfl

theorem readTransform_finite {lib : Library} {exact : Bool} {v : Val} {q : Qvv}
    (h : readTransform lib exact v = .ok q) : FiniteTransform q := by
  rw [← finiteQvv_iff]
  unfold readTransform at h
  simp only [bind, Except.bind] at h
  split at h
  · cases h
  · rename_i items _
    unfold readQvv at h
    split at h
    swap
    · cases h
    simp only [bind, Except.bind] at h
    repeat' split at h
    all_goals try cases h
    unfold finiteQvv
    rename_i h1 _ _ _ _ _ h2 _ _ _ _ _ h3
    simp only [check_ok h1, check_ok h2, check_ok h3, Bool.and_true]

theorem readSamples_spec {α : Type} {one : Val → Except Error α} {P : α → Prop} (hP : ∀ v a, one v = .ok a → P a) :
    ∀ {n : Nat} {l : List Val} {r : List α}, readSamples one n l = .ok r → r.length = n ∧ ∀ a ∈ r, P a := by
  intro n
  induction n with
  | zero =>
    intro l r h
    cases l with
    | nil => cases h; simp
    | cons _ _ => cases h
  | succ n ih =>
    intro l r h
    cases l with
    | nil => cases h
    | cons v l =>
      simp only [readSamples, bind, Except.bind] at h
      cases hv : one v with
      | error e => rw [hv] at h; cases h
      | ok a =>
        rw [hv] at h
        cases hl : readSamples one n l with
        | error e => rw [hl] at h; cases h
        | ok r' =>
          rw [hl] at h
          cases h
          obtain ⟨h1, h2⟩ := ih hl
          exact ⟨by simp [h1], fun b hb => by
            rcases List.mem_cons.1 hb with rfl | hb
            · exact hP _ _ hv
            · exact h2 b hb⟩

/-- What holds of every track that is read. -/
def ReadOk (h : Header) (type : TrackType) (b : Body) : Prop :=
  b.type = type ∧ b.numSamples = h.numSamples ∧ isNegative (precision b) = false ∧
    (∀ q ∈ transforms b, FiniteTransform q) ∧ ∀ x ∈ scalars b, x.length = width b

theorem precisionOf_ok {d p : Word} (hd : isNegative d = false) : isNegative (precisionOf d p) = false := by
  unfold precisionOf
  by_cases hp : isNegative p = true
  · rw [if_pos hp]; exact hd
  · rw [if_neg hp]; simpa using hp

theorem readData_spec {lib : Library} {h : Header} {type : TrackType} {p : Word} {o pa : Nat} {sh : Word} {bi : Qvv}
    {data : List Val} {b : Body} (hb : readData lib h type p o pa sh bi data = .ok b) : ReadOk h type b := by
  unfold readData at hb
  cases hs : scalarOf type with
  | some st =>
    rw [hs] at hb
    simp only [bind, Except.bind] at hb
    split at hb
    · cases hb
    · rename_i r hr
      cases hb
      obtain ⟨h1, h2⟩ := readSamples_spec (P := fun x => x.length = st.components) (fun v a hv => readScalar_length hv) hr
      refine ⟨?_, h1, precisionOf_ok (by decide), ?_, h2⟩
      · cases type <;> cases hs <;> rfl
      · intro q hq; simp [transforms] at hq
  | none =>
    rw [hs] at hb
    simp only [bind, Except.bind] at hb
    split at hb
    · cases hb
    · rename_i r hr
      cases hb
      obtain ⟨h1, h2⟩ := readSamples_spec (P := FiniteTransform) (fun v a hv => readTransform_finite hv) hr
      refine ⟨?_, h1, precisionOf_ok (by decide), h2, ?_⟩
      · cases type <;> cases hs; rfl
      · intro q hq; simp [scalars] at hq

theorem readBody_spec {lib : Library} {h : Header} {counting : Bool} {i : Nat} {type : TrackType} {f : Fields} {b : Body}
    (hb : readBody lib h counting i type f = .ok b) : ReadOk h type b := by
  unfold readBody at hb
  simp only [bind, Except.bind] at hb
  repeat' split at hb
  all_goals try cases hb
  exact readData_spec (by assumption)

theorem readTrack_spec {lib : Library} {h : Header} {counting : Bool} {i : Nat} {first : Option TrackType} {v : Val}
    {t : Io.Track} (ht : readTrack lib h counting i first v = .ok t) :
    t.rate = h.rate ∧ (first = none ∨ first = some t.body.type) ∧ ReadOk h t.body.type t.body := by
  unfold readTrack at ht
  simp only [bind, Except.bind] at ht
  repeat' split at ht
  all_goals try cases ht
  rename_i htype _ _ hb
  have hspec := readBody_spec hb
  refine ⟨rfl, ?_, ?_⟩
  · rw [hspec.1]
    unfold readType at htype
    repeat' split at htype
    all_goals try cases htype
    · left; rfl
    · rename_i h1; right; rw [h1]
  · exact hspec.1 ▸ hspec

theorem readTracks_spec {lib : Library} {h : Header} {counting : Bool} :
    ∀ {items : List Val} {i : Nat} {first : Option TrackType} {l : List Io.Track},
      readTracks lib h counting items i first = .ok l →
      l.length = items.length ∧ (∃ type, (first = none ∨ first = some type) ∧ ∀ t ∈ l, t.rate = h.rate ∧ ReadOk h type t.body) := by
  intro items
  induction items with
  | nil =>
    intro i first l hl
    cases hl
    refine ⟨rfl, first.getD .float1f, ?_, by simp⟩
    cases first
    · left; rfl
    · right; rfl
  | cons v items ih =>
    intro i first l hl
    simp only [readTracks, bind, Except.bind] at hl
    split at hl
    · cases hl
    rename_i t ht
    split at hl
    · cases hl
    rename_i rest hrest
    cases hl
    obtain ⟨h1, h2, h3⟩ := readTrack_spec ht
    obtain ⟨hlen, type, hfirst, hall⟩ := ih hrest
    have htype : type = t.body.type := by
      rcases hfirst with hfirst | hfirst
      · cases hfirst
      · rcases h2 with h2 | h2
        · subst h2; cases hfirst; rfl
        · subst h2; cases hfirst; rfl
    refine ⟨by simp [hlen], t.body.type, h2, ?_⟩
    intro u hu
    rcases List.mem_cons.1 hu with rfl | hu
    · exact ⟨h1, h3⟩
    · rw [← htype]; exact hall u hu

theorem rateOf_ok {lib : Library} {q : ℚ} {w : Word} (h : rateOf lib q = .ok w) : isNotPositive w = false := by
  unfold rateOf at h
  split at h
  · cases h
  · rename_i hn; cases h; simpa using hn

/-- Whatever the file holds, a list that is read is uniform: all tracks have the type, the rate and the number of samples
of the first one, the rate is positive, no precision is negative, every transform is finite, every scalar sample has the
number of floats of its type. -/
theorem C74_accepted (lib : Library) (f : Fields) (l : TrackList) (s : Option Settings)
    (h : readTrackList lib f = .ok (l, s)) :
    ∀ t ∈ l.tracks, isNotPositive t.rate = false ∧ isNegative (precision t.body) = false ∧
      (∀ q ∈ transforms t.body, FiniteTransform q) ∧ (∀ x ∈ scalars t.body, x.length = width t.body) ∧
      ∀ u ∈ l.tracks, t.rate = u.rate ∧ t.body.type = u.body.type ∧ t.body.numSamples = u.body.numSamples := by
  unfold readTrackList at h
  simp only [bind, Except.bind] at h
  split at h
  · cases h
  split at h
  · cases h
  rename_i hdr hhdr
  split at h
  · cases h
  split at h
  · cases h
  rename_i lst hlst
  split at h
  · cases h
  cases h
  have hrate : isNotPositive hdr.1.rate = false := by
    unfold readHeader at hhdr
    simp only [bind, Except.bind] at hhdr
    repeat' split at hhdr
    all_goals try cases hhdr
    exact rateOf_ok (by assumption)
  unfold createTrackList at hlst
  simp only [bind, Except.bind] at hlst
  repeat' split at hlst
  all_goals try cases hlst
  rename_i tracks htracks _
  obtain ⟨-, type, -, hall⟩ := readTracks_spec (counting := false) (by assumption)
  intro t ht
  obtain ⟨h1, h2, h3, h4, h5, h6⟩ := hall t ht
  refine ⟨by rw [h1]; exact hrate, h4, h5, h6, ?_⟩
  intro u hu
  obtain ⟨g1, g2, g3, -⟩ := hall u hu
  exact ⟨by rw [h1, g1], by rw [h2, g2], by rw [h3, g3]⟩

/-! ## The array the tracks are written to -/

/-- No track is written outside of the array. -/
structure Safe {α : Type} (x : Except Error α) : Prop where
  ne : x ≠ .error .outOfBounds

theorem safe_bind {α β : Type} {x : Except Error α} {f : α → Except Error β} (hx : Safe x) (hf : ∀ a, Safe (f a)) :
    Safe (x >>= f) := by
  cases x with
  | error e => constructor; intro h; exact hx.ne (by cases h; rfl)
  | ok a => exact hf a

theorem safe_ok {α : Type} (a : α) : Safe (.ok a : Except Error α) := by constructor; intro h; cases h

theorem safe_read {α : Type} (f : Fields) (key : String) (conv : Val → Option α) : Safe (Io.read f key conv) := by
  unfold Io.read
  repeat' split
  all_goals constructor; intro h; cases h

theorem safe_ends (f : Fields) : Safe (ends f) := by
  unfold ends; split <;> (constructor; intro h; cases h)

theorem safe_orAssert {α : Type} (x : Option α) : Safe (orAssert x) := by cases x <;> (constructor; intro h; cases h)
theorem safe_orSyntax {α : Type} (x : Option α) : Safe (orSyntax x) := by cases x <;> (constructor; intro h; cases h)
theorem safe_check (b : Bool) : Safe (check b) := by cases b <;> (constructor; intro h; cases h)
theorem safe_hex (lib : Library) (l : List (List Char)) : Safe (hexToFloats lib l) := safe_orAssert _

theorem safe_optional (lib : Library) (exact : Bool) (f : Fields) (key : String) (d : Word) :
    Safe (readOptionalFloat lib exact f key d) := by
  unfold readOptionalFloat
  repeat' split
  · exact safe_bind (safe_orAssert _) (fun _ => safe_ok _)
  all_goals exact safe_ok _

theorem safe_bindPart (lib : Library) (exact counting : Bool) (f : Fields) (key : String) (n : Nat) (post : Vec4 → Vec4)
    (d : Vec4) : Safe (readBindPart lib exact counting f key n post d) := by
  unfold readBindPart
  repeat' split
  all_goals first | exact safe_ok _ | exact safe_bind (safe_hex _ _) (fun _ => safe_ok _)

theorem safe_part (lib : Library) (exact : Bool) (n : Nat) (stale : List (List Char)) (v : Val) :
    Safe (readPart lib exact n stale v) := by
  unfold readPart
  split
  · exact safe_bind (safe_orSyntax _) (fun _ => safe_bind (safe_hex _ _) (fun _ => safe_ok _))
  · exact safe_bind (safe_orSyntax _) (fun _ => safe_ok _)

theorem safe_transform (lib : Library) (exact : Bool) (v : Val) : Safe (readTransform lib exact v) := by
  refine safe_bind (safe_orSyntax _) (fun items => ?_)
  unfold readQvv
  split
  · exact safe_bind (safe_part ..) fun _ => safe_bind (safe_check _) fun _ => safe_bind (safe_part ..) fun _ =>
      safe_bind (safe_check _) fun _ => safe_bind (safe_part ..) fun _ => safe_bind (safe_check _) fun _ => safe_ok _
  · constructor; intro h; cases h

theorem safe_scalar (lib : Library) (exact : Bool) (n : Nat) (v : Val) : Safe (readScalar lib exact n v) := by
  unfold readScalar
  split
  · exact safe_bind (safe_orSyntax _) (fun _ => safe_hex _ _)
  · exact safe_bind (safe_orSyntax _) (fun _ => safe_ok _)

theorem safe_samples {α : Type} {one : Val → Except Error α} (h : ∀ v, Safe (one v)) :
    ∀ (n : Nat) (l : List Val), Safe (readSamples one n l) := by
  intro n
  induction n with
  | zero => intro l; cases l <;> (constructor; intro h; cases h)
  | succ n ih =>
    intro l
    cases l with
    | nil => constructor; intro h; cases h
    | cons v l => exact safe_bind (h v) fun _ => safe_bind (ih l) fun _ => safe_ok _

theorem safe_data (lib : Library) (h : Header) (type : TrackType) (p : Word) (o pa : Nat) (sh : Word) (bi : Qvv)
    (data : List Val) : Safe (readData lib h type p o pa sh bi data) := by
  unfold readData
  split
  · exact safe_bind (safe_samples (safe_scalar _ _ _) _ _) fun _ => safe_ok _
  · exact safe_bind (safe_samples (safe_transform _ _) _ _) fun _ => safe_ok _

theorem safe_body (lib : Library) (h : Header) (counting : Bool) (i : Nat) (type : TrackType) (f : Fields) :
    Safe (readBody lib h counting i type f) :=
  safe_bind (safe_optional ..) fun _ => safe_bind (safe_optional ..) fun _ => safe_bind (safe_optional ..) fun _ =>
    safe_bind (safe_optional ..) fun _ => safe_bind (safe_optional ..) fun _ => safe_bind (safe_optional ..) fun _ =>
    safe_bind (safe_bindPart ..) fun _ => safe_bind (safe_bindPart ..) fun _ => safe_bind (safe_bindPart ..) fun _ =>
    safe_bind (safe_read ..) fun _ => safe_bind (safe_data ..) fun _ => safe_bind (safe_ends _) fun _ => safe_ok _

theorem safe_type (lib : Library) (first : Option TrackType) (name : List Char) : Safe (readType lib first name) := by
  unfold readType
  repeat' split
  all_goals constructor; intro h; cases h

theorem safe_track (lib : Library) (h : Header) (counting : Bool) (i : Nat) (first : Option TrackType) (v : Val) :
    Safe (readTrack lib h counting i first v) :=
  safe_bind (safe_orSyntax _) fun _ => safe_bind (safe_read ..) fun _ => safe_bind (safe_type ..) fun _ =>
    safe_bind (safe_body ..) fun _ => safe_ok _

theorem safe_tracks (lib : Library) (h : Header) (counting : Bool) : ∀ (l : List Val) (i : Nat) (first : Option TrackType),
    Safe (readTracks lib h counting l i first) := by
  intro l
  induction l with
  | nil => intro _ _; exact safe_ok _
  | cons v l ih => intro i first; exact safe_bind (safe_track ..) fun _ => safe_bind (ih _ _) fun _ => safe_ok _

theorem safe_version (f : Fields) : Safe (readVersion f) := by
  refine safe_bind (safe_read ..) fun a => ?_
  obtain ⟨v, f⟩ := a
  simp only
  split <;> (constructor; intro h; cases h)

theorem safe_header (lib : Library) (f : Fields) : Safe (readHeader lib f) := by
  refine safe_bind (safe_read ..) fun _ => safe_bind (safe_read ..) fun _ => safe_bind ?_ fun _ =>
    safe_bind (safe_read ..) fun _ => safe_bind ?_ fun _ => safe_bind (safe_ends _) fun _ => safe_ok _
  · unfold numSamplesOf; split <;> (constructor; intro h; cases h)
  · unfold rateOf; split <;> (constructor; intro h; cases h)

theorem safe_settings (lib : Library) (f : Fields) : Safe (readSettings lib f) := by
  unfold readSettings
  split
  · exact safe_ok _
  · refine safe_bind (safe_bind ?_ fun _ => safe_bind (safe_ends _) fun _ => ?_) fun _ => safe_ok _
    · unfold skipSegmenting
      split
      · exact safe_ok _
      · exact safe_bind (safe_ends _) fun _ => safe_ok _
    · split <;> (constructor; intro h; cases h)

/-- Whatever the file holds, the second pass over the tracks never writes outside of the array that the first pass
counted. -/
theorem C74_in_bounds (lib : Library) (f : Fields) : readTrackList lib f ≠ .error .outOfBounds := by
  refine Safe.ne (?_ : Safe (readTrackList lib f))
  refine safe_bind (safe_version f) fun f => safe_bind (safe_header lib f) fun hf => safe_bind (safe_settings lib _) fun _ =>
    safe_bind ?_ fun _ => safe_bind (safe_ends _) fun _ => safe_ok _
  unfold createTrackList
  constructor
  intro h
  simp only [bind, Except.bind] at h
  split at h
  · rename_i e he; cases h; exact (safe_read _ _ _).ne he
  rename_i items hitems
  split at h
  · rename_i e he; cases h; exact (safe_tracks _ _ _ _ _ _).ne he
  rename_i counted hcounted
  split at h
  · rename_i he; cases he
  rename_i again hagain
  cases hagain
  split at h
  · rename_i e he; cases h; exact (safe_tracks _ _ _ _ _ _).ne he
  rename_i tracks htracks
  have h1 := (readTracks_spec hcounted).1
  have h2 := (readTracks_spec htracks).1
  rw [if_neg (by omega)] at h
  cases h

/-! ## What a file cannot hold -/

/-- A list without tracks has a sample rate of 0: its file is refused. -/
theorem C74_empty_finding (lib : Library) (name : List Char) (p : Acl.Interp.Looping) (s : Option Settings)
    (h0 : lib.toFloat (lib.decimal 0) = 0) :
    readTrackList lib (writeTrackList lib ⟨name, [], p⟩ s) = .error .positiveValueExpected := by
  have hv : readVersion (writeTrackList lib ⟨name, [], p⟩ s) =
      .ok (("track_list", writeHeader lib ⟨name, [], p⟩) ::
        ((match s with | some s => [("settings", writeSettings s)] | none => []) ++ [("tracks", .arr [])])) := by
    unfold readVersion writeTrackList
    simp only [List.cons_append, List.nil_append]
    rw [read_hit _ "version" (nat 5) asU32 5 (asU32_nat (by decide))]
    rfl
  unfold readTrackList
  rw [hv]
  simp only [bind, Except.bind]
  have hh : ∀ f, readHeader lib (("track_list", writeHeader lib ⟨name, [], p⟩) :: f) = .error .positiveValueExpected := by
    intro f
    unfold readHeader writeHeader
    rw [read_hit _ "track_list" _ asObj _ rfl]
    simp only [bind, Except.bind]
    rw [try_hit _ "name" (.str name) asStr name rfl]
    simp only [TrackList.numSamples, TrackList.rate]
    rw [read_hit _ "num_samples" (nat 0) asNum ((0 : Nat) : ℚ) rfl]
    simp only [numSamplesOf, toU32_nat (show 0 < 2 ^ 32 by decide)]
    rw [read_hit _ "sample_rate" _ asNum (lib.decimal 0) rfl]
    simp only [rateOf, h0]
    rfl
  rw [hh]

/-- A name that only starts like a known one is accepted as that one: "lowish" is the level "low", "qvvfoo" a transform
track. -/
theorem C74_prefix_finding (behind : List Char) :
    lookup levelTable ("lowish".toList ++ '"' :: behind) = some .low ∧
    lookup typeTable ("qvvfoo".toList ++ '"' :: behind) = some (some .qvvf) := by
  rw [lookup_quote _ _ _ (no_quote (by decide +kernel)), lookup_quote _ _ _ (no_quote (by decide +kernel))]
  exact ⟨by decide +kernel, by decide +kernel⟩

/-- A file with a track of a type that no track has ("quatf") runs into an assertion instead of an error. -/
theorem C74_type_finding (lib : Library) :
    readType lib none "quatf".toList = .error .assertion := by
  unfold readType
  rw [lookup_quote _ _ _ (no_quote (by decide +kernel))]
  have : lookup typeTable "quatf".toList = some none := by decide +kernel
  rw [this]

/-! ## Examples -/

/-- A library that prints the bits as a number, with a quote and digits behind every string. -/
def exLib : Library where
  decimal := fun w => w.toNat
  toFloat := fun q => BitVec.ofNat 32 q.num.toNat
  behind := fun _ => "ABC]".toList
  normalize := id

/-- Two transforms: 1.0 and NaN free bits with zeros, negative zeros and denormals. -/
def exList : TrackList where
  name := "walk".toList
  looping := .wrap
  tracks := [
    ⟨"root".toList, 0x41F00000, .transform 0x3C23D70A 0 (2 ^ 32 - 1) 0x40400000 identity
      [⟨⟨0, 0x80000000, 1, 0x3F800000⟩, ⟨0xC0490FDB, 0, 0, 7⟩, ⟨0x3F800000, 0x3F800000, 0x3F800000, 0⟩⟩,
       ⟨⟨0, 0, 0x3F3504F3, 0x3F3504F3⟩, ⟨0x7F7FFFFF, 0, 0, 0⟩, ⟨0x3F800000, 0x3F800000, 0x3F800000, 0⟩⟩]⟩,
    ⟨"hand".toList, 0x41F00000, .transform 0x3C23D70A 1 0 0x40400000 identity
      [⟨⟨0, 0, 0, 0x3F800000⟩, ⟨0, 0, 0, 0⟩, ⟨0x3F800000, 0x3F800000, 0x3F800000, 0⟩⟩,
       ⟨⟨0, 0, 0, 0xBF800000⟩, ⟨0, 0, 0, 0⟩, ⟨0x3F800000, 0x3F800000, 0x3F800000, 0⟩⟩]⟩]

example : ListOk exLib exList where
  rate := by decide +kernel
  text := by decide +kernel
  samples := by decide +kernel
  uniform := by decide +kernel
  type := by decide +kernel
  body := by
    intro t ht
    simp only [exList, List.mem_cons, List.not_mem_nil, or_false] at ht
    rcases ht with rfl | rfl <;> exact ⟨by norm_num, by norm_num⟩

example : ∀ t ∈ exList.tracks, ∀ q ∈ transforms t.body, FiniteTransform q := by
  intro t ht
  rw [← finiteBody_iff]
  revert t
  decide +kernel

example : ∀ t ∈ exList.tracks, isNegative (precision t.body) = false := by decide +kernel

example : formatHex 0x3F800000 = "3F800000".toList ∧ formatHex 0xA = "A".toList ∧ formatHex 0 = "0".toList := by
  refine ⟨?_, ?_, ?_⟩ <;> (unfold formatHex; simp [hexDigits, digitChar]; try decide)

end Acl.C74
