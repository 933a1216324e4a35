import Verif.Io.Names
/-!
# C91: enumerations and their names

Model: Verif/Io/Names.lean.
-/
namespace Acl.C91
open Acl.Io (startsWith)
open Acl.Io.Names

/-- Specification: the string starts with a name of the value, and with no longer name. -/
def Means (names : List (String × Nat)) (s : List Char) (value : Nat) : Prop :=
  ∃ name, (name, value) ∈ names ∧ name.toList <+: s ∧ ∀ other ∈ names, other.1.toList <+: s → other.1.toList.length ≤ name.toList.length

/-- Specification: the names and values of compression_level8. -/
def levels : List (String × Nat) :=
  [("lowest", 0), ("low", 1), ("medium", 2), ("high", 3), ("highest", 4), ("automatic", 100),
    ("Lowest", 0), ("Low", 1), ("Medium", 2), ("High", 3), ("Highest", 4)]
/-- Specification: of rotation_format8. -/
def rotations : List (String × Nat) :=
  [("quatf_full", 0), ("quatf_drop_w_full", 2), ("quatf_drop_w_variable", 3), ("Quat_128", 0), ("QuatDropW_96", 2), ("QuatDropW_Variable", 3)]
/-- Specification: of vector_format8. -/
def vectors : List (String × Nat) := [("vector3f_full", 0), ("vector3f_variable", 1), ("Vector3_96", 0), ("Vector3_Variable", 1)]
/-- Specification: of algorithm_type8. -/
def algorithms : List (String × Nat) := [("uniformly_sampled", 0), ("UniformlySampled", 0)]
/-- Specification: of additive_clip_format8. -/
def additives : List (String × Nat) :=
  [("none", 0), ("relative", 1), ("additive0", 2), ("additive1", 3), ("None", 0), ("Relative", 1), ("Additive0", 2), ("Additive1", 3)]
/-- Specification: of track_type8, with those that are not supported. -/
def types : List (String × Nat) :=
  [("float1f", 0), ("float2f", 1), ("float3f", 2), ("float4f", 3), ("vector4f", 4), ("qvvf", 12),
    ("float1d", 5), ("float2d", 6), ("float3d", 7), ("float4d", 8), ("vector4d", 9), ("quatf", 10), ("quatd", 11)]

/-- Specification: what a function that reads a name does: success and what is stored. -/
def Reads (f : Option (List Char) → Nat → Bool × Nat) (names : List (String × Nat)) : Prop :=
  (∀ out, f none out = (false, out)) ∧
    ∀ s out, (∃ value, Means names s value ∧ f (some s) out = (true, value)) ∨
      ((∀ name ∈ names, ¬ name.1.toList <+: s) ∧ f (some s) out = (false, out))

/-- The tests, one by one. -/
def flat (tests : List (List (List Char) × Nat)) : List (List Char × Nat) := tests.flatMap fun t => t.1.map fun n => (n, t.2)

/-- Each name is tested before the names it starts with. -/
def Ordered (tests : List (List (List Char) × Nat)) : Prop := (flat tests).Pairwise fun a b => a.1 <+: b.1 → a = b

instance (tests : List (List (List Char) × Nat)) : Decidable (Ordered tests) := by unfold Ordered; infer_instance

theorem parse_find (s : List Char) (out : Nat) : ∀ tests : List (List (List Char) × Nat),
    parse tests (some s) out = match (flat tests).find? fun e => startsWith e.1 s with | some e => (true, e.2) | none => (false, out)
  | [] => rfl
  | (names, value) :: rest => by
    have hf : flat ((names, value) :: rest) = (names.map fun n => (n, value)) ++ flat rest := rfl
    have hp : parse ((names, value) :: rest) (some s) out =
        if names.any (fun n => startsWith n s) then (true, value) else parse rest (some s) out := rfl
    rw [hf, hp, List.find?_append, parse_find s out rest]
    cases hn : (names.map fun n => (n, value)).find? (fun e => startsWith e.1 s) with
    | none =>
      have : ¬ names.any (fun n => startsWith n s) = true := by
        intro h
        obtain ⟨n, hm, hs⟩ := List.any_eq_true.mp h
        exact absurd hs (List.find?_eq_none.mp hn (n, value) (List.mem_map.mpr ⟨n, hm, rfl⟩))
      rw [if_neg this]
      rfl
    | some e =>
      obtain ⟨n, hm, rfl⟩ := List.mem_map.mp (List.mem_of_find?_eq_some hn)
      have hs := List.find?_some hn
      rw [if_pos (List.any_eq_true.mpr ⟨n, hm, hs⟩)]
      rfl

/-- When names are tested before those they start with, what is read is the value of the longest name. -/
theorem reads (tests : List (List (List Char) × Nat)) (names : List (String × Nat)) (ho : Ordered tests)
    (hm : ∀ e, e ∈ flat tests ↔ e ∈ names.map fun n => (n.1.toList, n.2)) : Reads (parse tests) names := by
  refine ⟨fun out => by cases tests <;> rfl, fun s out => ?_⟩
  rw [parse_find]
  cases h : (flat tests).find? (fun e => startsWith e.1 s) with
  | none =>
    right
    refine ⟨?_, rfl⟩
    intro n hn hs
    exact List.find?_eq_none.mp h (n.1.toList, n.2) ((hm _).2 (List.mem_map.mpr ⟨n, hn, rfl⟩)) (List.isPrefixOf_iff_prefix.mpr hs)
  | some e =>
    left
    obtain ⟨hs, before, after, he, hb⟩ := List.find?_eq_some_iff_append.mp h
    refine ⟨e.2, ?_, rfl⟩
    have hs' : e.1 <+: s := List.isPrefixOf_iff_prefix.mp hs
    obtain ⟨n, hn, hne⟩ := List.mem_map.mp ((hm e).1 (by rw [he]; simp))
    subst hne
    refine ⟨n.1, hn, hs', ?_⟩
    intro o hO hos
    have hof : (o.1.toList, o.2) ∈ flat tests := (hm _).2 (List.mem_map.mpr ⟨o, hO, rfl⟩)
    by_contra hc
    push Not at hc
    rw [he] at hof
    rcases List.mem_append.mp hof with hof | hof
    · have := hb _ hof
      simp only [startsWith, Bool.not_eq_true', Bool.not_eq_true] at this
      rw [List.isPrefixOf_iff_prefix.mpr hos] at this
      cases this
    · rcases List.mem_cons.mp hof with heq | hof
      · have := congrArg (fun e : List Char × Nat => e.1.length) heq
        dsimp only at this
        omega
      · unfold Ordered at ho
        rw [he, List.pairwise_append] at ho
        have hp := (List.pairwise_cons.mp ho.2.1).1 _ hof
        have := congrArg (fun e : List Char × Nat => e.1.length) (hp (List.prefix_of_prefix_length_le hs' hos hc.le))
        dsimp only at this
        omega

theorem same {α : Type} {a b : List α} (h1 : ∀ e ∈ a, e ∈ b) (h2 : ∀ e ∈ b, e ∈ a) : ∀ e, e ∈ a ↔ e ∈ b := fun e => ⟨h1 e, h2 e⟩

/-- Each function reads the value of the longest name the string starts with, old names included; otherwise it fails, and stores nothing. -/
theorem C91_reads : Reads getLevel levels ∧ Reads getRotation rotations ∧ Reads getVector vectors ∧ Reads getAlgorithm algorithms ∧
    Reads getAdditive additives ∧ Reads getType types := by
  refine ⟨reads _ _ (by decide +kernel) (same (by decide +kernel) (by decide +kernel)),
    reads _ _ (by decide +kernel) (same (by decide +kernel) (by decide +kernel)),
    reads _ _ (by decide +kernel) (same (by decide +kernel) (by decide +kernel)),
    reads _ _ (by decide +kernel) (same (by decide +kernel) (by decide +kernel)),
    reads _ _ (by decide +kernel) (same (by decide +kernel) (by decide +kernel)),
    reads _ _ (by decide +kernel) (same (by decide +kernel) (by decide +kernel))⟩

/-- Specification: a name that is written is read as the value it was written for; what is not a value has a name that is not read. -/
def RoundTrips (name : Nat → List Char) (f : Option (List Char) → Nat → Bool × Nat) (values : List Nat) : Prop :=
  ∀ v out, (v ∈ values → f (some (name v)) out = (true, v)) ∧ (v ∉ values → f (some (name v)) out = (false, out))

theorem parse_value {tests : List (List (List Char) × Nat)} {s : List Char} {v : Nat} (out : Nat)
    (h : ((flat tests).find? fun e => startsWith e.1 s).map (·.2) = some v) : parse tests (some s) out = (true, v) := by
  rw [parse_find]
  cases hf : (flat tests).find? fun e => startsWith e.1 s with
  | none => rw [hf] at h; cases h
  | some e =>
    rw [hf] at h
    have : e.2 = v := by simpa using h
    subst this
    rfl

theorem roundTrips (name : Nat → List Char) (tests : List (List (List Char) × Nat)) (values : List Nat)
    (h1 : ∀ v ∈ values, ((flat tests).find? fun e => startsWith e.1 (name v)).map (·.2) = some v)
    (h2 : ∀ v, v ∉ values → name v = "<Invalid>".toList) (h3 : ((flat tests).find? fun e => startsWith e.1 "<Invalid>".toList) = none) :
    RoundTrips name (parse tests) values := by
  intro v out
  refine ⟨fun h => ?_, fun h => ?_⟩
  · exact parse_value out (h1 v h)
  · rw [parse_find, h2 v h, h3]

/-- Names that are written are read back. -/
theorem C91_round_trip : RoundTrips levelName getLevel [0, 1, 2, 3, 4, 100] ∧ RoundTrips rotationName getRotation [0, 2, 3] ∧
    RoundTrips algorithmName getAlgorithm [0] ∧ RoundTrips additiveName getAdditive [0, 1, 2, 3] ∧
    RoundTrips typeName getType [0, 1, 2, 3, 4, 12] := by
  refine ⟨roundTrips _ _ _ (by decide +kernel) ?_ (by decide +kernel), roundTrips _ _ _ (by decide +kernel) ?_ (by decide +kernel),
    roundTrips _ _ _ (by decide +kernel) ?_ (by decide +kernel), roundTrips _ _ _ (by decide +kernel) ?_ (by decide +kernel),
    roundTrips _ _ _ (by decide +kernel) ?_ (by decide +kernel)⟩ <;>
  · intro v h
    simp only [List.mem_cons, List.not_mem_nil, or_false, not_or] at h
    simp [levelName, rotationName, algorithmName, additiveName, typeName, h]

/-- Names of vector formats are read back. Finding: there is no invalid name, so what is not a format is written as the variable one. -/
theorem C91_vector_finding (v out : Nat) : getVector (some (vectorName v)) out = (true, if v = 0 then 0 else 1) := by
  unfold vectorName
  split
  · exact parse_value out (by decide +kernel)
  · exact parse_value out (by decide +kernel)

/-- Finding: a name that only starts like a known one is read, whatever follows. -/
theorem C91_prefix_finding (after : List Char) (out : Nat) :
    getAlgorithm (some ("uniformly_sampled".toList ++ after)) out = (true, 0) := by
  rcases C91_reads.2.2.2.1.2 ("uniformly_sampled".toList ++ after) out with ⟨w, ⟨n, hn, -, -⟩, h⟩ | ⟨h, -⟩
  · have : w = 0 := by
      simp only [algorithms, List.mem_cons, Prod.mk.injEq, List.not_mem_nil, or_false] at hn
      omega
    rw [← this]
    exact h
  · exact absurd (List.prefix_append _ _) (h ("uniformly_sampled", 0) (by decide))

/-- Finding: types the library does not have are read: "float1d" is 5, which track_type8 does not enumerate and has no name. -/
theorem C91_type_finding (out : Nat) : getType (some "float1d".toList) out = (true, 5) ∧ typeName 5 = "<Invalid>".toList :=
  ⟨parse_value out (by decide +kernel), by decide +kernel⟩

/-- A concrete case: the longest name counts. -/
example : getLevel (some "highest".toList) 7 = (true, 4) ∧ getLevel (some "highes".toList) 7 = (true, 3) ∧ getLevel (some "hi".toList) 7 = (false, 7) := by
  decide +kernel

end Acl.C91
