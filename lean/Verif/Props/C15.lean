import Verif.Props.C14
/-!
C15: `decompress_track` writes for a track what `decompress_tracks` writes for it.
Specification vocabulary: `Pose`, `Stores`, `valueOf` of C14; `singleInterp`, `singleEvents`, `sameInterp` below.
-/
namespace Acl.C15
open Acl.Transform Acl.C13 Acl.C14

/-- Specification: how the single track reader combines the samples of a track. -/
def singleInterp (x : Context) (w : Writer) (t : Nat) : Interp :=
  if x.perTrackRounding then .roundedAlpha (w.rounding x.rounding t) else .contextAlpha

/-- Specification: the events of one track: its rotation, its translation, its scale, with the values stored for them.
The writer is not asked whether it skips them. -/
def singleEvents (x : Context) (p : Pose) (w : Writer) (t : Nat) : List Event :=
  [Kind.rotation, Kind.translation, Kind.scale].flatMap fun kind =>
    match valueOf x.hasScale p w (singleInterp x w t) kind t with
    | some v => [⟨kind, t, v⟩]
    | none => []

/-- Specification: an event with the rounding policy as the only trace of how two samples are combined. -/
def samePolicy (e : Event) : Event :=
  match e.value with
  | .animated s (.slot p) => { e with value := .animated s (.roundedAlpha p) }
  | _ => e

/-! ### Proof -/

variable {x : Context} {p : Pose} {w : Writer}

theorem alphaOf_eq (hp : PolicyOk x w) (t : Nat) (ht : t < x.numTracks) : alphaOf x w t = some (singleInterp x w t) := by
  unfold alphaOf singleInterp
  by_cases h : x.perTrackRounding = true
  · rw [if_pos h, if_pos h, if_neg (hp h t ht)]
  · rw [if_neg h, if_neg h]

theorem base_eq (kind : Kind) : x.base kind = kindBase x.numTracks kind := by
  cases kind <;> simp [Context.base, kindBase]; omega

theorem class_get (h : Stores x p) (kind : Kind) (t : Nat) (hk : kind = .scale → x.hasScale = true)
    (f : StreamFlags) (hf : (p.flags kind)[t]? = some f) : p.class x.hasScale kind t = classOf f := by
  unfold Pose.class
  rw [if_neg (by rintro ⟨h1, h2⟩; rw [hk h1] at h2; cases h2), hf]

theorem types_eq (h : Stores x p) (t : Nat) (ht : t < x.numTracks) :
    subTrackTypes x.types x.hasScale x.numTracks t = some (code (p.class x.hasScale .rotation t),
      code (p.class x.hasScale .translation t), code (p.class x.hasScale .scale t)) := by
  have := C13_type_round_trip x.hasScale p.rotationFlags p.translationFlags p.scaleFlags (by rw [h.lenT, h.lenR])
    (by rw [h.lenS, h.lenR]) t (by rw [h.lenR]; exact ht)
  rw [← h.types] at this
  rw [show subTrackTypes x.types x.hasScale x.numTracks t = subTrackTypes x.types x.hasScale p.rotationFlags.length t by rw [h.lenR],
    this, class_get h .rotation t nofun _ (List.getElem?_eq_getElem (by rw [show p.flags .rotation = p.rotationFlags from rfl, h.lenR]; exact ht)),
    class_get h .translation t nofun _ (List.getElem?_eq_getElem (by rw [show p.flags .translation = p.translationFlags from rfl, h.lenT]; exact ht))]
  cases hs : x.hasScale with
  | true =>
    have := class_get h .scale t (fun _ => hs) _ (List.getElem?_eq_getElem (by rw [show p.flags .scale = p.scaleFlags from rfl, h.lenS]; exact ht))
    rw [hs] at this
    rw [this]; rfl
  | false =>
    have : p.class false .scale t = .default := by unfold Pose.class; rw [if_pos ⟨rfl, rfl⟩]
    rw [this]; rfl

theorem rank_indices (h : Stores x p) (kind : Kind) (hk : kind = .scale → x.hasScale = true) (c : Class) (t : Nat) (ht : t < x.numTracks) :
    (indicesOf ((p.flags kind).take t) c).length = p.rank x.hasScale kind c t := by
  have hl := (kindTable h kind hk).len
  unfold indicesOf Pose.rank
  rw [List.length_take, Nat.min_eq_left (by omega)]
  congr 1
  apply List.filter_congr
  intro i hi
  have hi' := List.mem_range.1 hi
  rw [List.getElem?_take_of_lt hi', List.getElem?_eq_getElem (by omega),
    class_get h kind i hk _ (List.getElem?_eq_getElem (by omega))]
  simp

theorem count_eq (h : Stores x p) (kind : Kind) (hk : kind = .scale → x.hasScale = true) (c : Class) (hc : c ≠ .default)
    (t : Nat) (ht : t < x.numTracks) : x.count kind (classMask c) t = some (p.rank x.hasScale kind c t) := by
  have hno : ¬ (kind = .scale ∧ x.hasScale = false) := by rintro ⟨h1, h2⟩; rw [hk h1] at h2; cases h2
  have := C13_counts_before x.hasScale p.rotationFlags p.translationFlags p.scaleFlags (by rw [h.lenT, h.lenR])
    (by rw [h.lenS, h.lenR]) kind hk c hc t (by rw [h.lenR]; exact ht) (by rw [h.lenR]; exact h.small)
  rw [← h.types, h.lenR, show flagsOf p.rotationFlags p.translationFlags p.scaleFlags kind = p.flags kind from rfl,
    rank_indices h kind hk c t ht] at this
  unfold Context.count Context.kindMask Context.singleBase
  rw [if_neg hno, if_neg hno, base_eq, this]

theorem countBefore_masked (types : List (BitVec 32)) (base t : Nat) (m : BitVec 32) :
    ∀ (n k : Nat) (acc : BitVec 32), (∀ j, k ≤ j → j < k + n → (types[base + j]?).isSome) →
      countBefore types base t 0#32 m n k acc = some acc := by
  intro n
  induction n with
  | zero => intro k acc _; rfl
  | succ n ih =>
    intro k acc he
    have := he k (by omega) (by omega)
    rw [countBefore]
    cases hk : types[base + k]? with
    | none => rw [hk] at this; cases this
    | some e =>
      dsimp only
      rw [ih (k + 1) _ (fun j h1 h2 => he j (by omega) (by omega))]
      congr 1
      rw [BitVec.zero_and, BitVec.zero_and, show countSetBits32 0#32 = 0#32 by decide, BitVec.add_zero]

/-- Without scale nothing is counted, and the rotation entries it looks at are there. -/
theorem count_noScale (h : Stores x p) (hs : x.hasScale = false) (m : BitVec 32) (t : Nat) (ht : t < x.numTracks) :
    x.count .scale m t = some 0 := by
  unfold Context.count Context.kindMask Context.singleBase
  rw [if_pos ⟨rfl, hs⟩, if_pos ⟨rfl, hs⟩, countBefore_masked]
  · rfl
  · intro j _ hj
    obtain ⟨e, he, _⟩ := (kindTable h .rotation nofun).entry j (by unfold numSubTrackEntries; omega)
    rw [show x.base .rotation = 0 from rfl] at he
    rw [he]; rfl

theorem rank_lt (h : Stores x p) (kind : Kind) (hk : kind = .scale → x.hasScale = true) (c : Class) (t : Nat) (ht : t < x.numTracks)
    (hc : p.class x.hasScale kind t = c) : p.rank x.hasScale kind c t < p.rank x.hasScale kind c x.numTracks := by
  rw [← rank_count h kind hk, ← rank_count h kind hk]
  have h1 : classCount (p.flags kind) (code c) (t + 1) ≤ classCount (p.flags kind) (code c) x.numTracks := countBelow_mono _ (by omega)
  have h2 : classCount (p.flags kind) (code c) (t + 1) = classCount (p.flags kind) (code c) t + 1 := by
    unfold classCount
    rw [countBelow_succ, if_pos (by rw [class_type h kind hk, hc]; simp)]
  omega

/-- The event written for a default sub-track. -/
theorem default_events (kind : Kind) (t : Nat) (how : Interp) (hd : p.class x.hasScale kind t = .default) :
    writeDefault w kind t = match valueOf x.hasScale p w how kind t with
      | some v => [⟨kind, t, v⟩]
      | none => [] := by
  unfold writeDefault valueOf
  rw [hd]
  cases hm : w.mode kind <;> simp [defaultValue]

theorem code_zero (c : Class) : code c = 0 ↔ c = .default := code_inj c .default

theorem code_or (a b c : Class) : code a ||| code b ||| code c = 0 ↔ a = .default ∧ b = .default ∧ c = .default := by
  cases a <;> cases b <;> cases c <;> decide

/-- The constant rotation of a track. -/
theorem single_constant_rotation (h : Stores x p) (t : Nat) (ht : t < x.numTracks) (hc : p.class x.hasScale .rotation t = .constant) :
    ((if p.rank x.hasScale .rotation .constant t / 4 ≠ 0 then
        x.constantCache.skipRotationGroups x.fullRotations (p.rank x.hasScale .rotation .constant t / 4) else some x.constantCache).bind fun cc =>
      cc.rotationWithinGroup x.clip x.fullRotations (p.rank x.hasScale .rotation .constant t % 4)) = some (p.rotation t) := by
  have hlt := rank_lt h .rotation nofun .constant t ht hc
  rw [← h.constantRotations] at hlt
  have hr := h.constantRotation t ht hc
  generalize p.rank x.hasScale .rotation .constant t = k at *
  rw [constantCache_eq]
  have : ∃ c, (if k / 4 ≠ 0 then (ConstCache.init (constantRotationBytes x) x.constantData x.numConstantRotations x.numConstantTranslations).skipRotationGroups x.fullRotations (k / 4)
      else some (ConstCache.init (constantRotationBytes x) x.constantData x.numConstantRotations x.numConstantTranslations)) = some c := by
    by_cases h0 : k / 4 ≠ 0
    · rw [if_pos h0]
      unfold ConstCache.skipRotationGroups ConstCache.init
      dsimp only
      rw [if_pos (by omega)]; exact ⟨_, rfl⟩
    · rw [if_neg h0]; exact ⟨_, rfl⟩
  obtain ⟨c, hc⟩ := this
  rw [hc, Option.bind_some, rotationWithinGroup_spec (m := x.clip) _ _ hlt c hc]
  exact hr

theorem single_constant_vector {m : List (BitVec 8)} {base k : Nat} (hm : base + 12 * k + 16 ≤ m.length) {v : Vec3}
    (hv : vec3At m base k = some v) :
    (if k % 4 < 4 then (loadVec4 m ((if k / 4 ≠ 0 then base + k / 4 * 4 * 12 else base) + k % 4 * 12)).bind fun v => some v.xyz else none) = some v := by
  rw [if_pos (by omega)]
  have h1 : (if k / 4 ≠ 0 then base + k / 4 * 4 * 12 else base) + k % 4 * 12 = base + 12 * k := by split <;> omega
  rw [h1]
  have := vec3At_load hm
  rw [hv] at this
  cases hl : loadVec4 m (base + 12 * k) with
  | none => rw [hl] at this; cases this
  | some u => rw [hl] at this; exact this

theorem single_constant_translation (h : Stores x p) (t : Nat) (ht : t < x.numTracks) (hc : p.class x.hasScale .translation t = .constant) :
    (if p.rank x.hasScale .translation .constant t / 4 ≠ 0 then
        x.constantCache.skipTranslationGroups (p.rank x.hasScale .translation .constant t / 4) else x.constantCache).translationWithinGroup x.clip
      (p.rank x.hasScale .translation .constant t % 4) = some (p.vector .translation t) := by
  have hlt := rank_lt h .translation nofun .constant t ht hc
  rw [← h.constantTranslations] at hlt
  have hr := h.constantTranslation t ht hc
  have pad := h.constantPadding
  generalize p.rank x.hasScale .translation .constant t = k at *
  rw [← single_constant_vector (by omega) hr, constantCache_eq]
  unfold ConstCache.translationWithinGroup
  by_cases h0 : k / 4 ≠ 0
  · rw [if_pos h0, if_pos h0]; rfl
  · rw [if_neg h0, if_neg h0]; rfl

theorem single_constant_scale (h : Stores x p) (hs : x.hasScale = true) (t : Nat) (ht : t < x.numTracks) (hc : p.class x.hasScale .scale t = .constant) :
    (if p.rank x.hasScale .scale .constant t / 4 ≠ 0 then
        x.constantCache.skipScaleGroups (p.rank x.hasScale .scale .constant t / 4) else x.constantCache).scaleWithinGroup x.clip
      (p.rank x.hasScale .scale .constant t % 4) = some (p.vector .scale t) := by
  have hlt := rank_lt h .scale (fun _ => hs) .constant t ht hc
  have hr := h.constantScale t ht hc
  have pad := h.constantPadding
  generalize p.rank x.hasScale .scale .constant t = k at *
  rw [← single_constant_vector (by omega) hr, constantCache_eq]
  unfold ConstCache.scaleWithinGroup
  by_cases h0 : k / 4 ≠ 0
  · rw [if_pos h0, if_pos h0]; rfl
  · rw [if_neg h0, if_neg h0]; rfl

theorem single_animated_rotation (h : Stores x p) (t : Nat) (ht : t < x.numTracks) (hc : p.class x.hasScale .rotation t = .animated) :
    ((if p.rank x.hasScale .rotation .animated t / 4 ≠ 0 then
        (AnimCache.initialize x).rotations.skipRotationGroups x.cfg x.rotationFormat x.clip (p.rank x.hasScale .rotation .animated t / 4)
        else some (AnimCache.initialize x).rotations).bind fun a =>
      a.rotationWithinGroup x.cfg x.rotationFormat x.clip (p.rank x.hasScale .rotation .animated t % 4)) = some (p.samples .rotation t) := by
  have hlt := rank_lt h .rotation nofun .animated t ht hc
  rw [← h.animatedRotations] at hlt
  rw [← rotV_track h t ht hc, init_rotations]
  exact rotationWithinGroup_skip (rotMem h) (fun hf => (h.formatPadding hf).1) (fun hf => (h.formatPadding hf).2) _ rfl
    (rotPos_init x _ _ _ _) _ hlt

theorem single_animated_vector (h : Stores x p) {kind : Kind} (hk : kind = .scale → x.hasScale = true) {fmt : VectorFormat} {n : Nat}
    (hv : StoresVectors x p kind fmt n) (t : Nat) (ht : t < x.numTracks) (hc : p.class x.hasScale kind t = .animated) (a : AnimState)
    (ha : a = ⟨fun _ => none, n, 0, 0, startRanges x kind, start x kind x.key0, start x kind x.key1⟩) :
    ((if p.rank x.hasScale kind .animated t / 4 ≠ 0 then
        a.skipVectorGroups x.cfg fmt x.clip (p.rank x.hasScale kind .animated t / 4) else some a).bind fun a =>
      a.vectorWithinGroup x.cfg fmt x.clip (p.rank x.hasScale kind .animated t % 4)) = some (p.samples kind t) := by
  have hlt := rank_lt h kind hk .animated t ht hc
  rw [← hv.number] at hlt
  rw [← vecV_track hv t ht hc, ha]
  exact vectorWithinGroup_skip (vecMem h hk hv) (fun hf => (hv.padding hf).1) (fun hf => (hv.padding hf).2) _ rfl rfl rfl rfl _ hlt

/-- Decompressing one track writes its rotation, translation and scale, in that order, with the values stored for it. -/
theorem C15_single_track (x : Context) (p : Pose) (w : Writer) (hs : x.sampled = true) (h : Stores x p) (hp : PolicyOk x w)
    (t : Nat) (ht : t < x.numTracks) : decompressTrack x w t = some (singleEvents x p w t) := by
  unfold decompressTrack
  rw [if_neg (by omega), hs, if_neg (by decide), if_neg (by omega), types_eq h t ht, Option.bind_some]
  dsimp only
  unfold singleEvents
  simp only [List.flatMap_cons, List.flatMap_nil, List.append_nil]
  by_cases hall : code (p.class x.hasScale .rotation t) ||| code (p.class x.hasScale .translation t) ||| code (p.class x.hasScale .scale t) = 0
  · rw [if_pos hall]
    obtain ⟨a, b, c⟩ := (code_or _ _ _).1 hall
    rw [default_events .rotation t (singleInterp x w t) a, default_events .translation t (singleInterp x w t) b,
      default_events .scale t (singleInterp x w t) c, List.append_assoc]
  rw [if_neg hall, show (0x55555555#32) = classMask .constant from rfl, show (0xAAAAAAAA#32) = classMask .animated from rfl,
    count_eq h .rotation nofun .constant nofun t ht, Option.bind_some,
    count_eq h .rotation nofun .animated nofun t ht, Option.bind_some,
    count_eq h .translation nofun .constant nofun t ht, Option.bind_some,
    count_eq h .translation nofun .animated nofun t ht, Option.bind_some]
  obtain ⟨cs, hcs, hcs'⟩ : ∃ cs, x.count .scale (classMask .constant) t = some cs ∧ (x.hasScale = true → cs = p.rank x.hasScale .scale .constant t) := by
    cases hsc : x.hasScale with
    | true => rw [← hsc]; exact ⟨_, count_eq h .scale (fun _ => hsc) .constant nofun t ht, fun _ => rfl⟩
    | false => exact ⟨_, count_noScale h hsc _ t ht, nofun⟩
  obtain ⟨as, has, has'⟩ : ∃ as, x.count .scale (classMask .animated) t = some as ∧ (x.hasScale = true → as = p.rank x.hasScale .scale .animated t) := by
    cases hsc : x.hasScale with
    | true => rw [← hsc]; exact ⟨_, count_eq h .scale (fun _ => hsc) .animated nofun t ht, fun _ => rfl⟩
    | false => exact ⟨_, count_noScale h hsc _ t ht, nofun⟩
  rw [hcs, Option.bind_some, has, Option.bind_some, alphaOf_eq hp t ht, Option.bind_some]
  -- rotation
  have hR : (if code (p.class x.hasScale .rotation t) = 0 then some (writeDefault w .rotation t)
        else if code (p.class x.hasScale .rotation t) &&& 1 ≠ 0 then
          (if p.rank x.hasScale .rotation .constant t / 4 ≠ 0 then x.constantCache.skipRotationGroups x.fullRotations (p.rank x.hasScale .rotation .constant t / 4) else some x.constantCache).bind fun cc =>
          (cc.rotationWithinGroup x.clip x.fullRotations (p.rank x.hasScale .rotation .constant t % 4)).bind fun q => some [(⟨.rotation, t, .rotation q⟩ : Event)]
        else
          (if p.rank x.hasScale .rotation .animated t / 4 ≠ 0 then (AnimCache.initialize x).rotations.skipRotationGroups x.cfg x.rotationFormat x.clip (p.rank x.hasScale .rotation .animated t / 4) else some (AnimCache.initialize x).rotations).bind fun a =>
          (a.rotationWithinGroup x.cfg x.rotationFormat x.clip (p.rank x.hasScale .rotation .animated t % 4)).bind fun v => some [⟨.rotation, t, .animated v (singleInterp x w t)⟩]) =
      some (match valueOf x.hasScale p w (singleInterp x w t) .rotation t with
        | some v => [⟨.rotation, t, v⟩]
        | none => []) := by
    cases hc : p.class x.hasScale .rotation t with
    | default => rw [if_pos (by rfl), default_events .rotation t (singleInterp x w t) hc]
    | constant =>
      have := single_constant_rotation h t ht hc
      rw [if_neg (by decide), if_pos (by decide), ← Option.bind_assoc, this, Option.bind_some]
      unfold valueOf
      rw [hc]; rfl
    | animated =>
      have := single_animated_rotation h t ht hc
      rw [if_neg (by decide), if_neg (by decide), ← Option.bind_assoc, this, Option.bind_some]
      unfold valueOf
      rw [hc]
  rw [hR, Option.bind_some]
  have hT : (if code (p.class x.hasScale .translation t) = 0 then some (writeDefault w .translation t)
        else if code (p.class x.hasScale .translation t) &&& 1 ≠ 0 then
          ((if p.rank x.hasScale .translation .constant t / 4 ≠ 0 then x.constantCache.skipTranslationGroups (p.rank x.hasScale .translation .constant t / 4) else x.constantCache).translationWithinGroup x.clip (p.rank x.hasScale .translation .constant t % 4)).bind fun v => some [(⟨.translation, t, .vector v⟩ : Event)]
        else
          (if p.rank x.hasScale .translation .animated t / 4 ≠ 0 then (AnimCache.initialize x).translations.skipVectorGroups x.cfg x.translationFormat x.clip (p.rank x.hasScale .translation .animated t / 4) else some (AnimCache.initialize x).translations).bind fun a =>
          (a.vectorWithinGroup x.cfg x.translationFormat x.clip (p.rank x.hasScale .translation .animated t % 4)).bind fun v => some [⟨.translation, t, .animated v (singleInterp x w t)⟩]) =
      some (match valueOf x.hasScale p w (singleInterp x w t) .translation t with
        | some v => [⟨.translation, t, v⟩]
        | none => []) := by
    cases hc : p.class x.hasScale .translation t with
    | default => rw [if_pos (by rfl), default_events .translation t (singleInterp x w t) hc]
    | constant =>
      have := single_constant_translation h t ht hc
      rw [if_neg (by decide), if_pos (by decide), this, Option.bind_some]
      unfold valueOf
      rw [hc]; rfl
    | animated =>
      have := single_animated_vector (kind := .translation) h nofun h.translations t ht hc _ (init_translations x)
      rw [if_neg (by decide), if_neg (by decide), ← Option.bind_assoc, this, Option.bind_some]
      unfold valueOf
      rw [hc]
  rw [hT, Option.bind_some]
  have hS : (if code (p.class x.hasScale .scale t) = 0 then some (writeDefault w .scale t)
        else if code (p.class x.hasScale .scale t) &&& 1 ≠ 0 then
          ((if cs / 4 ≠ 0 then x.constantCache.skipScaleGroups (cs / 4) else x.constantCache).scaleWithinGroup x.clip (cs % 4)).bind fun v => some [(⟨.scale, t, .vector v⟩ : Event)]
        else
          (AnimCache.initialize x).scales.bind fun a =>
          (if as / 4 ≠ 0 then a.skipVectorGroups x.cfg x.scaleFormat x.clip (as / 4) else some a).bind fun a =>
          (a.vectorWithinGroup x.cfg x.scaleFormat x.clip (as % 4)).bind fun v => some [⟨.scale, t, .animated v (singleInterp x w t)⟩]) =
      some (match valueOf x.hasScale p w (singleInterp x w t) .scale t with
        | some v => [⟨.scale, t, v⟩]
        | none => []) := by
    have hsc : p.class x.hasScale .scale t ≠ .default → x.hasScale = true := by
      intro hn
      cases hsc : x.hasScale with
      | true => rfl
      | false => exact absurd (by unfold Pose.class; rw [if_pos ⟨rfl, hsc⟩]) hn
    cases hc : p.class x.hasScale .scale t with
    | default => rw [if_pos (by rfl), default_events .scale t (singleInterp x w t) hc]
    | constant =>
      have hsc := hsc (by rw [hc]; nofun)
      have := single_constant_scale h hsc t ht hc
      rw [if_neg (by decide), if_pos (by decide), hcs' hsc, this, Option.bind_some]
      unfold valueOf
      rw [hc]; rfl
    | animated =>
      have hsc := hsc (by rw [hc]; nofun)
      have := single_animated_vector (kind := .scale) h (fun _ => hsc) (h.scales hsc) t ht hc _ rfl
      rw [if_neg (by decide), if_neg (by decide), has' hsc, init_scales x hsc, Option.bind_some, ← Option.bind_assoc, this, Option.bind_some]
      unfold valueOf
      rw [hc]
  rw [hS, Option.bind_some, List.append_assoc]

/-- An index past the last track writes nothing. -/
theorem C15_out_of_range (x : Context) (w : Writer) (t : Nat) (ht : x.numTracks ≤ t) : decompressTrack x w t = some [] := by
  unfold decompressTrack
  by_cases h0 : x.numTracks = 0
  · rw [if_pos h0]
  · by_cases hs : (!x.sampled) = true
    · rw [if_neg h0, if_pos hs]
    · rw [if_neg h0, if_neg hs, if_pos ht]

theorem filter_flatMap {α β : Type} (q : β → Bool) (l : List α) (f : α → List β) :
    (l.flatMap f).filter q = l.flatMap fun a => (f a).filter q := by
  induction l with
  | nil => rfl
  | cons a l ih => rw [List.flatMap_cons, List.filter_append, ih, List.flatMap_cons]

theorem filter_track (t : Nat) (n : Nat) (ht : t < n) (f : Nat → List Event) (hf : ∀ u, ∀ e ∈ f u, e.track = u) :
    ((List.range n).flatMap f).filter (fun e => e.track = t) = f t := by
  rw [filter_flatMap]
  have hself : (f t).filter (fun e => e.track = t) = f t := by
    rw [List.filter_eq_self]; intro e he; exact decide_eq_true (hf t e he)
  have hother : ∀ u, u ≠ t → (f u).filter (fun e => e.track = t) = [] := by
    intro u hu
    rw [List.filter_eq_nil_iff]
    intro e he hd
    exact hu ((hf u e he).symm.trans (of_decide_eq_true hd))
  have hn : ∀ m, m ≤ t → (List.range m).flatMap (fun a => (f a).filter (fun e => e.track = t)) = [] := by
    intro m hm
    rw [List.flatMap_eq_nil_iff]
    intro u hu
    exact hother u (by have := List.mem_range.1 hu; omega)
  obtain ⟨d, rfl⟩ := Nat.exists_eq_add_of_lt ht
  clear ht
  induction d with
  | zero => rw [Nat.add_zero, List.range_succ, List.flatMap_append, hn t (Nat.le_refl _)]; simp [hself]
  | succ d ih =>
    rw [show t + (d + 1) + 1 = (t + d + 1) + 1 by omega, List.range_succ, List.flatMap_append, ih]
    simp [hother (t + d + 1) (by omega)]

theorem pose_track (t : Nat) (ht : t < x.numTracks) : (poseEvents x p w).filter (fun e => e.track = t) =
    [Kind.rotation, Kind.translation, Kind.scale].flatMap fun kind => trackEvents x p w kind t := by
  unfold poseEvents
  rw [filter_flatMap]
  apply flatMap_congr_mem
  intro kind _
  refine filter_track t x.numTracks ht _ (fun u e he => ?_)
  unfold trackEvents at he
  split at he
  · simp at he
  · split at he
    · simp at he; rw [he]
    · simp at he

theorem samePolicy_value (how : Interp) (kind : Kind) (t : Nat) (hasScale : Bool) :
    (match valueOf hasScale p w how kind t with
      | some v => [(⟨kind, t, v⟩ : Event)]
      | none => []).map samePolicy =
    match valueOf hasScale p w (match how with | .slot r => .roundedAlpha r | h => h) kind t with
      | some v => [(⟨kind, t, v⟩ : Event)]
      | none => [] := by
  unfold valueOf
  cases p.class hasScale kind t with
  | default => cases w.mode kind <;> rfl
  | constant => by_cases hk : kind = .rotation <;> simp [hk, samePolicy]
  | animated => cases how <;> rfl

/-- The pose and the single track agree: when the writer does not skip the track, what `decompress_tracks` writes for it
is what `decompress_track` writes, up to the order of the calls. With per track rounding the two combine the same two
samples under the same policy (`samePolicy`), otherwise with the same alpha. -/
theorem C15_agrees_with_pose (x : Context) (p : Pose) (w : Writer) (hs : x.sampled = true) (h : Stores x p) (hp : PolicyOk x w)
    (t : Nat) (ht : t < x.numTracks) (hno : ∀ kind, w.skipAll kind = false ∧ w.skipTrack kind t = false) :
    ∃ pose single, decompressTracks x w = some pose ∧ decompressTrack x w t = some single ∧
      ((pose.filter fun e => e.track = t).map samePolicy).Perm single ∧
      (x.perTrackRounding = false → (pose.filter fun e => e.track = t).Perm single) := by
  obtain ⟨pose, hpose, perm⟩ := C14_pose_exactly_once x p w hs h hp
  refine ⟨pose, _, hpose, C15_single_track x p w hs h hp t ht, ?_, ?_⟩
  · have h1 := (perm.filter (fun e => decide (e.track = t))).map samePolicy
    rw [pose_track t ht] at h1
    refine h1.trans (List.Perm.of_eq ?_)
    unfold singleEvents
    rw [List.map_flatMap]
    apply flatMap_congr_mem
    intro kind _
    unfold trackEvents
    rw [(hno kind).1, (hno kind).2, if_neg (by decide)]
    refine (samePolicy_value (poseInterp x w t) kind t x.hasScale).trans ?_
    have : (match poseInterp x w t with | .slot r => .roundedAlpha r | h => h) = singleInterp x w t := by
      unfold poseInterp singleInterp
      cases x.perTrackRounding <;> rfl
    rw [this]
  · intro hptr
    have h1 := perm.filter (fun e => decide (e.track = t))
    rw [pose_track t ht] at h1
    refine h1.trans (List.Perm.of_eq ?_)
    unfold singleEvents
    apply flatMap_congr_mem
    intro kind _
    unfold trackEvents
    rw [(hno kind).1, (hno kind).2, if_neg (by decide)]
    have : poseInterp x w t = singleInterp x w t := by
      unfold poseInterp singleInterp
      rw [hptr]; rfl
    rw [this]; rfl

/-- The clip of C14 meets the hypotheses, for any track but the one whose translation the writer skips. -/
example (perTrack : Bool) (t : Nat) (ht : t < 18) (h7 : t ≠ 7) : ∃ pose single,
    decompressTracks (exampleContext perTrack) exampleWriter = some pose ∧
    decompressTrack (exampleContext perTrack) exampleWriter t = some single ∧
    ((pose.filter fun e => e.track = t).map samePolicy).Perm single ∧
    ((exampleContext perTrack).perTrackRounding = false → (pose.filter fun e => e.track = t).Perm single) :=
  C15_agrees_with_pose _ _ _ (by cases perTrack <;> rfl) (example_stores perTrack) (by
    intro _ t _; show (if t % 2 = 0 then (.floor : Rounding) else (.nearest : Rounding)) ≠ _; split <;> decide) t ht
    (fun kind => ⟨rfl, by simp [exampleWriter, h7]⟩)

/-- The single track path does write the sub-track the writer would have skipped in a pose. -/
example : (decompressTrack (exampleContext false) exampleWriter 7).map (·.map (·.kind)) = some [.rotation, .translation] := by decide +kernel

end Acl.C15
