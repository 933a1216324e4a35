import Verif.Transform.DecompressLemmas
import Verif.Props.C13
/-!
C14: `decompress_tracks` writes every sub-track of every track exactly once, with the value stored for it.
Specification vocabulary: `Pose` (what a clip holds, track by track), `Stores` (a clip in memory holds it), `valueOf`
and `poseEvents` below; `C13.Class`; `rotationAt`, `vec3At`, `rotationSampleAt`, `vectorSampleAt` (where the data of the
k-th constant or animated sub-track is).
-/
namespace Acl.C14
open Acl.Transform Acl.C13

/-- Specification: what a clip holds for each track. The constant values and the samples matter only for the tracks of
those classes. -/
structure Pose where
  rotationFlags : List StreamFlags
  translationFlags : List StreamFlags
  scaleFlags : List StreamFlags
  rotation : Nat → Quat
  vector : Kind → Nat → Vec3
  samples : Kind → Nat → Sample × Sample

/-- Specification: the flags of a kind. -/
def Pose.flags (p : Pose) : Kind → List StreamFlags := flagsOf p.rotationFlags p.translationFlags p.scaleFlags

/-- Specification: the class of a sub-track; past the end there is none, and a clip without scale has default scales. -/
def Pose.class (p : Pose) (hasScale : Bool) (kind : Kind) (t : Nat) : Class :=
  if kind = .scale ∧ hasScale = false then .default
  else match (p.flags kind)[t]? with
    | some f => classOf f
    | none => .default

/-- Specification: how many of the tracks before `t` have that class. -/
def Pose.rank (p : Pose) (hasScale : Bool) (kind : Kind) (c : Class) (t : Nat) : Nat :=
  ((List.range t).filter fun i => p.class hasScale kind i = c).length

/-- Specification: bytes of a packed constant rotation. -/
def constantRotationBytes (x : Context) : Nat := if x.rotationFormat = .quatfFull then 16 else 12

/-- Specification: where the readers start for the animated sub-tracks of a kind and key frame. -/
def start (x : Context) (kind : Kind) (key : KeyFrame) : SegCtx :=
  let paddedRotations := 4 * ((x.numAnimatedRotations + 3) / 4)
  let formatsR := if x.rotationFormat = .dropWVariable then paddedRotations else 0
  let formatsT := if x.translationFormat = .varBits then x.numAnimatedTranslations else 0
  match kind with
  | .rotation => ⟨key.fmt, key.seg, key.data, key.bit⟩
  | .translation => ⟨key.fmt + formatsR, key.seg + 6 * formatsR, key.data, key.bit + key.rotationBits⟩
  | .scale => ⟨key.fmt + formatsR + formatsT, key.seg + 6 * formatsR + 6 * formatsT, key.data, key.bit + key.rotationBits + key.translationBits⟩

/-- Specification: where the clip ranges of a kind start. -/
def startRanges (x : Context) (kind : Kind) : Nat :=
  let rangesR := if x.rotationFormat = .dropWVariable then 24 * x.numAnimatedRotations else 0
  let rangesT := if x.translationFormat = .varBits then 24 * x.numAnimatedTranslations else 0
  match kind with
  | .rotation => x.clipRanges
  | .translation => x.clipRanges + rangesR
  | .scale => x.clipRanges + rangesR + rangesT

/-- The animated vectors of a kind are in memory. -/
structure StoresVectors (x : Context) (p : Pose) (kind : Kind) (fmt : VectorFormat) (count : Nat) : Prop where
  number : count = p.rank x.hasScale kind .animated x.numTracks
  value0 : ∀ t, t < x.numTracks → p.class x.hasScale kind t = .animated →
    vectorSampleAt x.cfg fmt x.clip (startRanges x kind) (start x kind x.key0) (p.rank x.hasScale kind .animated t) = some (p.samples kind t).1
  value1 : ∀ t, t < x.numTracks → p.class x.hasScale kind t = .animated →
    vectorSampleAt x.cfg fmt x.clip (startRanges x kind) (start x kind x.key1) (p.rank x.hasScale kind .animated t) = some (p.samples kind t).2
  /-- only a clip with segments has sub-tracks that are constant in a segment -/
  segmented : x.cfg.hasSegments = false → fmt = .varBits → ∀ k, k < count →
    byteAt x.clip ((start x kind x.key0).fmt + k) ≠ some 0 ∧ byteAt x.clip ((start x kind x.key1).fmt + k) ≠ some 0
  /-- padding for the 16 byte loads of format bytes -/
  padding : fmt = .varBits → (start x kind x.key0).fmt + count + 11 ≤ x.clip.length ∧ (start x kind x.key1).fmt + count + 11 ≤ x.clip.length

/-- A clip in memory holds a pose: its type table is the one written for the flags of the tracks, its counts are right,
and the data of every constant and animated sub-track is where its rank puts it. The padding bounds are for loads wider
than their data. -/
structure Stores (x : Context) (p : Pose) : Prop where
  lenR : p.rotationFlags.length = x.numTracks
  lenT : p.translationFlags.length = x.numTracks
  lenS : p.scaleFlags.length = x.numTracks
  small : x.numTracks ≤ 2 ^ 32
  types : x.types = writePackedSubTrackTypes x.hasScale p.rotationFlags p.translationFlags p.scaleFlags
  rawBits : x.cfg.rawBits ≠ 0
  oneSegment : x.cfg.singleSegment = true → x.key0.seg = x.key1.seg
  constantRotations : x.numConstantRotations = p.rank x.hasScale .rotation .constant x.numTracks
  constantTranslations : x.numConstantTranslations = p.rank x.hasScale .translation .constant x.numTracks
  constantRotation : ∀ t, t < x.numTracks → p.class x.hasScale .rotation t = .constant →
    rotationAt x.clip x.constantData (x.rotationFormat = .quatfFull) x.numConstantRotations (p.rank x.hasScale .rotation .constant t) = some (p.rotation t)
  constantTranslation : ∀ t, t < x.numTracks → p.class x.hasScale .translation t = .constant →
    vec3At x.clip (x.constantData + constantRotationBytes x * x.numConstantRotations) (p.rank x.hasScale .translation .constant t) =
      some (p.vector .translation t)
  constantScale : ∀ t, t < x.numTracks → p.class x.hasScale .scale t = .constant →
    vec3At x.clip (x.constantData + constantRotationBytes x * x.numConstantRotations + 12 * x.numConstantTranslations)
      (p.rank x.hasScale .scale .constant t) = some (p.vector .scale t)
  constantPadding : x.constantData + constantRotationBytes x * x.numConstantRotations + 12 * x.numConstantTranslations +
    12 * p.rank x.hasScale .scale .constant x.numTracks + 12 ≤ x.clip.length
  animatedRotations : x.numAnimatedRotations = p.rank x.hasScale .rotation .animated x.numTracks
  rotation0 : ∀ t, t < x.numTracks → p.class x.hasScale .rotation t = .animated →
    rotationSampleAt x.cfg x.rotationFormat x.clip x.clipRanges x.numAnimatedRotations (start x .rotation x.key0)
      (p.rank x.hasScale .rotation .animated t) = some (p.samples .rotation t).1
  rotation1 : ∀ t, t < x.numTracks → p.class x.hasScale .rotation t = .animated →
    rotationSampleAt x.cfg x.rotationFormat x.clip x.clipRanges x.numAnimatedRotations (start x .rotation x.key1)
      (p.rank x.hasScale .rotation .animated t) = some (p.samples .rotation t).2
  segmentPadding : x.rotationFormat = .dropWVariable → x.cfg.hasSegments = true →
    x.key0.seg + 24 * ((x.numAnimatedRotations + 3) / 4) + 8 ≤ x.clip.length ∧
    x.key1.seg + 24 * ((x.numAnimatedRotations + 3) / 4) + 8 ≤ x.clip.length
  clipPadding : x.rotationFormat = .dropWVariable → x.clipRanges + 24 * x.numAnimatedRotations + 12 ≤ x.clip.length
  formatPadding : x.rotationFormat = .dropWVariable →
    x.key0.fmt + x.numAnimatedRotations + 11 ≤ x.clip.length ∧ x.key1.fmt + x.numAnimatedRotations + 11 ≤ x.clip.length
  translations : StoresVectors x p .translation x.translationFormat x.numAnimatedTranslations
  scales : x.hasScale = true → StoresVectors x p .scale x.scaleFormat x.numAnimatedScales

/-- The policy the writer asks for is a real one. -/
def PolicyOk (x : Context) (w : Writer) : Prop :=
  x.perTrackRounding = true → ∀ t, t < x.numTracks → w.rounding x.rounding t ≠ .perTrack

/-- Specification: the value of a sub-track, `none` when it is a default one and defaults are skipped. `how` says how
two samples are combined. -/
def valueOf (hasScale : Bool) (p : Pose) (w : Writer) (how : Interp) (kind : Kind) (t : Nat) : Option Value :=
  match p.class hasScale kind t with
  | .default => match w.mode kind with
    | .skipped => none
    | .constant => some .writerConstant
    | .variable => some (.writerVariable t)
    | .legacy => some .headerScale
  | .constant => some (if kind = .rotation then .rotation (p.rotation t) else .vector (p.vector kind t))
  | .animated => some (.animated (p.samples kind t) how)

/-- Specification: how the whole pose reader combines the samples of a track. -/
def poseInterp (x : Context) (w : Writer) (t : Nat) : Interp :=
  if x.perTrackRounding then .slot (w.rounding x.rounding t) else .contextAlpha

/-- Specification: the events of one sub-track. -/
def trackEvents (x : Context) (p : Pose) (w : Writer) (kind : Kind) (t : Nat) : List Event :=
  if w.skipAll kind || w.skipTrack kind t then []
  else match valueOf x.hasScale p w (poseInterp x w t) kind t with
    | some v => [⟨kind, t, v⟩]
    | none => []

/-- Specification: the events of a pose, one for each sub-track that is not skipped. -/
def poseEvents (x : Context) (p : Pose) (w : Writer) : List Event :=
  [Kind.rotation, Kind.translation, Kind.scale].flatMap fun kind => (List.range x.numTracks).flatMap fun t => trackEvents x p w kind t

/-! ### Proof -/

variable {x : Context} {p : Pose} {w : Writer}

theorem class_type (h : Stores x p) (kind : Kind) (hk : kind = .scale → x.hasScale = true) (t : Nat) :
    typeAt (p.flags kind) t = code (p.class x.hasScale kind t) := by
  unfold Pose.class
  rw [if_neg (by rintro ⟨h1, h2⟩; rw [hk h1] at h2; cases h2)]
  unfold typeAt
  cases (p.flags kind)[t]? with
  | none => rfl
  | some f => exact packedType_eq f

theorem type_class (h : Stores x p) (kind : Kind) (hk : kind = .scale → x.hasScale = true) (c : Class) (t : Nat) :
    decide (typeAt (p.flags kind) t = code c) = decide (p.class x.hasScale kind t = c) := by
  rw [class_type h kind hk t]
  exact decide_eq_decide.2 (code_inj _ _)

theorem rank_count (h : Stores x p) (kind : Kind) (hk : kind = .scale → x.hasScale = true) (c : Class) (t : Nat) :
    classCount (p.flags kind) (code c) t = p.rank x.hasScale kind c t := by
  unfold classCount countBelow Pose.rank
  rw [List.countP_eq_length_filter]
  congr 1
  apply List.filter_congr
  intro i _
  exact type_class h kind hk c i

theorem kindTable (h : Stores x p) (kind : Kind) (hk : kind = .scale → x.hasScale = true) : KindTable x kind (p.flags kind) := by
  obtain ⟨T, hT, hlen, hget⟩ := kind_table x.hasScale p.rotationFlags p.translationFlags p.scaleFlags
    (by rw [h.lenT, h.lenR]) (by rw [h.lenS, h.lenR]) kind hk
  rw [← h.types, h.lenR] at hget
  have hl : (p.flags kind).length = x.numTracks := by unfold Pose.flags; rw [hlen, h.lenR]
  refine ⟨hl, fun k hk' => ?_⟩
  have hkT : k < T.length := by rw [hT.1]; rw [show (flagsOf p.rotationFlags p.translationFlags p.scaleFlags kind).length = x.numTracks from hl]; exact hk'
  refine ⟨T[k], ?_, hT.2 k _ (List.getElem?_eq_getElem hkT)⟩
  have hb : x.base kind = kindBase x.numTracks kind := by cases kind <;> simp [Context.base, kindBase]; omega
  rw [hb, hget k hkT, List.getElem?_eq_getElem hkT]

/-- Every rank below the total is that of a track. -/
theorem rank_surj (sel : Nat → Bool) : ∀ n k, k < countBelow n sel → ∃ t, t < n ∧ sel t = true ∧ countBelow t sel = k := by
  intro n
  induction n with
  | zero => intro k hk; simp [countBelow] at hk
  | succ n ih =>
    intro k hk
    rw [countBelow_succ] at hk
    by_cases h : k < countBelow n sel
    · obtain ⟨t, h1, h2, h3⟩ := ih k h
      exact ⟨t, by omega, h2, h3⟩
    · by_cases hs : sel n = true
      · rw [if_pos hs] at hk; exact ⟨n, by omega, hs, by omega⟩
      · rw [if_neg hs] at hk; omega

theorem rank_track (h : Stores x p) (kind : Kind) (hk : kind = .scale → x.hasScale = true) (c : Class) (k : Nat)
    (hlt : k < p.rank x.hasScale kind c x.numTracks) :
    ∃ t, t < x.numTracks ∧ p.class x.hasScale kind t = c ∧ p.rank x.hasScale kind c t = k := by
  rw [← rank_count h kind hk] at hlt
  obtain ⟨t, h1, h2, h3⟩ := rank_surj _ _ _ hlt
  refine ⟨t, h1, ?_, by rw [← rank_count h kind hk]; exact h3⟩
  rw [type_class h kind hk] at h2
  exact of_decide_eq_true h2

theorem flatMap_append_perm {α β : Type} (l : List α) (f g : α → List β) :
    (l.flatMap f ++ l.flatMap g).Perm (l.flatMap fun a => f a ++ g a) := by
  induction l with
  | nil => exact .refl _
  | cons a l ih =>
    simp only [List.flatMap_cons]
    have h1 : (f a ++ l.flatMap f ++ (g a ++ l.flatMap g)).Perm (f a ++ (g a ++ (l.flatMap f ++ l.flatMap g))) := by
      rw [List.append_assoc]
      apply List.Perm.append_left
      rw [← List.append_assoc, ← List.append_assoc]
      exact List.Perm.append_right _ List.perm_append_comm
    refine h1.trans ?_
    rw [List.append_assoc]
    exact (ih.append_left _).append_left _

theorem written_eq (kind : Kind) (t : Nat) (v : Value) :
    written w kind t v = if w.skipAll kind || w.skipTrack kind t then [] else [⟨kind, t, v⟩] := by
  unfold written
  cases w.skipAll kind <;> cases w.skipTrack kind t <;> rfl

/-- The three passes of a kind write the events of its tracks. -/
theorem kind_perm (h : Stores x p) (kind : Kind) (hk : kind = .scale → x.hasScale = true)
    (Q : Nat → Value) (V : Nat → Sample × Sample)
    (hQ : ∀ t, t < x.numTracks → p.class x.hasScale kind t = .constant →
      Q (p.rank x.hasScale kind .constant t) = if kind = .rotation then .rotation (p.rotation t) else .vector (p.vector kind t))
    (hV : ∀ t, t < x.numTracks → p.class x.hasScale kind t = .animated → V (p.rank x.hasScale kind .animated t) = p.samples kind t) :
    ((if w.mode kind = .skipped then [] else classEvents (p.flags kind) 0 x.numTracks fun t _ => written w kind t (defaultValue (w.mode kind) t)) ++
      (classEvents (p.flags kind) 1 x.numTracks fun t k => written w kind t (Q k)) ++
      (classEvents (p.flags kind) 2 x.numTracks fun t k => written w kind t (.animated (V k) (poseInterp x w t)))).Perm
    ((List.range x.numTracks).flatMap fun t => trackEvents x p w kind t) := by
  have h0 : (if w.mode kind = .skipped then [] else classEvents (p.flags kind) 0 x.numTracks fun t _ => written w kind t (defaultValue (w.mode kind) t)) =
      (List.range x.numTracks).flatMap fun t => if w.mode kind = .skipped then [] else
        if typeAt (p.flags kind) t = 0 then written w kind t (defaultValue (w.mode kind) t) else [] := by
    by_cases hs : w.mode kind = .skipped
    · rw [if_pos hs]; symm; rw [List.flatMap_eq_nil_iff]; intro t _; rw [if_pos hs]
    · rw [if_neg hs]; unfold classEvents; apply flatMap_congr_mem; intro t _; rw [if_neg hs]
  rw [h0]
  unfold classEvents
  refine ((flatMap_append_perm _ _ _).append_right _).trans ((flatMap_append_perm _ _ _).trans ?_)
  rw [flatMap_congr_mem]
  intro t ht
  have htn := List.mem_range.1 ht
  have hty := class_type h kind hk t
  have r1 := rank_count h kind hk .constant t
  have r2 := rank_count h kind hk .animated t
  unfold trackEvents valueOf
  cases hc : p.class x.hasScale kind t with
  | default =>
    rw [hc] at hty
    rw [hty, if_neg (show ¬ code Class.default = 1 by decide), if_neg (show ¬ code Class.default = 2 by decide),
      if_pos (show code Class.default = 0 from rfl), List.append_nil, List.append_nil, written_eq]
    dsimp only
    cases hm : w.mode kind <;> simp [defaultValue]
  | constant =>
    rw [hc] at hty
    have e0 : ∀ l : List Event, (if w.mode kind = DefaultMode.skipped then [] else if typeAt (p.flags kind) t = 0 then l else []) = [] := by
      intro l; rw [hty, if_neg (show ¬ code Class.constant = 0 by decide)]; split <;> rfl
    rw [e0, hty, if_neg (show ¬ code Class.constant = 2 by decide), if_pos (show code Class.constant = 1 from rfl), List.append_nil,
      List.nil_append]
    dsimp only
    rw [written_eq, show classCount (p.flags kind) 1 t = _ from r1, hQ t htn hc]
  | animated =>
    rw [hc] at hty
    have e0 : ∀ l : List Event, (if w.mode kind = DefaultMode.skipped then [] else if typeAt (p.flags kind) t = 0 then l else []) = [] := by
      intro l; rw [hty, if_neg (show ¬ code Class.animated = 0 by decide)]; split <;> rfl
    rw [e0, hty, if_neg (show ¬ code Class.animated = 1 by decide), if_pos (show code Class.animated = 2 from rfl), List.nil_append,
      List.nil_append]
    dsimp only
    rw [written_eq, show classCount (p.flags kind) 2 t = _ from r2, hV t htn hc]

/-- Values by rank, from a table lookup. -/
theorem by_rank {α : Type} (h : Stores x p) (kind : Kind) (hk : kind = .scale → x.hasScale = true) (c : Class) (N : Nat)
    (hN : N = p.rank x.hasScale kind c x.numTracks) (look : Nat → Option α) (d : α) (val : Nat → α)
    (hl : ∀ t, t < x.numTracks → p.class x.hasScale kind t = c → look (p.rank x.hasScale kind c t) = some (val t)) :
    (∀ k, k < N → look k = some ((look k).getD d)) ∧
    (∀ t, t < x.numTracks → p.class x.hasScale kind t = c → (look (p.rank x.hasScale kind c t)).getD d = val t) := by
  constructor
  · intro k hk'
    obtain ⟨t, h1, h2, h3⟩ := rank_track h kind hk c k (by omega)
    have := hl t h1 h2
    rw [h3] at this
    rw [this]; rfl
  · intro t h1 h2; rw [hl t h1 h2]; rfl

theorem slotOf_eq (hp : PolicyOk x w) (t : Nat) (ht : t < x.numTracks) : slotOf x w t = some (poseInterp x w t) := by
  unfold slotOf poseInterp
  by_cases h : x.perTrackRounding = true
  · rw [if_pos h, if_pos h, if_neg (hp h t ht)]
  · rw [if_neg h, if_neg h]

theorem init_rotations (x : Context) : (AnimCache.initialize x).rotations =
    ⟨fun _ => none, x.numAnimatedRotations, 0, 0, startRanges x .rotation, start x .rotation x.key0, start x .rotation x.key1⟩ := rfl

theorem init_translations (x : Context) : (AnimCache.initialize x).translations =
    ⟨fun _ => none, x.numAnimatedTranslations, 0, 0, startRanges x .translation, start x .translation x.key0, start x .translation x.key1⟩ := by
  unfold AnimCache.initialize start startRanges
  by_cases hv : x.rotationFormat = .dropWVariable
  · simp only [hv, if_true]
    congr 1 <;> (try congr 1) <;> omega
  · simp only [hv, if_false]; rfl

theorem init_scales (x : Context) (h : x.hasScale = true) : (AnimCache.initialize x).scales =
    some ⟨fun _ => none, x.numAnimatedScales, 0, 0, startRanges x .scale, start x .scale x.key0, start x .scale x.key1⟩ := by
  unfold AnimCache.initialize start startRanges
  simp only [h, if_true]
  by_cases hv : x.rotationFormat = .dropWVariable <;> by_cases ht : x.translationFormat = .varBits <;>
    simp only [hv, ht, if_true, if_false] <;> congr 2 <;> (try congr 1) <;> omega

def noSample : Sample := ⟨.float3 ⟨0, 0, 0⟩, none, none⟩

/-- The animated rotations by rank. -/
def rotV (x : Context) (k : Nat) : Sample × Sample :=
  ((rotationSampleAt x.cfg x.rotationFormat x.clip x.clipRanges x.numAnimatedRotations (start x .rotation x.key0) k).getD noSample,
   (rotationSampleAt x.cfg x.rotationFormat x.clip x.clipRanges x.numAnimatedRotations (start x .rotation x.key1) k).getD noSample)

/-- The animated vectors of a kind by rank. -/
def vecV (x : Context) (kind : Kind) (fmt : VectorFormat) (k : Nat) : Sample × Sample :=
  ((vectorSampleAt x.cfg fmt x.clip (startRanges x kind) (start x kind x.key0) k).getD noSample,
   (vectorSampleAt x.cfg fmt x.clip (startRanges x kind) (start x kind x.key1) k).getD noSample)

theorem rotMem (h : Stores x p) : RotMem x.cfg x.rotationFormat x.clip (startRanges x .rotation) x.numAnimatedRotations
    (start x .rotation x.key0) (start x .rotation x.key1) (rotV x) := by
  refine ⟨h.rawBits, ?_, ?_, fun hs => (h.oneSegment hs).symm, fun h1 h2 => (h.segmentPadding h1 h2).1,
    fun h1 h2 => (h.segmentPadding h1 h2).2, h.clipPadding⟩
  · exact (by_rank h .rotation nofun .animated _ h.animatedRotations _ noSample _ h.rotation0).1
  · exact (by_rank h .rotation nofun .animated _ h.animatedRotations _ noSample _ h.rotation1).1

theorem rotV_track (h : Stores x p) (t : Nat) (ht : t < x.numTracks) (hc : p.class x.hasScale .rotation t = .animated) :
    rotV x (p.rank x.hasScale .rotation .animated t) = p.samples .rotation t := by
  unfold rotV
  rw [h.rotation0 t ht hc, h.rotation1 t ht hc]; rfl

theorem vecMem (h : Stores x p) {kind : Kind} (hk : kind = .scale → x.hasScale = true) {fmt : VectorFormat} {n : Nat}
    (hv : StoresVectors x p kind fmt n) : VecMem x.cfg fmt x.clip (startRanges x kind) n (start x kind x.key0) (start x kind x.key1)
      (vecV x kind fmt) := by
  refine ⟨h.rawBits, ?_, ?_, fun k hk' hf hz => ?_, fun k hk' hf hz => ?_⟩
  · exact (by_rank h kind hk .animated _ hv.number _ noSample _ hv.value0).1
  · exact (by_rank h kind hk .animated _ hv.number _ noSample _ hv.value1).1
  · cases hhs : x.cfg.hasSegments with
    | true => rfl
    | false => exact absurd hz (hv.segmented hhs hf k hk').1
  · cases hhs : x.cfg.hasSegments with
    | true => rfl
    | false => exact absurd hz (hv.segmented hhs hf k hk').2

theorem vecV_track {kind : Kind} {fmt : VectorFormat} {n : Nat} (hv : StoresVectors x p kind fmt n) (t : Nat)
    (ht : t < x.numTracks) (hc : p.class x.hasScale kind t = .animated) :
    vecV x kind fmt (p.rank x.hasScale kind .animated t) = p.samples kind t := by
  unfold vecV
  rw [hv.value0 t ht hc, hv.value1 t ht hc]; rfl

theorem animInv_init {V : Nat → Sample × Sample} {N clip : Nat} {c0 c1 : SegCtx} {pos : Nat → AnimState → Prop}
    (hpos : pos 0 ⟨fun _ => none, N, 0, 0, clip, c0, c1⟩) : AnimInv V N pos 0 ⟨fun _ => none, N, 0, 0, clip, c0, c1⟩ :=
  ⟨rfl, Nat.zero_add _, Nat.le_refl _, by simp, fun _ => rfl, fun _ => hpos, fun j _ hj => absurd hj (by simp)⟩

theorem rotPos_init (x : Context) (c0 c1 : SegCtx) (N clip : Nat) :
    RotPos x.cfg x.rotationFormat x.clip clip c0 c1 0 ⟨fun _ => none, N, 0, 0, clip, c0, c1⟩ := by
  refine ⟨?_, ?_, ?_⟩
  · cases x.rotationFormat <;> rfl
  · cases x.rotationFormat <;> rfl
  · unfold clipRotAt; split <;> rfl

theorem vecPos_init (x : Context) (fmt : VectorFormat) (c0 c1 : SegCtx) (N clip : Nat) :
    VecPos x.cfg fmt x.clip clip c0 c1 0 ⟨fun _ => none, N, 0, 0, clip, c0, c1⟩ := by
  refine ⟨?_, ?_, ?_⟩
  · cases fmt <;> exact ⟨rfl, rfl, rfl, fun _ => rfl⟩
  · cases fmt <;> exact ⟨rfl, rfl, rfl, fun _ => rfl⟩
  · unfold clipVecAt; split <;> rfl

theorem constantCache_eq (x : Context) : x.constantCache =
    ConstCache.init (constantRotationBytes x) x.constantData x.numConstantRotations x.numConstantTranslations := by
  unfold Context.constantCache ConstCache.initialize constantRotationBytes
  cases x.rotationFormat <;> rfl

theorem rotSize_eq (x : Context) : rotSize x.fullRotations = constantRotationBytes x := by
  unfold rotSize constantRotationBytes Context.fullRotations
  cases x.rotationFormat <;> rfl

/-- Decompressing a pose writes exactly the events of the pose: each sub-track of each track once with the value stored
for it, minus those skipped. -/
theorem C14_pose_exactly_once (x : Context) (p : Pose) (w : Writer) (hs : x.sampled = true) (h : Stores x p) (hp : PolicyOk x w) :
    ∃ ev, decompressTracks x w = some ev ∧ ev.Perm (poseEvents x p w) := by
  unfold decompressTracks
  by_cases h0 : x.numTracks = 0
  · rw [if_pos h0]
    refine ⟨[], rfl, ?_⟩
    unfold poseEvents
    rw [h0]; simp
  rw [if_neg h0, hs, if_neg (by decide)]
  dsimp only
  have hkR := kindTable h .rotation nofun
  have hkT := kindTable h .translation nofun
  have pad := h.constantPadding
  -- rotations
  rw [unpackDefaults_spec hkR, Option.bind_some, List.nil_append]
  have qR := by_rank h .rotation nofun .constant _ h.constantRotations
    (rotationAt x.clip x.constantData x.fullRotations x.numConstantRotations) (.full ⟨0, 0, 0, 0⟩) _ h.constantRotation
  obtain ⟨cc1, hc1, s1⟩ := unpackConstantRotations_spec (w := w) (base := x.constantData) (N := x.numConstantRotations) hkR rfl
    (by rw [show (1 : BitVec 32) = code .constant from rfl, rank_count h .rotation nofun]; exact h.constantRotations.symm)
    (by rw [rotSize_eq]; omega) _ qR.1
    x.constantCache (by rw [constantCache_eq]; exact init_inv _ _ _ _ _ _)
    (if w.mode .rotation = .skipped then [] else classEvents (p.flags .rotation) 0 x.numTracks fun t _ => written w .rotation t (defaultValue (w.mode .rotation) t))
  rw [hc1, Option.bind_some]
  dsimp only
  -- translations
  rw [unpackDefaults_spec hkT, Option.bind_some]
  have qT := by_rank h .translation nofun .constant _ h.constantTranslations
    (vec3At x.clip (x.constantData + constantRotationBytes x * x.numConstantRotations)) ⟨0, 0, 0⟩ _ h.constantTranslation
  have hct := fun ev => unpackConstantVectors_spec (w := w) (base := x.constantData + constantRotationBytes x * x.numConstantRotations)
    (N := x.numConstantTranslations) hkT ConstCache.consumeTranslation ConstCache.translations (fun c => ⟨rfl, rfl⟩)
    (fun c d => d.scales = c.scales) (fun _ => rfl) (fun c d hcd => hcd)
    (by rw [show (1 : BitVec 32) = code .constant from rfl, rank_count h .translation nofun]; exact h.constantTranslations.symm)
    (by omega) _ qT.1 cc1 (by rw [s1.1, constantCache_eq]; rfl) ev
  unfold unpackConstantTranslations
  generalize hg1 : _ ++ (if w.mode .translation = .skipped then [] else _) = ev2
  obtain ⟨cc2, hc2, s2⟩ := hct ev2
  rw [hc2, Option.bind_some]
  dsimp only
  subst hg1
  -- animated rotations and translations, for any events before
  have hAR := fun ev => unpackAnimated_spec (w := w) hkR (·.unpackRotationGroup x.cfg x.rotationFormat x.clip)
    (V := rotV x) (N := x.numAnimatedRotations) (pos := RotPos x.cfg x.rotationFormat x.clip (startRanges x .rotation) (start x .rotation x.key0) (start x .rotation x.key1))
    (fun w a r h => h) (fun k a hi => unpackRotationGroup_spec (rotMem h) hi)
    (by rw [show (2 : BitVec 32) = code .animated from rfl, rank_count h .rotation nofun]; exact h.animatedRotations.symm)
    (poseInterp x w) (slotOf_eq hp) (AnimCache.initialize x).rotations (by rw [init_rotations]; exact animInv_init (rotPos_init x _ _ _ _)) ev
  have hAT := fun ev => unpackAnimated_spec (w := w) hkT (·.unpackVectorGroup x.cfg x.translationFormat x.clip)
    (V := vecV x .translation x.translationFormat) (N := x.numAnimatedTranslations)
    (pos := VecPos x.cfg x.translationFormat x.clip (startRanges x .translation) (start x .translation x.key0) (start x .translation x.key1))
    (fun w a r h => h) (fun k a hi => unpackVectorGroup_spec (vecMem (kind := .translation) h nofun h.translations) hi)
    (by rw [show (2 : BitVec 32) = code .animated from rfl, rank_count h .translation nofun]; exact h.translations.number.symm)
    (poseInterp x w) (slotOf_eq hp) (AnimCache.initialize x).translations (by rw [init_translations]; exact animInv_init (vecPos_init x _ _ _ _ _)) ev
  have pR := kind_perm (w := w) h .rotation nofun (fun k => .rotation ((rotationAt x.clip x.constantData x.fullRotations x.numConstantRotations k).getD (.full ⟨0, 0, 0, 0⟩)))
    (rotV x) (fun t ht hc => by rw [qR.2 t ht hc]; rfl) (rotV_track h)
  have pT := kind_perm (w := w) h .translation nofun (fun k => .vector ((vec3At x.clip (x.constantData + constantRotationBytes x * x.numConstantRotations) k).getD ⟨0, 0, 0⟩))
    (vecV x .translation x.translationFormat) (fun t ht hc => by rw [qT.2 t ht hc]; rfl) (vecV_track h.translations)
  unfold poseEvents
  simp only [List.flatMap_cons, List.flatMap_nil, List.append_nil]
  cases hsc : x.hasScale with
  | true =>
    have hkS := kindTable h .scale (fun _ => hsc)
    have hvS := h.scales hsc
    rw [if_pos rfl, unpackDefaults_spec hkS, Option.bind_some]
    have qS := by_rank h .scale (fun _ => hsc) .constant _ rfl
      (vec3At x.clip (x.constantData + constantRotationBytes x * x.numConstantRotations + 12 * x.numConstantTranslations)) ⟨0, 0, 0⟩ _ h.constantScale
    have hcs := fun ev => unpackConstantVectors_spec (w := w) (base := x.constantData + constantRotationBytes x * x.numConstantRotations + 12 * x.numConstantTranslations)
      (N := p.rank x.hasScale .scale .constant x.numTracks) hkS ConstCache.consumeScale ConstCache.scales (fun c => ⟨rfl, rfl⟩)
      (fun c d => True) (fun _ => trivial) (fun c d hcd => trivial)
      (by rw [show (1 : BitVec 32) = code .constant from rfl, rank_count h .scale (fun _ => hsc)])
      (by omega) _ qS.1 cc2 (by rw [s2, s1.2, constantCache_eq]; rfl) ev
    unfold unpackConstantScales
    generalize hg1 : _ ++ (if w.mode .scale = .skipped then [] else _) = ev3
    obtain ⟨cc3, hc3, _⟩ := hcs ev3
    rw [hc3, Option.map_some, Option.bind_some]
    dsimp only
    subst hg1
    generalize hg2 : _ ++ (classEvents (p.flags Kind.scale) 1 x.numTracks _) = ev4
    obtain ⟨a1, ha1⟩ := hAR ev4
    rw [ha1, Option.bind_some]
    dsimp only
    subst hg2
    generalize hg3 : _ ++ (classEvents (p.flags Kind.rotation) 2 x.numTracks _) = ev5
    obtain ⟨a2, ha2⟩ := hAT ev5
    rw [ha2, Option.bind_some]
    dsimp only
    subst hg3
    rw [if_pos rfl, init_scales x hsc, Option.bind_some]
    have hAS := fun ev => unpackAnimated_spec (w := w) hkS (·.unpackVectorGroup x.cfg x.scaleFormat x.clip)
      (V := vecV x .scale x.scaleFormat) (N := x.numAnimatedScales)
      (pos := VecPos x.cfg x.scaleFormat x.clip (startRanges x .scale) (start x .scale x.key0) (start x .scale x.key1))
      (fun w a r h => h) (fun k a hi => unpackVectorGroup_spec (vecMem (kind := .scale) h (fun _ => hsc) hvS) hi)
      (by rw [show (2 : BitVec 32) = code .animated from rfl, rank_count h .scale (fun _ => hsc)]; exact hvS.number.symm)
      (poseInterp x w) (slotOf_eq hp) _ (animInv_init (clip := startRanges x .scale) (vecPos_init x _ _ _ _ _)) ev
    generalize hg4 : _ ++ (classEvents (p.flags Kind.translation) 2 x.numTracks _) = ev6
    obtain ⟨a3, ha3⟩ := hAS ev6
    rw [ha3, Option.map_some]
    subst hg4
    refine ⟨_, rfl, ?_⟩
    have pS := kind_perm (w := w) h .scale (fun _ => hsc) (fun k => .vector ((vec3At x.clip (x.constantData + constantRotationBytes x * x.numConstantRotations + 12 * x.numConstantTranslations) k).getD ⟨0, 0, 0⟩))
      (vecV x .scale x.scaleFormat) (fun t ht hc => by rw [qS.2 t ht hc]; rfl) (vecV_track hvS)
    refine List.Perm.trans ?_ (pR.append (pT.append pS))
    rw [List.perm_iff_count]
    intro e
    simp only [List.count_append]
    omega
  | false =>
    rw [if_neg (by decide)]
    have hS : ∀ ev : List Event, (if w.mode .scale = .skipped then some ev else some (writeDefaultScales w x.numTracks 0 ev)) =
        some (ev ++ (List.range x.numTracks).flatMap fun t => trackEvents x p w .scale t) := by
      intro ev
      have hcl : ∀ t, p.class x.hasScale .scale t = .default := by
        intro t; unfold Pose.class; rw [if_pos ⟨rfl, hsc⟩]
      by_cases hm : w.mode .scale = .skipped
      · rw [if_pos hm]
        have : ((List.range x.numTracks).flatMap fun t => trackEvents x p w .scale t) = [] := by
          rw [List.flatMap_eq_nil_iff]
          intro t _
          unfold trackEvents valueOf
          rw [hcl t, hm]; split <;> rfl
        rw [this, List.append_nil]
      · rw [if_neg hm, writeDefaultScales_spec, ← List.range_eq_range']
        congr 2
        apply flatMap_congr_mem
        intro t _
        unfold trackEvents valueOf
        rw [hcl t, written_eq]
        dsimp only
        cases hm' : w.mode .scale <;> simp [defaultValue]
        exact absurd hm' hm
    rw [hS, Option.bind_some]
    generalize hg2 : _ ++ ((List.range x.numTracks).flatMap fun t => trackEvents x p w .scale t) = ev4
    obtain ⟨a1, ha1⟩ := hAR ev4
    rw [ha1, Option.bind_some]
    dsimp only
    subst hg2
    generalize hg3 : _ ++ (classEvents (p.flags Kind.rotation) 2 x.numTracks _) = ev5
    obtain ⟨a2, ha2⟩ := hAT ev5
    rw [ha2, Option.bind_some]
    dsimp only
    subst hg3
    rw [if_neg (by decide)]
    refine ⟨_, rfl, ?_⟩
    refine List.Perm.trans ?_ (pR.append (pT.append_right _))
    rw [List.perm_iff_count]
    intro e
    simp only [List.count_append]
    omega

theorem perm_short {α : Type} {l L : List α} (h : l.Perm L) (hl : L.length ≤ 1) : l = L := by
  match L, hl with
  | [], _ => exact h.eq_nil
  | [e], _ => exact List.perm_singleton.1 h

/-- The same, sub-track by sub-track: for every kind and every track, the calls made are the one for the stored value,
or none when it is skipped; and no call is made for any other track. -/
theorem C14_each_sub_track_once (x : Context) (p : Pose) (w : Writer) (hs : x.sampled = true) (h : Stores x p) (hp : PolicyOk x w) :
    ∃ ev, decompressTracks x w = some ev ∧ (∀ e ∈ ev, e.track < x.numTracks) ∧
      ∀ kind t, t < x.numTracks → (ev.filter fun e => e.kind = kind ∧ e.track = t) = trackEvents x p w kind t := by
  obtain ⟨ev, hev, perm⟩ := C14_pose_exactly_once x p w hs h hp
  have hmem : ∀ k u, ∀ e ∈ trackEvents x p w k u, e.kind = k ∧ e.track = u := by
    intro k u e he
    unfold trackEvents at he
    split at he
    · simp at he
    · split at he
      · simp at he; rw [he]; exact ⟨rfl, rfl⟩
      · simp at he
  refine ⟨ev, hev, fun e he => ?_, fun kind t ht => ?_⟩
  · have := perm.mem_iff.1 he
    unfold poseEvents at this
    simp only [List.mem_flatMap, List.mem_range] at this
    obtain ⟨k, _, u, hu, he'⟩ := this
    rw [(hmem k u e he').2]; exact hu
  · have hp' := perm.filter (fun e => decide (e.kind = kind ∧ e.track = t))
    have hfil : (poseEvents x p w).filter (fun e => decide (e.kind = kind ∧ e.track = t)) = trackEvents x p w kind t := by
      have hrow : ∀ k, ((List.range x.numTracks).flatMap fun u => trackEvents x p w k u).filter (fun e => decide (e.kind = kind ∧ e.track = t)) =
          if k = kind then trackEvents x p w kind t else [] := by
        intro k
        by_cases hk : k = kind
        · rw [if_pos hk, ← hk]
          have : ∀ n, ((List.range n).flatMap fun u => trackEvents x p w k u).filter (fun e => decide (e.kind = k ∧ e.track = t)) =
              if t < n then trackEvents x p w k t else [] := by
            intro n
            induction n with
            | zero => rfl
            | succ n ih =>
              rw [List.range_succ, List.flatMap_append, List.filter_append, ih]
              simp only [List.flatMap_cons, List.flatMap_nil, List.append_nil]
              by_cases hn : n = t
              · rw [hn, if_neg (by omega), if_pos (by omega), List.nil_append, List.filter_eq_self]
                intro e he; exact decide_eq_true (hmem _ _ e he)
              · have : (trackEvents x p w k n).filter (fun e => decide (e.kind = k ∧ e.track = t)) = [] := by
                  rw [List.filter_eq_nil_iff]
                  intro e he hd
                  exact hn ((hmem _ _ e he).2.symm.trans (of_decide_eq_true hd).2)
                rw [this, List.append_nil]
                by_cases hlt : t < n
                · rw [if_pos hlt, if_pos (by omega)]
                · rw [if_neg hlt, if_neg (by omega)]
          rw [this, if_pos ht]
        · rw [if_neg hk, List.filter_eq_nil_iff]
          intro e he hd
          simp only [List.mem_flatMap] at he
          obtain ⟨u, _, he'⟩ := he
          exact hk ((hmem _ _ e he').1.symm.trans (of_decide_eq_true hd).1)
      unfold poseEvents
      simp only [List.flatMap_cons, List.flatMap_nil, List.append_nil, List.filter_append]
      rw [hrow, hrow, hrow]
      cases kind <;> simp
    rw [hfil] at hp'
    have hlen : (trackEvents x p w kind t).length ≤ 1 := by
      unfold trackEvents
      split
      · simp
      · split <;> simp
    exact perm_short hp' hlen

/-! ### A clip that meets the hypotheses: 18 tracks with every class for every kind, in a clip with segments -/

/-- Flags of the example. -/
def exampleFlags (f : Nat → Nat) : List StreamFlags :=
  (List.range 18).map fun i => if f i % 3 = 0 then ⟨true, true⟩ else if f i % 3 = 1 then ⟨false, true⟩ else ⟨false, false⟩

/-- Key frame data of the example. -/
def exampleKey (fmt seg seed : Nat) : KeyFrame :=
  ⟨fmt, seg, (List.range 250).map fun i => BitVec.ofNat 8 (i * 91 + seed), 3 + seed, 200, 220⟩

/-- The context of the example. -/
def exampleBase : Context :=
  { clip := (List.range 1200).map fun i =>
      if i < 800 ∨ 900 ≤ i then BitVec.ofNat 8 (i * 37 + i / 7) else if i % 9 = 0 then 0 else if i % 11 = 0 then 31 else BitVec.ofNat 8 (i % 13 + 1)
    types := writePackedSubTrackTypes true (exampleFlags id) (exampleFlags (· + 1)) (exampleFlags (· / 2))
    numTracks := 18
    hasScale := true
    sampled := true
    rotationFormat := .dropWVariable
    translationFormat := .varBits
    scaleFormat := .varBits
    cfg := ⟨31, true, false⟩
    perTrackRounding := false
    rounding := .nearest
    constantData := 4
    clipRanges := 300
    numConstantRotations := 6
    numConstantTranslations := 6
    numAnimatedRotations := 6
    numAnimatedTranslations := 6
    numAnimatedScales := 6
    key0 := exampleKey 800 900 5
    key1 := exampleKey 850 1020 8 }

/-- The context of the example, with and without per track rounding. -/
def exampleContext (perTrack : Bool) : Context := { exampleBase with perTrackRounding := perTrack }

/-- The pose of the example. -/
def examplePose : Pose :=
  let x := exampleBase
  let flags : Pose := ⟨exampleFlags id, exampleFlags (· + 1), exampleFlags (· / 2), fun _ => .dropW ⟨0, 0, 0⟩, fun _ _ => ⟨0, 0, 0⟩, fun _ _ => (noSample, noSample)⟩
  { flags with
    rotation := fun t => (rotationAt x.clip 4 false 6 (flags.rank true .rotation .constant t)).getD (.dropW ⟨0, 0, 0⟩)
    vector := fun kind t => (vec3At x.clip (if kind = .translation then 76 else 148) (flags.rank true kind .constant t)).getD ⟨0, 0, 0⟩
    samples := fun kind t => match kind with
      | .rotation => rotV x (flags.rank true kind .animated t)
      | _ => vecV x kind .varBits (flags.rank true kind .animated t) }

theorem example_vectors (kind : Kind) (hk : kind = .translation ∨ kind = .scale) :
    StoresVectors exampleBase examplePose kind .varBits 6 where
  number := by rcases hk with rfl | rfl <;> decide +kernel
  value0 := by rcases hk with rfl | rfl <;> decide +kernel
  value1 := by rcases hk with rfl | rfl <;> decide +kernel
  segmented := fun h => absurd h (by decide +kernel)
  padding := by rcases hk with rfl | rfl <;> decide +kernel

theorem example_base : Stores exampleBase examplePose where
  lenR := by decide +kernel
  lenT := by decide +kernel
  lenS := by decide +kernel
  small := by decide +kernel
  types := by decide +kernel
  rawBits := by decide +kernel
  oneSegment := fun h => absurd h (by decide +kernel)
  constantRotations := by decide +kernel
  constantTranslations := by decide +kernel
  constantRotation := by decide +kernel
  constantTranslation := by decide +kernel
  constantScale := by decide +kernel
  constantPadding := by decide +kernel
  animatedRotations := by decide +kernel
  rotation0 := by decide +kernel
  rotation1 := by decide +kernel
  segmentPadding := by decide +kernel
  clipPadding := by decide +kernel
  formatPadding := by decide +kernel
  translations := example_vectors _ (.inl rfl)
  scales := fun _ => example_vectors _ (.inr rfl)

theorem Stores.withPerTrack {x : Context} {p : Pose} (h : Stores x p) (b : Bool) : Stores { x with perTrackRounding := b } p where
  lenR := h.lenR
  lenT := h.lenT
  lenS := h.lenS
  small := h.small
  types := h.types
  rawBits := h.rawBits
  oneSegment := h.oneSegment
  constantRotations := h.constantRotations
  constantTranslations := h.constantTranslations
  constantRotation := h.constantRotation
  constantTranslation := h.constantTranslation
  constantScale := h.constantScale
  constantPadding := h.constantPadding
  animatedRotations := h.animatedRotations
  rotation0 := h.rotation0
  rotation1 := h.rotation1
  segmentPadding := h.segmentPadding
  clipPadding := h.clipPadding
  formatPadding := h.formatPadding
  translations := ⟨h.translations.number, h.translations.value0, h.translations.value1, h.translations.segmented, h.translations.padding⟩
  scales := fun hs => ⟨(h.scales hs).number, (h.scales hs).value0, (h.scales hs).value1, (h.scales hs).segmented, (h.scales hs).padding⟩

theorem example_stores (perTrack : Bool) : Stores (exampleContext perTrack) examplePose := example_base.withPerTrack perTrack

/-- A writer: constant defaults, no default scale, translation 7 skipped, even tracks rounded down. -/
def exampleWriter : Writer :=
  { mode := fun kind => if kind = .scale then .skipped else if kind = .rotation then .constant else .variable
    skipAll := fun _ => false
    skipTrack := fun kind t => kind = .translation ∧ t = 7
    rounding := fun p t => if t % 2 = 0 then .floor else p }

example (perTrack : Bool) : ∃ ev, decompressTracks (exampleContext perTrack) exampleWriter = some ev ∧
    ev.Perm (poseEvents (exampleContext perTrack) examplePose exampleWriter) :=
  C14_pose_exactly_once _ _ _ (by cases perTrack <;> rfl) (example_stores perTrack) (by
    intro _ t _; show (if t % 2 = 0 then (.floor : Rounding) else (.nearest : Rounding)) ≠ _; split <;> decide)

/-- The pose of the example has 18 + 17 + 12 events. -/
example : (poseEvents (exampleContext true) examplePose exampleWriter).length = 47 := by decide +kernel

end Acl.C14
