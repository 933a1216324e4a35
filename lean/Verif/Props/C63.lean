import Verif.Transform.CompactLemmas
/-!
C63: constant and default sub-tracks. A sub-track is stored as one value, or as nothing, exactly when this costs no more than the
precision of the bone at every sample, for the error metric of the settings; raw formats only lose the sign of zeros.
Specification vocabulary: `Detected`, `DetectedExact`, `Replaceable`, `SameFloats`, `mixed`, `valueAt`, `qvvAt` (Transform/CompactLemmas.lean).
-/
namespace Acl.C63
open Acl.F32 Acl.Transform Acl.Compact

/-- The detection as it is called: initialize_clip_context sets has_scale (clip_context.impl.h:173), and the ranges are those of the samples
(compress.transform.impl.h:243-246). -/
def detect {C E : Type} [LinearOrder E] (S : Setup C E) (n : Nat) (bones : List (Qvv × (Kind → List Vec4))) : Option (List Streams × Bool) :=
  Compact.compact S n true (bones.map fun d => (d.1, Streams.ofSamples d.2))

/-- Specification: what the decoder returns for a sub-track that is not quantized: the default value of the track, or the sample. -/
def decoded {C E : Type} (S : Setup C E) (defaults : Qvv) (o : Streams) (kind : Kind) (i : Nat) : Vec4 :=
  if (o.flags kind).isDefault then defaults.get kind else S.read kind (valueAt (o.samples kind) i)

/-- Specification: the number of constant sub-tracks of a bone. -/
def numConstant (o : Streams) : ℚ :=
  (if (o.flags .rotation).isConstant then 1 else 0) + (if (o.flags .translation).isConstant then 1 else 0) +
    (if (o.flags .scale).isConstant then 1 else 0)

variable {C E : Type} [LinearOrder E]

/-- **C63.** The detection succeeds for every clip with samples, and gives a bone for a bone. A sub-track with a lossy format
becomes constant if and only if its first sample can replace all of them: at every sample the error the metric reports for the
transform with the replaced sub-track is at most the precision of the bone. It becomes a default one if and only if it is constant
and its default value can replace all its samples too. What is stored is the default value, respectively the first sample; every
other sub-track keeps its samples, bit for bit. -/
theorem C63_lossy (S : Setup C E) {n : Nat} (hn : 0 < n) (bones : List (Qvv × (Kind → List Vec4)))
    (hb : ∀ d ∈ bones, ∀ kind, (d.2 kind).length = n) :
    ∃ out hasScale, detect S n bones = some (out, hasScale) ∧ out.length = bones.length ∧
      ∀ (bone : Nat) (defaults : Qvv) (raw : Kind → List Vec4) (o : Streams), bones[bone]? = some (defaults, raw) → out[bone]? = some o →
        ∀ kind, S.isFull kind = false → Detected S n bone defaults raw o kind := by
  obtain ⟨out, he, hlen, hall⟩ := compactFrom_spec S hn bones 0 hb
  refine ⟨out, _, by unfold detect Compact.compact; rw [he]; rfl, hlen, ?_⟩
  intro bone d raw o hd ho kind hk
  obtain ⟨o', h1, h2⟩ := hall bone d raw hd
  rw [ho] at h1
  obtain rfl := Option.some.inj h1
  rw [Nat.zero_add] at h2
  obtain ⟨o'', h3, h4, -⟩ := detected S (bone := bone) hn d (hb _ (List.mem_of_getElem? hd))
  rw [h2] at h3
  obtain rfl := Option.some.inj h3
  exact h4 kind hk

/-- **C63.** With a raw format a sub-track only becomes constant if all its samples are equal, component by component, and every
such sub-track is found unless its values are beyond 1e10. It becomes a default one if and only if this value equals the
default value in all four components. -/
theorem C63_exact (S : Setup C E) {n : Nat} (hn : 0 < n) (bones : List (Qvv × (Kind → List Vec4)))
    (hb : ∀ d ∈ bones, ∀ kind, (d.2 kind).length = n) {out : List Streams} {hasScale : Bool} (he : detect S n bones = some (out, hasScale))
    {bone : Nat} {defaults : Qvv} {raw : Kind → List Vec4} {o : Streams} (hd : bones[bone]? = some (defaults, raw)) (ho : out[bone]? = some o)
    {kind : Kind} (hk : S.isFull kind = true) : DetectedExact n defaults raw o kind := by
  obtain ⟨out', he', hlen, hall⟩ := compactFrom_spec S hn bones 0 hb
  unfold detect Compact.compact at he
  rw [he'] at he
  dsimp only [Option.bind_eq_bind, Option.bind_some] at he
  obtain ⟨rfl, -⟩ := Prod.mk.inj (Option.some.inj he)
  obtain ⟨o', h1, h2⟩ := hall bone defaults raw hd
  rw [ho] at h1
  obtain rfl := Option.some.inj h1
  rw [Nat.zero_add] at h2
  obtain ⟨o'', h3, -, h4⟩ := detected S (bone := bone) hn defaults (hb _ (List.mem_of_getElem? hd))
  rw [h2] at h3
  obtain rfl := Option.some.inj h3
  exact h4 kind hk

/-- With a raw format every sample decodes to a value that is equal to it. -/
theorem exact_values {n : Nat} {defaults : Qvv} {raw : Kind → List Vec4} {o : Streams} {kind : Kind} (h : DetectedExact n defaults raw o kind)
    (S : Setup C E) (hk : S.isFull kind = true) {i : Nat} (hi : i < n) : SameFloats kind (decoded S defaults o kind i) (valueAt (raw kind) i) := by
  have hread : ∀ v, S.read kind v = v := by
    intro v
    unfold Setup.read
    rw [if_neg]
    rintro ⟨rfl, h2⟩
    exact h2 (by simpa [Setup.isFull] using hk)
  have refl : ∀ v, SameFloats kind v v := fun v => ⟨rfl, rfl, rfl, fun _ => rfl⟩
  unfold decoded
  rw [hread]
  cases hc : (o.flags kind).isConstant with
  | false =>
    have hd : (o.flags kind).isDefault = false := by
      cases hd : (o.flags kind).isDefault with
      | false => rfl
      | true => rw [(h.default.mp hd).1] at hc; exact absurd hc (by simp)
    rw [hd, if_neg (by simp), h.animated hc]
    exact refl _
  | true =>
    obtain ⟨c1, c2, c3, c4⟩ := h.constant hc i hi
    cases hd : (o.flags kind).isDefault with
    | true =>
      obtain ⟨-, d1, d2, d3, d4⟩ := h.default.mp hd
      rw [if_pos rfl]
      exact ⟨(c1.trans d1).symm, (c2.trans d2).symm, (c3.trans d3).symm, fun hr => ((c4 hr).trans (d4 rfl)).symm⟩
    | false =>
      rw [if_neg (by simp), h.value hc, hd]
      exact ⟨c1.symm, c2.symm, c3.symm, fun hr => (c4 hr).symm⟩

/-- **C63.** With raw formats the detection is lossless: every sample of every sub-track decodes to the input, up to the sign of
zeros (and the fourth component of vectors). -/
theorem C63_lossless (S : Setup C E) {n : Nat} (hn : 0 < n) (bones : List (Qvv × (Kind → List Vec4)))
    (hb : ∀ d ∈ bones, ∀ kind, (d.2 kind).length = n) {out : List Streams} {hasScale : Bool} (he : detect S n bones = some (out, hasScale))
    {bone : Nat} {defaults : Qvv} {raw : Kind → List Vec4} {o : Streams} (hd : bones[bone]? = some (defaults, raw)) (ho : out[bone]? = some o)
    {kind : Kind} (hk : S.isFull kind = true) {i : Nat} (hi : i < n) :
    SameFloats kind (decoded S defaults o kind i) (valueAt (raw kind) i) :=
  exact_values (C63_exact S hn bones hb he hd ho hk) S hk hi

theorem valueAt_single (v : Vec4) (i : Nat) : valueAt [v] i = v := by rfl

/-- One sub-track: the error of its replacement. -/
theorem step {S : Setup C ℚ} {n bone : Nat} {defaults : Qvv} {raw : Kind → List Vec4} {o : Streams} {kind : Kind}
    (h : Detected S n bone defaults raw o kind) (hrefl : ∀ i a, S.distance bone i a a ≤ 0) {i : Nat} (hi : i < n)
    {t : Qvv} (ht : t = qvvAt S (mixed raw o.samples kind) i) :
    S.distance bone i t (t.set kind (decoded S defaults o kind i)) ≤ if (o.flags kind).isConstant then S.precision bone else 0 := by
  subst ht
  cases hc : (o.flags kind).isConstant with
  | true =>
    rw [if_pos rfl]
    unfold decoded
    cases hd : (o.flags kind).isDefault with
    | true =>
      rw [if_pos rfl]
      exact (h.default.mp hd).2 i hi
    | false =>
      rw [if_neg (by simp), h.value hc, hd, valueAt_single]
      exact h.constant.mp hc i hi
  | false =>
    have hd : (o.flags kind).isDefault = false := by
      cases hd : (o.flags kind).isDefault with
      | false => rfl
      | true => rw [(h.default.mp hd).1] at hc; exact absurd hc (by simp)
    rw [if_neg (by simp)]
    unfold decoded
    rw [hd, if_neg (by simp), h.animated hc]
    have : (qvvAt S (mixed raw o.samples kind) i).set kind (S.read kind (valueAt (raw kind) i)) = qvvAt S (mixed raw o.samples kind) i := by
      cases kind with
      | rotation => rfl
      | translation => unfold Qvv.set qvvAt mixed Kind.earlier; rw [read_vector S (by decide)]; rfl
      | scale => unfold Qvv.set qvvAt mixed Kind.earlier; rw [read_vector S (by decide)]; rfl
    rw [this]
    exact hrefl i _

/-- **C63.** What the claims above mean by a full precision format and by the error: each sub-track has its own format; without
an additive base the metric compares the transforms, with one it compares what they give over the transform of the same bone of the
base, at the sample of the base for that time. -/
theorem C63_measure {C E : Type} (S : Setup C E) :
    ((S.isFull .rotation = true ↔ S.rotationFormat = .quatfFull) ∧ (S.isFull .translation = true ↔ S.translationFormat = .full) ∧
      (S.isFull .scale = true ↔ S.scaleFormat = .full)) ∧
    (S.base = none → ∀ bone i a b, S.distance bone i a b = S.error bone (S.convert i false a) (S.convert i true b)) ∧
    (∀ base, S.base = some base → ∀ bone i a b, ∃ t, t = S.convertBase (S.baseKey i) (base bone (S.baseKey i)) ∧
      S.distance bone i a b = S.error bone (S.additive t (S.convert i false a)) (S.additive t (S.convert i true b))) := by
  refine ⟨⟨by simp [Setup.isFull], by simp [Setup.isFull], by simp [Setup.isFull]⟩, fun h bone i a b => ?_, fun base h bone i a b => ⟨_, rfl, ?_⟩⟩
  · simp only [Setup.distance, Setup.prepared, h]
  · simp only [Setup.distance, Setup.prepared, h]

/-- **C63.** A whole bone: when the metric obeys the triangle inequality (distances between points do) and the default rotation is one
that survives dropping its W, the error of the bone at any sample is at most the precision times the number of its constant sub-tracks. -/
theorem C63_total (S : Setup C ℚ) {n : Nat} (hn : 0 < n) (bones : List (Qvv × (Kind → List Vec4)))
    (hb : ∀ d ∈ bones, ∀ kind, (d.2 kind).length = n) {out : List Streams} {hasScale : Bool} (he : detect S n bones = some (out, hasScale))
    {bone : Nat} {defaults : Qvv} {raw : Kind → List Vec4} {o : Streams} (hd : bones[bone]? = some (defaults, raw)) (ho : out[bone]? = some o)
    (hfull : ∀ kind, S.isFull kind = false)
    (hrefl : ∀ i a, S.distance bone i a a ≤ 0)
    (htri : ∀ i a b c, S.distance bone i a c ≤ S.distance bone i a b + S.distance bone i b c)
    (hdef : S.read .rotation defaults.rotation = defaults.rotation) {i : Nat} (hi : i < n) :
    S.distance bone i (qvvAt S raw i) ⟨decoded S defaults o .rotation i, decoded S defaults o .translation i, decoded S defaults o .scale i⟩ ≤
      numConstant o * S.precision bone := by
  obtain ⟨out', hs', he', -, hall⟩ := C63_lossy S hn bones hb
  rw [he] at he'
  obtain ⟨rfl, rfl⟩ := Prod.mk.inj (Option.some.inj he')
  have h := fun kind => hall bone defaults raw o hd ho kind (hfull kind)
  -- the current value of a sub-track is what is decoded
  have cur : ∀ kind, S.read kind (valueAt (o.samples kind) i) = decoded S defaults o kind i := by
    intro kind
    unfold decoded
    cases hdd : (o.flags kind).isDefault with
    | false => rw [if_neg (by simp)]
    | true =>
      rw [if_pos rfl, (h kind).value ((h kind).default.mp hdd).1, hdd, if_pos rfl, valueAt_single]
      cases kind with
      | rotation => exact hdef
      | translation => exact read_vector S (by decide) _
      | scale => exact read_vector S (by decide) _
  have curt := cur .translation
  have curs := cur .scale
  rw [read_vector S (by decide)] at curt curs
  have s1 := step (h .rotation) hrefl hi (t := qvvAt S raw i) rfl
  have s2 := step (h .translation) hrefl hi (t := (qvvAt S raw i).set .rotation (decoded S defaults o .rotation i)) (by
    unfold Qvv.set qvvAt mixed Kind.earlier; rw [← cur .rotation]; rfl)
  have s3 := step (h .scale) hrefl hi
    (t := ((qvvAt S raw i).set .rotation (decoded S defaults o .rotation i)).set .translation (decoded S defaults o .translation i)) (by
      unfold Qvv.set qvvAt mixed Kind.earlier; rw [← cur .rotation, ← curt]; rfl)
  have t1 := htri i (qvvAt S raw i) ((qvvAt S raw i).set .rotation (decoded S defaults o .rotation i))
    ((((qvvAt S raw i).set .rotation (decoded S defaults o .rotation i)).set .translation (decoded S defaults o .translation i)).set .scale
      (decoded S defaults o .scale i))
  have t2 := htri i ((qvvAt S raw i).set .rotation (decoded S defaults o .rotation i))
    (((qvvAt S raw i).set .rotation (decoded S defaults o .rotation i)).set .translation (decoded S defaults o .translation i))
    ((((qvvAt S raw i).set .rotation (decoded S defaults o .rotation i)).set .translation (decoded S defaults o .translation i)).set .scale
      (decoded S defaults o .scale i))
  have hfin : (((qvvAt S raw i).set .rotation (decoded S defaults o .rotation i)).set .translation (decoded S defaults o .translation i)).set .scale
      (decoded S defaults o .scale i) = ⟨decoded S defaults o .rotation i, decoded S defaults o .translation i, decoded S defaults o .scale i⟩ := rfl
  rw [hfin] at t1 t2 s3
  unfold numConstant
  have key : ∀ (c : Bool), (if c then S.precision bone else 0) = (if c then (1 : ℚ) else 0) * S.precision bone := by
    intro c; cases c <;> simp
  rw [key] at s1 s2 s3
  linarith

/-- **C63.** The clip is said to have scale if and only if the scale of some bone is not the default one. -/
theorem C63_has_scale (S : Setup C E) {n : Nat} (hn : 0 < n) (bones : List (Qvv × (Kind → List Vec4)))
    (hb : ∀ d ∈ bones, ∀ kind, (d.2 kind).length = n) {out : List Streams} {hasScale : Bool} (he : detect S n bones = some (out, hasScale)) :
    hasScale = true ↔ ∃ o ∈ out, (o.flags .scale).isDefault = false := by
  obtain ⟨out', he', hlen, hall⟩ := compactFrom_spec S hn bones 0 hb
  unfold detect Compact.compact at he
  rw [he'] at he
  dsimp only [Option.bind_eq_bind, Option.bind_some] at he
  obtain ⟨rfl, rfl⟩ := Prod.mk.inj (Option.some.inj he)
  rw [List.length_map, ← hlen, bne_iff_ne, ne_eq, List.length_filter_eq_length_iff]
  constructor
  · intro h
    by_contra hno
    push Not at hno
    refine h ?_
    intro o ho
    have hdef : (o.flags .scale).isDefault = true := by simpa using hno o ho
    obtain ⟨k, hk, hko⟩ := List.mem_iff_getElem.mp ho
    have hk' : k < bones.length := by omega
    obtain ⟨⟨d, raw⟩, hd⟩ : ∃ x, bones[k]? = some x := ⟨_, List.getElem?_eq_getElem hk'⟩
    obtain ⟨o', h1, h2⟩ := hall k d raw hd
    rw [List.getElem?_eq_getElem hk, hko] at h1
    obtain rfl := Option.some.inj h1
    rw [Nat.zero_add] at h2
    obtain ⟨o'', h3, h4, h5⟩ := detected S (bone := k) hn d (hb _ (List.mem_of_getElem? hd))
    rw [h2] at h3
    obtain rfl := Option.some.inj h3
    rw [hdef, Bool.and_true]
    cases hf : S.isFull .scale with
    | false => exact ((h4 .scale hf).default.mp hdef).1
    | true => exact ((h5 .scale hf).default.mp hdef).1
  · rintro ⟨o, ho, hd⟩ h
    have := h o ho
    rw [hd] at this
    simp at this

/-- **C63.** Without samples every sub-track is a default one, and there is no scale. -/
theorem C63_empty (S : Setup C E) (bones : List (Qvv × (Kind → List Vec4))) :
    ∃ out, detect S 0 bones = some (out, false) ∧ out.length = bones.length ∧
      ∀ o ∈ out, ∀ kind, (o.flags kind).isDefault = true ∧ (o.flags kind).isConstant = true := by
  have sub : ∀ (bone : Nat) (d : Qvv) (kind : Kind) (b : Streams), compactSubTrack S 0 true bone d kind b = some (b.replace kind (defaultOf d kind) true) := by
    intro bone d kind b
    unfold compactSubTrack isConstant isDefault firstValue
    simp
  have bone : ∀ (bone : Nat) (d : Qvv) (b : Streams), ∃ o, compactBone S 0 true bone d b = some o ∧
      ∀ kind, (o.flags kind).isDefault = true ∧ (o.flags kind).isConstant = true := by
    intro bone d b
    unfold compactBone
    rw [sub]
    dsimp only [Option.bind_eq_bind, Option.bind_some]
    rw [sub]
    dsimp only [Option.bind_some]
    rw [sub]
    refine ⟨_, rfl, ?_⟩
    intro kind
    cases kind <;> exact ⟨rfl, rfl⟩
  have all : ∀ (l : List (Qvv × Streams)) (first : Nat), ∃ out, compactFrom S 0 true first l = some out ∧ out.length = l.length ∧
      ∀ o ∈ out, ∀ kind, (o.flags kind).isDefault = true ∧ (o.flags kind).isConstant = true := by
    intro l
    induction l with
    | nil => intro first; exact ⟨[], rfl, rfl, by simp⟩
    | cons x rest ih =>
      intro first
      obtain ⟨o, h1, h2⟩ := bone first x.1 x.2
      obtain ⟨out, h3, h4, h5⟩ := ih (first + 1)
      refine ⟨o :: out, ?_, by simp [h4], ?_⟩
      · unfold compactFrom
        rw [h1]
        dsimp only [Option.bind_eq_bind, Option.bind_some]
        rw [h3]
        rfl
      · intro o' ho'
        rcases List.mem_cons.mp ho' with h | h
        · rw [h]; exact h2
        · exact h5 o' h
  obtain ⟨out, h1, h2, h3⟩ := all (bones.map fun d => (d.1, Streams.ofSamples d.2)) 0
  refine ⟨out, ?_, by rw [h2, List.length_map], h3⟩
  unfold detect Compact.compact
  rw [h1, Option.bind_eq_bind, Option.bind_some, List.filter_eq_self.mpr (fun o ho => by simp [h3 o ho .scale])]
  simp [h2]

/-! ### A concrete case, and what the claims leave open -/

def zero4 : Vec4 := ⟨0, 0, 0, 0⟩
def one4 : Vec4 := ⟨0x3F800000#32, 0, 0, 0⟩
/-- A metric on one axis: the sum of the first components. -/
def exSetup (format : VectorFormat) : Setup ℚ ℚ where
  rotationFormat := .dropWVariable
  translationFormat := format
  scaleFormat := format
  rebuildW := fun v => v
  convert := fun _ _ t => ofBits t.rotation.x + ofBits t.translation.x
  convertBase := fun _ _ => 0
  additive := fun b a => b + a
  error := fun _ a b => |a - b|
  precision := fun _ => 1
  base := none
  baseKey := fun i => i
/-- A rotation and a translation that vary by the precision, and a scale that is the default one. -/
def exBone : Qvv × (Kind → List Vec4) := (⟨zero4, one4, one4⟩, fun k => if k = .scale then [one4, one4] else [zero4, one4])

theorem ex_lengths : ∀ d ∈ [exBone], ∀ kind, (d.2 kind).length = 2 := by
  intro d hd kind
  rw [List.mem_singleton] at hd
  subst hd
  cases kind <;> rfl

/-- From a check of the result to the result. -/
theorem found {S : Setup ℚ ℚ} {n : Nat} (hn : 0 < n) {b : Qvv × (Kind → List Vec4)} (hb : ∀ d ∈ [b], ∀ kind, (d.2 kind).length = n)
    (P : Streams → Prop) [DecidablePred P] (scale : Bool)
    (h : ((detect S n [b]).bind fun p => p.1[0]?.map fun o => decide (P o)) = some true) (hs : (detect S n [b]).map (·.2) = some scale) :
    ∃ o, detect S n [b] = some ([o], scale) ∧ P o := by
  obtain ⟨out, s, he, hlen, -⟩ := C63_lossy S hn [b] hb
  rw [he] at h hs ⊢
  obtain ⟨o, rfl⟩ : ∃ o, out = [o] := List.length_eq_one_iff.mp hlen
  refine ⟨o, ?_, ?_⟩
  · rw [Option.map_some] at hs
    have : s = scale := Option.some.inj hs
    rw [this]
  · simpa using h

/-- Everything is constant, the scale and the rotation are default ones, and so is the translation. -/
example : ∃ o, detect (exSetup .varBits) 2 [exBone] = some ([o], false) ∧ (numConstant o = 3 ∧ (o.flags .translation).isDefault = true) :=
  found (by omega) ex_lengths _ false (by decide +kernel) (by decide +kernel)

/-- With a precision below the variation nothing but the scale is constant; the scale of the other bone is not the default one. -/
example : ∃ o, detect { exSetup .varBits with precision := fun _ => 1 / 2 } 2 [(⟨zero4, one4, one4⟩, exBone.2)] = some ([o], false) ∧
    (numConstant o = 1 ∧ (o.flags .scale).isDefault = true) :=
  found (by omega) ex_lengths _ false (by decide +kernel) (by decide +kernel)

/-- **C63.** The bound of `C63_total` is approached: the sub-tracks are tested one after the other, each one against the already
replaced ones, and the errors add up. Here every sub-track is within the precision and the bone is not. -/
theorem C63_total_finding : ∃ o, detect (exSetup .varBits) 2 [(⟨zero4, zero4, one4⟩, exBone.2)] = some ([o], false) ∧
    (exSetup .varBits).precision 0 < (exSetup .varBits).distance 0 1 (qvvAt (exSetup .varBits) exBone.2 1)
      ⟨decoded (exSetup .varBits) ⟨zero4, zero4, one4⟩ o .rotation 1, decoded (exSetup .varBits) ⟨zero4, zero4, one4⟩ o .translation 1,
        decoded (exSetup .varBits) ⟨zero4, zero4, one4⟩ o .scale 1⟩ :=
  found (by omega) (by intro d hd kind; rw [List.mem_singleton] at hd; subst hd; cases kind <;> rfl) _ false (by decide +kernel) (by decide +kernel)

/-- **C63.** "Binary exact" (compact.transform.h:212) is not: a raw translation of +0 and -0 becomes constant, and the sign is lost. -/
theorem C63_zero_finding : ∃ o, detect (exSetup .full) 2 [(⟨zero4, one4, one4⟩,
      fun k => if k = .translation then [zero4, ⟨0x80000000#32, 0, 0, 0⟩] else [one4, one4])] = some ([o], false) ∧
    (decoded (exSetup .full) ⟨zero4, one4, one4⟩ o .translation 1).x = 0 :=
  found (by omega) (by intro d hd kind; rw [List.mem_singleton] at hd; subst hd; cases kind <;> rfl) _ false (by decide +kernel) (by decide +kernel)

end Acl.C63
