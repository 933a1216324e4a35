import Verif.Transform.AnimatedVectors
/-!
C42: the reader of groups of four animated sub-tracks and the reader of a single sub-track return the same samples and
reach the same place in the data, whatever the bit rates of the group.
Specification vocabulary: `rotationSampleAt`, `vectorSampleAt` (Transform/AnimatedSpec.lean: where the sample of
sub-track `k` is), `drain` and `single` below.
-/
namespace Acl.C42
open Acl.Transform

/-- The whole pose reader: a group is unpacked every four samples, samples are handed out one by one. -/
def drain (unpackGroup : AnimState → Option AnimState) : Nat → AnimState → Option (List (Sample × Sample))
  | 0, _ => some []
  | n + 1, a =>
    (if a.read % 4 = 0 then unpackGroup a else some a).bind fun a =>
    a.consume.bind fun (s, a) => (drain unpackGroup n a).map (s :: ·)

/-- The single sub-track reader: skip the groups before that of sub-track `k`, then read its lane. -/
def single (skipGroups : AnimState → Nat → Option AnimState) (lane : AnimState → Nat → Option (Sample × Sample))
    (k : Nat) (a : AnimState) : Option (Sample × Sample) :=
  (if k / 4 ≠ 0 then skipGroups a (k / 4) else some a).bind fun a => lane a (k % 4)

theorem rotAt_zero (cfg : AnimCfg) (fmt : RotationFormat) (m : List (BitVec 8)) (c : SegCtx) : c = c.rotAt cfg fmt m 0 := by
  cases fmt <;> rfl

theorem vecAt_zero (cfg : AnimCfg) (fmt : VectorFormat) (m : List (BitVec 8)) (c : SegCtx) : c = c.vecAt cfg fmt m 0 := by
  cases fmt <;> rfl

theorem setGroup_lane {samples : Nat → Option (Sample × Sample)} {slot g : Nat} (hslot : slot + 4 ≤ 8) (hg : g ≤ 4)
    (v : Nat → Sample × Sample) :
    ∃ s', setGroup samples slot ((List.range' 0 g).map fun j => (v j).1) ((List.range' 0 g).map fun j => (v j).2) = some s' ∧
      ∀ j, j < g → s' (slot + j) = some (v j) := by
  refine ⟨_, by unfold setGroup; rw [if_pos hslot], ?_⟩
  intro j hj
  rw [if_pos (by omega), show slot + j - slot = j by omega]
  have e : ∀ (f : Nat → Sample), ((List.range' 0 g).map f)[j]? = some (f j) := by
    intro f
    rw [List.getElem?_map, List.getElem?_range' hj, Option.map_some, Nat.zero_add, Nat.one_mul]
  exact List.getElem?_zip_eq_some.2 ⟨e _, e _⟩

/-- One group of rotations: for every mix of bit rates, lane `j` of the group reader is what the single reader returns
for lane `j`, and the group reader ends where skipping the group ends. -/
theorem C42_rotation_group_eq_single (cfg : AnimCfg) (fmt : RotationFormat) (m : List (BitVec 8)) (a : AnimState)
    (v : Nat → Sample × Sample) (hraw : cfg.rawBits ≠ 0)
    (hleft : 0 < a.left) (hroom : a.write < a.read + 4) (halign : a.write % 4 = 0)
    (hsingle : ∀ j, j < min a.left 4 → a.rotationWithinGroup cfg fmt m j = some (v j))
    (hsame : cfg.singleSegment = true → a.s1.seg = a.s0.seg)
    (hpad0 : fmt = .dropWVariable → cfg.hasSegments = true → a.s0.seg + 32 ≤ m.length)
    (hpad1 : fmt = .dropWVariable → cfg.hasSegments = true → a.s1.seg + 32 ≤ m.length)
    (hpadc : fmt = .dropWVariable → a.clip + 20 * min a.left 4 + 16 ≤ m.length) :
    ∃ a', a.unpackRotationGroup cfg fmt m = some a' ∧
      (∀ j, j < min a.left 4 → a'.samples ((a.write + j) % 8) = some (v j)) ∧
      a'.write = a.write + min a.left 4 ∧ a'.left = a.left - min a.left 4 ∧
      (∀ b, a.skipRotationGroups cfg fmt m 1 = some b →
        a'.left = b.left ∧ a'.clip = b.clip ∧ a'.s0 = b.s0 ∧ a'.s1 = b.s1) := by
  obtain ⟨g, hg⟩ : ∃ g, g = min a.left 4 := ⟨_, rfl⟩
  rw [← hg] at hsingle hpadc ⊢
  have hs : ∀ j, j < g → unpackSingleQuat cfg fmt m j g a.clip a.s0 = some (v j).1 ∧
      unpackSingleQuat cfg fmt m j g a.clip a.s1 = some (v j).2 := by
    intro j hj
    have := hsingle j hj
    unfold AnimState.rotationWithinGroup at this
    rw [if_pos (by omega)] at this
    dsimp only at this
    rw [← hg] at this
    cases h0 : unpackSingleQuat cfg fmt m j g a.clip a.s0 with
    | none => rw [h0] at this; cases this
    | some x =>
      rw [h0, Option.bind_some] at this
      cases h1 : unpackSingleQuat cfg fmt m j g a.clip a.s1 with
      | none => rw [h1] at this; cases this
      | some y =>
        rw [h1, Option.bind_some] at this
        rw [← Option.some.inj this]; exact ⟨rfl, rfl⟩
  obtain ⟨s0, s1, hu, h4⟩ := unpackRotationGroup_lanes (clip := a.clip) (w := 0) hraw (by omega) (by omega) hg (rotAt_zero cfg fmt m a.s0)
    (rotAt_zero cfg fmt m a.s1) (by unfold clipRotAt; split <;> rfl) v (fun j hj => (hs j hj).1) (fun j hj => (hs j hj).2)
    hsame hpad0 hpad1 hpadc
  obtain ⟨s', hset, hlane⟩ := setGroup_lane (samples := a.samples) (slot := a.write % 8) (g := g) (by omega) (by omega) v
  refine ⟨_, by rw [hu, hset, Option.bind_some], ?_, rfl, rfl, ?_⟩
  · intro j hj
    show s' _ = _
    rw [show (a.write + j) % 8 = a.write % 8 + j by omega]; exact hlane j hj
  · intro b hb
    unfold AnimState.skipRotationGroups at hb
    dsimp only at hb
    by_cases hlt : 1 * 4 < a.left
    · rw [if_pos hlt] at hb
      have hg4 : g = 4 := by omega
      obtain ⟨q0, q1⟩ := h4 hg4
      subst q0 q1
      cases fmt with
      | dropWVariable =>
        rw [if_pos rfl] at hb
        have hskip : ∀ c d : SegCtx, c.skip cfg m 1 = some d → c.rotAt cfg .dropWVariable m (0 + 4) = d := by
          intro c d hd
          have hlen : c.fmt + 1 * 4 + 12 ≤ m.length := by
            unfold SegCtx.skip at hd
            rw [countGroupBits] at hd
            unfold loadBlock at hd
            by_cases h : c.fmt + 0 * 4 + 16 ≤ m.length
            · omega
            · rw [if_neg h] at hd; cases hd
          rw [SegCtx.skip_spec (fun _ => hlen)] at hd
          rw [← Option.some.inj hd]; rfl
        cases e0 : a.s0.skip cfg m 1 with
        | none => rw [e0] at hb; cases hb
        | some d0 =>
          rw [e0, Option.bind_some] at hb
          cases e1 : a.s1.skip cfg m 1 with
          | none => rw [e1] at hb; cases hb
          | some d1 =>
            rw [e1, Option.bind_some] at hb
            have := Option.some.inj hb
            subst this
            refine ⟨by show a.left - g = a.left - 1 * 4; omega, ?_, hskip _ _ e0, hskip _ _ e1⟩
            show clipRotAt .dropWVariable a.clip 0 + _ = a.clip + 12 * 2 * 4 * 1
            rw [if_pos rfl]; unfold clipRotAt; rw [if_pos rfl]; omega
      | quatfFull =>
        rw [if_neg (by decide)] at hb
        have := Option.some.inj hb
        subst this
        exact ⟨by show a.left - g = a.left - 1 * 4; omega, rfl, rfl, rfl⟩
      | dropWFull =>
        rw [if_neg (by decide)] at hb
        have := Option.some.inj hb
        subst this
        exact ⟨by show a.left - g = a.left - 1 * 4; omega, rfl, rfl, rfl⟩
    · rw [if_neg hlt] at hb; cases hb

theorem single_vector_eq (cfg : AnimCfg) (fmt : VectorFormat) (m : List (BitVec 8)) (clip : Nat) (c : SegCtx) (i : Nat)
    (hi : i < 4) : unpackSingleVector3 cfg fmt m i clip c = vectorSampleAt cfg fmt m clip c i := by
  cases h : vectorSampleAt cfg fmt m clip c i with
  | some s =>
    have := unpackSingleVector3_spec cfg fmt m clip c 0 i hi s (by rw [Nat.zero_add]; exact h)
    rw [← vecAt_zero] at this
    rw [show clip = clipVecAt fmt clip 0 by unfold clipVecAt; split <;> rfl]; exact this
  | none =>
    cases fmt with
    | full =>
      unfold vectorSampleAt at h
      unfold unpackSingleVector3
      rw [if_neg (by decide)]
      dsimp only at h
      rw [show i * 96 = 96 * i by omega]
      revert h
      cases readFloat3 c.data (c.bit + 96 * i) <;> intro h <;> first | rfl | cases h
    | varBits =>
      unfold vectorSampleAt at h
      unfold unpackSingleVector3
      rw [if_pos rfl]
      dsimp only at h ⊢
      rw [show 24 * i = 12 * 2 * i by omega] at h
      by_cases hb : c.fmt + i < m.length
      · obtain ⟨sk, hsk, hsk3⟩ := skipBits_spec cfg m c.fmt i hi hb
        rw [hsk, Option.bind_some, hsk3]
        rw [byteAt_some hb, Option.bind_some] at h ⊢
        revert h
        generalize m.getD (c.fmt + i) 0 = b
        intro h
        split
        · rename_i h0
          rw [if_pos h0] at h
          cases hr : readConstantVector3 m (c.seg + 6 * i) with
          | none => rfl
          | some r =>
            rw [hr, Option.bind_some] at h
            cases hk : readClipRange m (clip + 12 * 2 * i) (clip + 12 * 2 * i + 12) with
            | none =>
              simp only [Option.bind_some, Bool.not_true, Bool.and_false, Bool.false_eq_true, if_false, Bool.not_false, if_true]
              rfl
            | some cr => rw [hk] at h; cases h
        · rename_i h0
          rw [if_neg h0] at h
          split
          · rename_i hr
            rw [if_pos hr] at h
            revert h
            cases readFloat3 c.data (c.bit + bitsBefore cfg.rawBits m c.fmt i) with
            | none => intro _; rfl
            | some r => intro h; cases h
          · rename_i hr
            rw [if_neg hr] at h
            revert h
            cases readQuantized b.toNat c.data (c.bit + bitsBefore cfg.rawBits m c.fmt i) with
            | none => intro _; rfl
            | some r =>
              simp only [Option.bind_some, Bool.not_false, Bool.and_true, if_true]
              cases cfg.hasSegments with
              | true =>
                simp only [if_true]
                cases readRange24 m (c.seg + 6 * i) (c.seg + 6 * i + 3) with
                | none => intro _; rfl
                | some sr =>
                  simp only [Option.bind_some, Option.map_some]
                  cases readClipRange m (clip + 12 * 2 * i) (clip + 12 * 2 * i + 12) with
                  | none => intro _; rfl
                  | some cr => intro h; cases h
              | false =>
                simp only [Bool.false_eq_true, if_false, Option.bind_some]
                cases readClipRange m (clip + 12 * 2 * i) (clip + 12 * 2 * i + 12) with
                | none => intro _; rfl
                | some cr => intro h; cases h
      · cases skipBits cfg m c.fmt i with
        | none => rfl
        | some sk =>
          rw [Option.bind_some]
          have : byteAt m (c.fmt + i) = none := List.getElem?_eq_none (by omega)
          rw [this]; rfl

/-- One group of translations or scales: lane `j` of the group reader is what the single reader returns for lane `j`, and
the group reader ends where skipping the group ends. A clip without segments has no sub-track that is constant in its
segment, and its segment range pointer is not used. -/
theorem C42_vector_group_eq_single (cfg : AnimCfg) (fmt : VectorFormat) (m : List (BitVec 8)) (a : AnimState)
    (v : Nat → Sample × Sample) (hraw : cfg.rawBits ≠ 0)
    (hleft : 0 < a.left) (hroom : a.write < a.read + 4) (halign : a.write % 4 = 0)
    (hsingle : ∀ j, j < min a.left 4 → a.vectorWithinGroup cfg fmt m j = some (v j))
    (hconst : cfg.hasSegments = false → fmt = .varBits → ∀ j, j < min a.left 4 →
      byteAt m (a.s0.fmt + j) ≠ some 0 ∧ byteAt m (a.s1.fmt + j) ≠ some 0) :
    ∃ a', a.unpackVectorGroup cfg fmt m = some a' ∧
      (∀ j, j < min a.left 4 → a'.samples ((a.write + j) % 8) = some (v j)) ∧
      a'.write = a.write + min a.left 4 ∧ a'.left = a.left - min a.left 4 ∧
      (∀ b, a.skipVectorGroups cfg fmt m 1 = some b →
        a'.left = b.left ∧ a'.clip = b.clip ∧
        a'.s0.bit = b.s0.bit ∧ a'.s0.fmt = b.s0.fmt ∧ a'.s0.data = b.s0.data ∧ (cfg.hasSegments = true → a'.s0.seg = b.s0.seg) ∧
        a'.s1.bit = b.s1.bit ∧ a'.s1.fmt = b.s1.fmt ∧ a'.s1.data = b.s1.data ∧ (cfg.hasSegments = true → a'.s1.seg = b.s1.seg)) := by
  obtain ⟨g, hg⟩ : ∃ g, g = min a.left 4 := ⟨_, rfl⟩
  rw [← hg] at hsingle hconst ⊢
  have hs : ∀ j, j < g → vectorSampleAt cfg fmt m a.clip a.s0 j = some (v j).1 ∧
      vectorSampleAt cfg fmt m a.clip a.s1 j = some (v j).2 := by
    intro j hj
    have := hsingle j hj
    unfold AnimState.vectorWithinGroup at this
    rw [if_pos (by omega), single_vector_eq cfg fmt m _ _ j (by omega), single_vector_eq cfg fmt m _ _ j (by omega)] at this
    cases h0 : vectorSampleAt cfg fmt m a.clip a.s0 j with
    | none => rw [h0] at this; cases this
    | some x =>
      rw [h0, Option.bind_some] at this
      cases h1 : vectorSampleAt cfg fmt m a.clip a.s1 j with
      | none => rw [h1] at this; cases this
      | some y =>
        rw [h1, Option.bind_some] at this
        rw [← Option.some.inj this]; exact ⟨rfl, rfl⟩
  have hseg : ∀ j, j < g → fmt = .varBits → (byteAt m (a.s0.fmt + j) = some 0 ∨ byteAt m (a.s1.fmt + j) = some 0) → cfg.hasSegments = true := by
    intro j hj hf hz
    cases hhs : cfg.hasSegments with
    | true => rfl
    | false =>
      obtain ⟨n0, n1⟩ := hconst hhs hf j hj
      rcases hz with hz | hz
      · exact absurd hz n0
      · exact absurd hz n1
  have hclip0 : clipVecAt fmt a.clip 0 = a.clip := by unfold clipVecAt; split <;> rfl
  obtain ⟨s0, e0, k0⟩ := unpackVector3Loop_spec cfg fmt m a.clip 0 a.s0 hraw (fun j => (v j).1) g 0 a.s0
    (by rw [← vecAt_zero]; exact ⟨rfl, rfl, rfl, fun _ => rfl⟩) (fun j _ hj => by rw [Nat.zero_add]; exact (hs j (by omega)).1)
    (fun j _ hj hf hz => hseg j (by omega) hf (Or.inl (by rw [Nat.zero_add] at hz; exact hz)))
  obtain ⟨s1, e1, k1⟩ := unpackVector3Loop_spec cfg fmt m a.clip 0 a.s1 hraw (fun j => (v j).2) g 0 a.s1
    (by rw [← vecAt_zero]; exact ⟨rfl, rfl, rfl, fun _ => rfl⟩) (fun j _ hj => by rw [Nat.zero_add]; exact (hs j (by omega)).2)
    (fun j _ hj hf hz => hseg j (by omega) hf (Or.inr (by rw [Nat.zero_add] at hz; exact hz)))
  rw [hclip0] at e0 e1
  obtain ⟨s', hset, hlane⟩ := setGroup_lane (samples := a.samples) (slot := a.write % 8) (g := g) (by omega) (by omega) v
  unfold AnimState.unpackVectorGroup
  rw [if_neg (by omega), if_neg (by omega)]
  dsimp only
  rw [← hg, e0, Option.bind_some]
  dsimp only
  rw [e1, Option.bind_some]
  dsimp only
  rw [hset, Option.bind_some]
  refine ⟨_, rfl, ?_, rfl, rfl, ?_⟩
  · intro j hj
    show s' _ = _
    rw [show (a.write + j) % 8 = a.write % 8 + j by omega]; exact hlane j hj
  · intro b hb
    unfold AnimState.skipVectorGroups at hb
    dsimp only at hb
    by_cases hlt : 1 * 4 < a.left
    · rw [if_pos hlt] at hb
      have hg4 : g = 4 := by omega
      rw [show 0 + (0 + g) = 4 by omega] at k0 k1
      obtain ⟨f0, d0, b0, g0⟩ := k0
      obtain ⟨f1, d1, b1, g1⟩ := k1
      cases fmt with
      | varBits =>
        rw [if_pos rfl] at hb
        have hskip : ∀ c d : SegCtx, c.skip cfg m 1 = some d → c.vecAt cfg .varBits m 4 = d := by
          intro c d hd
          have hlen : c.fmt + 1 * 4 + 12 ≤ m.length := by
            unfold SegCtx.skip at hd
            rw [countGroupBits] at hd
            unfold loadBlock at hd
            by_cases h : c.fmt + 0 * 4 + 16 ≤ m.length
            · omega
            · rw [if_neg h] at hd; cases hd
          rw [SegCtx.skip_spec (fun _ => hlen)] at hd
          rw [← Option.some.inj hd]; rfl
        cases e0 : a.s0.skip cfg m 1 with
        | none => rw [e0] at hb; cases hb
        | some x0 =>
          rw [e0, Option.bind_some] at hb
          cases e1 : a.s1.skip cfg m 1 with
          | none => rw [e1] at hb; cases hb
          | some x1 =>
            rw [e1, Option.bind_some] at hb
            have := Option.some.inj hb
            subst this
            rw [hskip _ _ e0] at f0 d0 b0 g0
            rw [hskip _ _ e1] at f1 d1 b1 g1
            refine ⟨by show a.left - g = a.left - 1 * 4; omega, ?_, b0, f0, d0, g0, b1, f1, d1, g1⟩
            show (if VectorFormat.varBits = .varBits then a.clip + g * 12 * 2 else a.clip) = a.clip + 12 * 2 * 4 * 1
            rw [if_pos rfl]; omega
      | full =>
        rw [if_neg (by decide)] at hb
        have := Option.some.inj hb
        subst this
        refine ⟨by show a.left - g = a.left - 1 * 4; omega, rfl, ?_⟩
        exact ⟨b0, f0, d0, g0, b1, f1, d1, g1⟩
    · rw [if_neg hlt] at hb; cases hb

theorem drain_spec {unpack : AnimState → Option AnimState} {V : Nat → Sample × Sample} {N : Nat}
    {pos : Nat → AnimState → Prop} (hpos : ∀ w (a : AnimState) r, pos w a → pos w { a with read := r })
    (hu : ∀ k a, AnimInv V N pos k a → ∃ a', unpack a = some a' ∧ AnimInv V N pos k a' ∧ min N (k + 4) ≤ a'.write) :
    ∀ n k a, AnimInv V N pos k a → k + n = N → (k % 4 ≠ 0 → min N (k / 4 * 4 + 4) ≤ a.write) →
      drain unpack n a = some ((List.range' k n).map V) := by
  intro n
  induction n with
  | zero => intro k a _ _ _; rfl
  | succ n ih =>
    intro k a h hN hw
    obtain ⟨a1, h1, inv1, w1⟩ : ∃ a1, (if a.read % 4 = 0 then unpack a else some a) = some a1 ∧ AnimInv V N pos k a1 ∧ min N (k / 4 * 4 + 4) ≤ a1.write := by
      rw [h.read]
      by_cases hz : k % 4 = 0
      · rw [if_pos hz]
        obtain ⟨a', e, i, w⟩ := hu k a h
        exact ⟨a', e, i, by omega⟩
      · rw [if_neg hz]; exact ⟨a, rfl, h, hw hz⟩
    obtain ⟨a2, h2, inv2, w2⟩ := inv1.consume_spec hpos (by omega)
    rw [drain, h1, Option.bind_some, h2, Option.bind_some]
    dsimp only
    rw [ih (k + 1) a2 inv2 (by omega) (fun hz => by rw [w2]; omega), List.range'_succ, List.map_cons]; rfl

/-- All the animated rotations of a clip: when every sample is readable where the layout puts it, the whole pose reader
hands out sample `k` as its `k`-th one and the single sub-track reader returns it. `a` is the state after initialization:
`N` rotations left, nothing unpacked. The bounds are the padding at the end of the clip. -/
theorem C42_rotations_group_eq_single_eq_layout (cfg : AnimCfg) (fmt : RotationFormat) (m : List (BitVec 8)) (N : Nat)
    (a : AnimState) (V : Nat → Sample × Sample) (hraw : cfg.rawBits ≠ 0)
    (hN : a.left = N) (hw : a.write = 0) (hr : a.read = 0)
    (hV : ∀ k, k < N → rotationSampleAt cfg fmt m a.clip N a.s0 k = some (V k).1 ∧
      rotationSampleAt cfg fmt m a.clip N a.s1 k = some (V k).2)
    (hsame : cfg.singleSegment = true → a.s1.seg = a.s0.seg)
    (hseg : fmt = .dropWVariable → cfg.hasSegments = true →
      a.s0.seg + 24 * ((N + 3) / 4) + 8 ≤ m.length ∧ a.s1.seg + 24 * ((N + 3) / 4) + 8 ≤ m.length)
    (hclip : fmt = .dropWVariable → a.clip + 24 * N + 12 ≤ m.length)
    (hfmt : fmt = .dropWVariable → a.s0.fmt + N + 11 ≤ m.length ∧ a.s1.fmt + N + 11 ≤ m.length) :
    drain (·.unpackRotationGroup cfg fmt m) N a = some ((List.range N).map V) ∧
    ∀ k, k < N → single (·.skipRotationGroups cfg fmt m) (·.rotationWithinGroup cfg fmt m) k a = some (V k) := by
  have hm : RotMem cfg fmt m a.clip N a.s0 a.s1 V := ⟨hraw, fun k hk => (hV k hk).1, fun k hk => (hV k hk).2, hsame,
    fun h1 h2 => (hseg h1 h2).1, fun h1 h2 => (hseg h1 h2).2, hclip⟩
  constructor
  · rw [List.range_eq_range']
    refine drain_spec (fun w a r h => h) (fun k a h => unpackRotationGroup_spec hm h) N 0 a ?_ (by omega) (by omega)
    refine ⟨hr, by omega, by omega, by omega, fun _ => by omega, fun _ => ?_, fun j _ hj => by omega⟩
    rw [hw]
    exact ⟨rotAt_zero .., rotAt_zero .., by unfold clipRotAt; split <;> rfl⟩
  · intro k hk
    exact rotationWithinGroup_skip hm (fun h => (hfmt h).1) (fun h => (hfmt h).2) a hN
      ⟨rotAt_zero .., rotAt_zero .., by unfold clipRotAt; split <;> rfl⟩ k hk

/-- All the animated translations, or all the animated scales, of a clip. -/
theorem C42_vectors_group_eq_single_eq_layout (cfg : AnimCfg) (fmt : VectorFormat) (m : List (BitVec 8)) (N : Nat)
    (a : AnimState) (V : Nat → Sample × Sample) (hraw : cfg.rawBits ≠ 0)
    (hN : a.left = N) (hw : a.write = 0) (hr : a.read = 0)
    (hV : ∀ k, k < N → vectorSampleAt cfg fmt m a.clip a.s0 k = some (V k).1 ∧
      vectorSampleAt cfg fmt m a.clip a.s1 k = some (V k).2)
    (hconst : cfg.hasSegments = false → fmt = .varBits → ∀ k, k < N →
      byteAt m (a.s0.fmt + k) ≠ some 0 ∧ byteAt m (a.s1.fmt + k) ≠ some 0)
    (hfmt : fmt = .varBits → a.s0.fmt + N + 11 ≤ m.length ∧ a.s1.fmt + N + 11 ≤ m.length) :
    drain (·.unpackVectorGroup cfg fmt m) N a = some ((List.range N).map V) ∧
    ∀ k, k < N → single (·.skipVectorGroups cfg fmt m) (·.vectorWithinGroup cfg fmt m) k a = some (V k) := by
  have hm : VecMem cfg fmt m a.clip N a.s0 a.s1 V := by
    refine ⟨hraw, fun k hk => (hV k hk).1, fun k hk => (hV k hk).2, fun k hk hf hz => ?_, fun k hk hf hz => ?_⟩
    · cases hhs : cfg.hasSegments with
      | true => rfl
      | false => exact absurd hz (hconst hhs hf k hk).1
    · cases hhs : cfg.hasSegments with
      | true => rfl
      | false => exact absurd hz (hconst hhs hf k hk).2
  constructor
  · rw [List.range_eq_range']
    refine drain_spec (fun w a r h => h) (fun k a h => unpackVectorGroup_spec hm h) N 0 a ?_ (by omega) (by omega)
    refine ⟨hr, by omega, by omega, by omega, fun _ => by omega, fun _ => ?_, fun j _ hj => by omega⟩
    rw [hw]
    exact ⟨by rw [← vecAt_zero]; exact ⟨rfl, rfl, rfl, fun _ => rfl⟩, by rw [← vecAt_zero]; exact ⟨rfl, rfl, rfl, fun _ => rfl⟩,
      by unfold clipVecAt; split <;> rfl⟩
  · intro k hk
    exact vectorWithinGroup_skip hm (fun h => (hfmt h).1) (fun h => (hfmt h).2) a hN rfl rfl rfl k hk

/-! ### A clip that meets the hypotheses -/

/-- Six sub-tracks, of which two constant in the segment, two quantized, one raw and one with one bit. -/
def exampleClip : List (BitVec 8) :=
  [0, 5, 31, 7, 1, 0, 0, 0] ++ (List.range 300).map fun i => BitVec.ofNat 8 (i * 37 + i / 7)

/-- Key frame data of the example. -/
def exampleData (seed : Nat) : List (BitVec 8) := (List.range 80).map fun i => BitVec.ofNat 8 (i * 91 + seed)

def exampleState : AnimState :=
  { samples := fun _ => none, left := 6, write := 0, read := 0, clip := 64
    s0 := ⟨0, 10, exampleData 3, 5⟩, s1 := ⟨0, 10, exampleData 8, 21⟩ }

def exampleCfg : AnimCfg := ⟨31, true, true⟩

def noSample : Sample := ⟨.float3 ⟨0, 0, 0⟩, none, none⟩

def exampleRotation (k : Nat) : Sample × Sample :=
  ((rotationSampleAt exampleCfg .dropWVariable exampleClip 64 6 exampleState.s0 k).getD noSample,
   (rotationSampleAt exampleCfg .dropWVariable exampleClip 64 6 exampleState.s1 k).getD noSample)

def exampleVector (k : Nat) : Sample × Sample :=
  ((vectorSampleAt exampleCfg .varBits exampleClip 64 exampleState.s0 k).getD noSample,
   (vectorSampleAt exampleCfg .varBits exampleClip 64 exampleState.s1 k).getD noSample)

example : drain (·.unpackRotationGroup exampleCfg .dropWVariable exampleClip) 6 exampleState =
    some ((List.range 6).map exampleRotation) ∧
    ∀ k, k < 6 → single (·.skipRotationGroups exampleCfg .dropWVariable exampleClip)
      (·.rotationWithinGroup exampleCfg .dropWVariable exampleClip) k exampleState = some (exampleRotation k) :=
  C42_rotations_group_eq_single_eq_layout exampleCfg .dropWVariable exampleClip 6 exampleState exampleRotation
    (by decide) rfl rfl rfl (by decide +kernel) (by decide) (by decide +kernel) (by decide +kernel) (by decide +kernel)

example : drain (·.unpackVectorGroup exampleCfg .varBits exampleClip) 6 exampleState =
    some ((List.range 6).map exampleVector) ∧
    ∀ k, k < 6 → single (·.skipVectorGroups exampleCfg .varBits exampleClip)
      (·.vectorWithinGroup exampleCfg .varBits exampleClip) k exampleState = some (exampleVector k) :=
  C42_vectors_group_eq_single_eq_layout exampleCfg .varBits exampleClip 6 exampleState exampleVector
    (by decide) rfl rfl rfl (by decide +kernel) (by decide) (by decide +kernel)

/-- The samples of the example are those of three different encodings. -/
example : (exampleRotation 0).1.segment = none ∧ (exampleRotation 0).1.clip.isSome ∧ (exampleRotation 1).1.segment.isSome ∧
    (exampleRotation 2).1.clip = none ∧ exampleRotation 1 ≠ exampleRotation 3 := by decide +kernel

/-- The hypotheses of the group theorems are met by the example. -/
example : ∀ j, j < min exampleState.left 4 →
    exampleState.rotationWithinGroup exampleCfg .dropWVariable exampleClip j = some (exampleRotation j) ∧
    exampleState.vectorWithinGroup exampleCfg .varBits exampleClip j = some (exampleVector j) := by decide +kernel

end Acl.C42
