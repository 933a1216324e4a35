import Verif.Transform.AnimatedLemmas
namespace Acl.Transform

/-- Bits taken by the first `i` lanes of a group. -/
def laneBits (cfg : AnimCfg) (fmt : RotationFormat) (m : List (BitVec 8)) (c : SegCtx) (i : Nat) : Nat :=
  match fmt with
  | .quatfFull => 128 * i
  | .dropWFull => 96 * i
  | .dropWVariable => bitsBefore cfg.rawBits m c.fmt i

/-- The ranges the group reader has at hand are those of its lanes. -/
structure RangesOk (cfg : AnimCfg) (fmt : RotationFormat) (m : List (BitVec 8)) (c : SegCtx) (clip n : Nat)
    (seg : Option (Nat → Range8)) (clipR : Option (Nat → RangeF)) : Prop where
  raw : cfg.rawBits ≠ 0
  fullSeg : fmt ≠ .dropWVariable → seg = none
  fullClip : fmt ≠ .dropWVariable → clipR = none
  segOk : fmt = .dropWVariable → cfg.hasSegments = true → ∃ r, seg = some r ∧ ∀ i, i < 4 → readSegmentRangeAt m (c.seg + i) = some (r i)
  noSeg : cfg.hasSegments = false → seg = none
  clipOk : fmt = .dropWVariable → ∃ r, clipR = some r ∧ ∀ i, i < n → readClipRangeAt m (clip + i * 4) n = some (r i)

theorem unpackQuatLoop_spec (cfg : AnimCfg) (fmt : RotationFormat) (m : List (BitVec 8)) (c : SegCtx) (clip num : Nat)
    (hnum : num ≤ 4) (seg : Option (Nat → Range8)) (clipR : Option (Nat → RangeF)) (hr : RangesOk cfg fmt m c clip num seg clipR)
    (V : Nat → Sample) (hV : ∀ j, j < num → unpackSingleQuat cfg fmt m j num clip c = some (V j)) :
    ∀ n i, i + n = num → ∃ lanes, unpackQuatLoop cfg fmt m c n i (c.bit + laneBits cfg fmt m c i) =
        some (lanes, c.bit + laneBits cfg fmt m c num) ∧ remapLanes seg clipR i lanes = (List.range' i n).map V := by
  intro n
  induction n with
  | zero => intro i hi; rw [Nat.add_zero] at hi; subst hi; exact ⟨[], rfl, rfl⟩
  | succ n ih =>
    intro i hi
    obtain ⟨lanes, hl, hrm⟩ := ih (i + 1) (by omega)
    have hVi := hV i (by omega)
    -- the lane
    suffices h : ∃ l, remapLane l (seg.map (· i)) (clipR.map (· i)) = V i ∧
        unpackQuatLoop cfg fmt m c (n + 1) i (c.bit + laneBits cfg fmt m c i) =
          (unpackQuatLoop cfg fmt m c n (i + 1) (c.bit + laneBits cfg fmt m c (i + 1))).bind fun (ls, bit) => some (l :: ls, bit) by
      obtain ⟨l, h1, h2⟩ := h
      refine ⟨l :: lanes, ?_, ?_⟩
      · rw [h2, hl]; rfl
      · rw [remapLanes, h1, hrm, List.range'_succ, List.map_cons]
    cases hf : fmt with
    | quatfFull =>
      subst hf
      rw [hr.fullSeg (by decide), hr.fullClip (by decide)]
      unfold unpackSingleQuat at hVi
      rw [if_neg (by decide), if_pos rfl] at hVi
      rw [unpackQuatLoop, if_neg (by decide), if_pos rfl]
      dsimp only [laneBits] at hVi ⊢
      rw [show i * 128 = 128 * i by omega] at hVi
      cases hq : readFloat4 c.data (c.bit + 128 * i) with
      | none => rw [hq] at hVi; cases hVi
      | some r =>
        rw [hq, Option.bind_some] at hVi
        refine ⟨⟨r, false, false⟩, ?_, ?_⟩
        · exact Option.some.inj hVi
        · simp only [Option.bind_some]
          rw [show c.bit + 128 * i + 128 = c.bit + 128 * (i + 1) by omega]
    | dropWFull =>
      subst hf
      rw [hr.fullSeg (by decide), hr.fullClip (by decide)]
      unfold unpackSingleQuat at hVi
      rw [if_neg (by decide), if_neg (by decide)] at hVi
      rw [unpackQuatLoop, if_neg (by decide), if_neg (by decide)]
      dsimp only [laneBits] at hVi ⊢
      rw [show i * 96 = 96 * i by omega] at hVi
      cases hq : readFloat3 c.data (c.bit + 96 * i) with
      | none => rw [hq] at hVi; cases hVi
      | some r =>
        rw [hq, Option.bind_some] at hVi
        refine ⟨⟨r, false, false⟩, ?_, ?_⟩
        · exact Option.some.inj hVi
        · simp only [Option.bind_some]
          rw [show c.bit + 96 * i + 96 = c.bit + 96 * (i + 1) by omega]
    | dropWVariable =>
      subst hf
      obtain ⟨cr, hcr, hcr'⟩ := hr.clipOk rfl
      have hseg := hr.segOk rfl
      have hnoseg := hr.noSeg
      subst hcr
      unfold unpackSingleQuat at hVi
      rw [if_pos rfl] at hVi
      rw [unpackQuatLoop, if_pos rfl]
      dsimp only [laneBits] at hVi ⊢
      have hb : c.fmt + i < m.length := by
        cases h : byteAt m (c.fmt + i) with
        | none =>
          rw [h] at hVi
          cases h' : skipBits cfg m c.fmt i <;> rw [h'] at hVi <;> cases hVi
        | some b => exact byteAt_lt h
      obtain ⟨sk, hsk, hsk3⟩ := skipBits_spec cfg m c.fmt i (by omega) hb
      rw [hsk, Option.bind_some, hsk3, byteAt_some hb, Option.bind_some] at hVi
      rw [byteAt_some hb, Option.bind_some]
      have hnext : bitsBefore cfg.rawBits m c.fmt (i + 1) = bitsBefore cfg.rawBits m c.fmt i +
        3 * componentBits cfg.rawBits (m.getD (c.fmt + i) 0) := rfl
      revert hVi hnext
      generalize m.getD (c.fmt + i) 0 = b
      intro hVi hnext
      rw [hnext]
      have hci := hcr' i (by omega)
      by_cases h0 : b.toNat = 0
      · rw [if_pos h0] at hVi ⊢
        have hcb : componentBits cfg.rawBits b = 0 := by
          unfold componentBits; rw [if_neg (by have := hr.raw; omega), h0]
        rw [hcb]
        cases hq : readConstantRotation m (c.seg + i) with
        | none => rw [hq] at hVi; cases hVi
        | some r =>
          rw [hq] at hVi
          simp only [Option.bind_some, Bool.not_true, Bool.and_false, Bool.false_eq_true, if_false, Bool.not_false, if_true, hci] at hVi
          refine ⟨⟨r, true, false⟩, ?_, ?_⟩
          · exact Option.some.inj hVi
          · simp only [Option.bind_some]
            rw [Nat.mul_zero]; rfl
      · rw [if_neg h0] at hVi ⊢
        by_cases hrb : b.toNat = cfg.rawBits
        · rw [if_pos hrb] at hVi ⊢
          have hcb : componentBits cfg.rawBits b = 32 := by unfold componentBits; rw [if_pos hrb]
          rw [hcb]
          cases hq : readFloat3 c.data (c.bit + bitsBefore cfg.rawBits m c.fmt i) with
          | none => rw [hq] at hVi; cases hVi
          | some r =>
            rw [hq] at hVi
            simp only [Option.bind_some, Bool.not_true, Bool.and_false, Bool.false_eq_true, if_false] at hVi
            refine ⟨⟨r, true, true⟩, ?_, ?_⟩
            · exact Option.some.inj hVi
            · simp only [Option.bind_some]
              rw [show c.bit + bitsBefore cfg.rawBits m c.fmt i + 96 = c.bit + (bitsBefore cfg.rawBits m c.fmt i + 3 * 32) by omega]
        · rw [if_neg hrb] at hVi ⊢
          have hcb : componentBits cfg.rawBits b = b.toNat := by unfold componentBits; rw [if_neg hrb]
          rw [hcb]
          cases hq : readQuantized b.toNat c.data (c.bit + bitsBefore cfg.rawBits m c.fmt i) with
          | none => rw [hq] at hVi; cases hVi
          | some r =>
            rw [hq] at hVi
            simp only [Option.bind_some, Bool.not_false, Bool.and_true, if_true, hci] at hVi
            refine ⟨⟨r, false, false⟩, ?_, ?_⟩
            · cases hhs : cfg.hasSegments with
              | true =>
                obtain ⟨sr, hsr, hsr'⟩ := hseg hhs
                subst hsr
                rw [hhs, if_pos rfl, hsr' i (by omega)] at hVi
                exact Option.some.inj hVi
              | false =>
                rw [hhs, if_neg (by decide)] at hVi
                rw [hnoseg hhs]
                exact Option.some.inj hVi
            · simp only [Option.bind_some]
              rw [show c.bit + bitsBefore cfg.rawBits m c.fmt i + b.toNat * 3 = c.bit + (bitsBefore cfg.rawBits m c.fmt i + 3 * b.toNat) by omega]

theorem remapLanes_length (seg : Option (Nat → Range8)) (clipR : Option (Nat → RangeF)) : ∀ (ls : List Lane) i,
    (remapLanes seg clipR i ls).length = ls.length
  | [], _ => rfl
  | l :: ls, i => by rw [remapLanes, List.length_cons, List.length_cons, remapLanes_length seg clipR ls]

theorem unpackQuat_spec (cfg : AnimCfg) (fmt : RotationFormat) (m : List (BitVec 8)) (base : SegCtx) (w clip num : Nat)
    (hnum : num ≤ 4) (seg : Option (Nat → Range8)) (clipR : Option (Nat → RangeF))
    (hr : RangesOk cfg fmt m (base.rotAt cfg fmt m w) clip num seg clipR) (V : Nat → Sample)
    (hV : ∀ j, j < num → unpackSingleQuat cfg fmt m j num clip (base.rotAt cfg fmt m w) = some (V j)) :
    ∃ lanes c', unpackQuat cfg fmt m num (base.rotAt cfg fmt m w) = some (lanes, c') ∧
      remapLanes seg clipR 0 lanes = (List.range' 0 num).map V ∧ (num = 4 → c' = base.rotAt cfg fmt m (w + 4)) := by
  obtain ⟨lanes, hl, hrm⟩ := unpackQuatLoop_spec cfg fmt m _ clip num hnum seg clipR hr V hV num 0 (by omega)
  have h0 : laneBits cfg fmt m (base.rotAt cfg fmt m w) 0 = 0 := by cases fmt <;> rfl
  rw [h0, Nat.add_zero] at hl
  refine ⟨lanes, _, by rw [unpackQuat, hl, Option.bind_some], hrm, ?_⟩
  rintro rfl
  cases fmt with
  | quatfFull =>
    rw [if_neg (by decide)]; simp only [SegCtx.rotAt, laneBits]
    rw [show base.bit + 128 * w + 128 * 4 = base.bit + 128 * (w + 4) by omega]
  | dropWFull =>
    rw [if_neg (by decide)]; simp only [SegCtx.rotAt, laneBits]
    rw [show base.bit + 96 * w + 96 * 4 = base.bit + 96 * (w + 4) by omega]
  | dropWVariable =>
    rw [if_pos rfl]; simp only [SegCtx.rotAt, laneBits]
    rw [bitsBefore_add, Nat.add_assoc, Nat.add_assoc base.seg, Nat.mul_add, Nat.add_assoc base.bit]

/-- State of a cache of 8 slots that has handed out `k` of the `N` samples `V`; `pos w` describes where the
readers are after `w` samples. -/
structure AnimInv (V : Nat → Sample × Sample) (N : Nat) (pos : Nat → AnimState → Prop) (k : Nat) (a : AnimState) : Prop where
  read : a.read = k
  total : a.write + a.left = N
  le : k ≤ a.write
  near : a.write ≤ k + 8
  aligned : a.left ≠ 0 → a.write % 4 = 0
  pos : a.left ≠ 0 → pos a.write a
  slots : ∀ j, k ≤ j → j < a.write → a.samples (j % 8) = some (V j)

theorem AnimInv.consume_spec {V : Nat → Sample × Sample} {N : Nat} {pos : Nat → AnimState → Prop} {k : Nat} {a : AnimState}
    (hpos : ∀ w (a : AnimState) r, pos w a → pos w { a with read := r })
    (h : AnimInv V N pos k a) (hk : k < a.write) :
    ∃ a', a.consume = some (V k, a') ∧ AnimInv V N pos (k + 1) a' ∧ a'.write = a.write := by
  refine ⟨{ a with read := k + 1 }, ?_, ⟨rfl, h.total, hk, by have := h.near; show a.write ≤ _; omega, h.aligned,
    fun hl => hpos _ _ _ (h.pos hl), fun j hj hj' => h.slots j (by omega) hj'⟩, rfl⟩
  unfold AnimState.consume
  rw [h.read, if_pos hk, h.slots k (Nat.le_refl _) hk, Option.bind_some]

/-- The bookkeeping common to the group readers. -/
theorem AnimInv.unpack {V : Nat → Sample × Sample} {N : Nat} {pos : Nat → AnimState → Prop} {k : Nat} {a : AnimState}
    (h : AnimInv V N pos k a) (hl : a.left ≠ 0) (hc : ¬ a.write - a.read ≥ 4) (l0 l1 : List Sample)
    (hl0 : l0 = (List.range' 0 (min a.left 4)).map (fun j => (V (a.write + j)).1))
    (hl1 : l1 = (List.range' 0 (min a.left 4)).map (fun j => (V (a.write + j)).2))
    (clip : Nat) (s0 s1 : SegCtx) (hpos : min a.left 4 = 4 → ∀ (smp : Nat → Option (Sample × Sample)) left write read,
      pos (a.write + 4) ⟨smp, left, write, read, clip, s0, s1⟩) :
    ∃ samples, setGroup a.samples (a.write % 8) l0 l1 = some samples ∧
      AnimInv V N pos k ⟨samples, a.left - min a.left 4, a.write + min a.left 4, a.read, clip, s0, s1⟩ ∧
      min N (k + 4) ≤ a.write + min a.left 4 := by
  have hrd := h.read; have htot := h.total; have hle := h.le; have hal := h.aligned hl
  obtain ⟨g, hg⟩ : ∃ g, g = min a.left 4 := ⟨_, rfl⟩
  rw [← hg] at hl0 hl1 hpos ⊢
  have hslot : a.write % 8 + 4 ≤ 8 := by omega
  refine ⟨_, by unfold setGroup; rw [if_pos hslot], ⟨hrd, by show a.write + g + (a.left - g) = N; omega,
    by show k ≤ a.write + g; omega, by show a.write + g ≤ k + 8; omega, fun hl' => ?_, fun hl' => ?_, ?_⟩, by omega⟩
  · show (a.write + g) % 4 = 0
    have hl'' : a.left - g ≠ 0 := hl'
    omega
  · have hl'' : a.left - g ≠ 0 := hl'
    have h4 : g = 4 := by omega
    show pos (a.write + g) _
    rw [h4]; exact hpos h4 _ _ _ _
  · intro j hj hj'
    have hj'' : j < a.write + g := hj'
    show (if a.write % 8 ≤ j % 8 ∧ j % 8 < a.write % 8 + 4 then (List.zip l0 l1)[j % 8 - a.write % 8]? else a.samples (j % 8)) = some (V j)
    by_cases hw : j < a.write
    · rw [if_neg (by omega)]; exact h.slots j hj hw
    · rw [if_pos (by omega), show j % 8 - a.write % 8 = j - a.write by omega, hl0, hl1]
      have e : ∀ (f : Nat → Sample), ((List.range' 0 g).map f)[j - a.write]? = some (f (j - a.write)) := by
        intro f
        rw [List.getElem?_map, List.getElem?_range' (by omega), Option.map_some, Nat.zero_add, Nat.one_mul]
      rw [List.getElem?_zip_eq_some.2 ⟨e _, e _⟩, show a.write + (j - a.write) = j by omega]

/-- Where the rotation readers are after `w` samples. -/
def RotPos (cfg : AnimCfg) (fmt : RotationFormat) (m : List (BitVec 8)) (clip : Nat) (c0 c1 : SegCtx) (w : Nat) (a : AnimState) : Prop :=
  a.s0 = c0.rotAt cfg fmt m w ∧ a.s1 = c1.rotAt cfg fmt m w ∧ a.clip = clipRotAt fmt clip w

/-- What the rotation readers need of the memory: the samples are readable, and the SIMD loads past the end of
the segment and clip ranges stay in the clip. -/
structure RotMem (cfg : AnimCfg) (fmt : RotationFormat) (m : List (BitVec 8)) (clip N : Nat) (c0 c1 : SegCtx)
    (V : Nat → Sample × Sample) : Prop where
  raw : cfg.rawBits ≠ 0
  val0 : ∀ k, k < N → rotationSampleAt cfg fmt m clip N c0 k = some (V k).1
  val1 : ∀ k, k < N → rotationSampleAt cfg fmt m clip N c1 k = some (V k).2
  same : cfg.singleSegment = true → c1.seg = c0.seg
  seg0 : fmt = .dropWVariable → cfg.hasSegments = true → c0.seg + 24 * ((N + 3) / 4) + 8 ≤ m.length
  seg1 : fmt = .dropWVariable → cfg.hasSegments = true → c1.seg + 24 * ((N + 3) / 4) + 8 ≤ m.length
  clipB : fmt = .dropWVariable → clip + 24 * N + 12 ≤ m.length

/-- One group: what the group reader stores is what the single reader returns lane by lane, and the contexts it
leaves are those of the next group. -/
theorem unpackRotationGroup_lanes {cfg : AnimCfg} {fmt : RotationFormat} {m : List (BitVec 8)} {clip w g : Nat} {c0 c1 : SegCtx}
    {a : AnimState} (hraw : cfg.rawBits ≠ 0) (hl : a.left ≠ 0) (hc : ¬ a.write - a.read ≥ 4) (hg : g = min a.left 4)
    (p0 : a.s0 = c0.rotAt cfg fmt m w) (p1 : a.s1 = c1.rotAt cfg fmt m w) (pc : a.clip = clipRotAt fmt clip w)
    (v : Nat → Sample × Sample)
    (hv0 : ∀ j, j < g → unpackSingleQuat cfg fmt m j g a.clip a.s0 = some (v j).1)
    (hv1 : ∀ j, j < g → unpackSingleQuat cfg fmt m j g a.clip a.s1 = some (v j).2)
    (same : cfg.singleSegment = true → a.s1.seg = a.s0.seg)
    (seg0 : fmt = .dropWVariable → cfg.hasSegments = true → a.s0.seg + 32 ≤ m.length)
    (seg1 : fmt = .dropWVariable → cfg.hasSegments = true → a.s1.seg + 32 ≤ m.length)
    (clipB : fmt = .dropWVariable → a.clip + 20 * g + 16 ≤ m.length) :
    ∃ s0 s1, a.unpackRotationGroup cfg fmt m =
        ((setGroup a.samples (a.write % 8) ((List.range' 0 g).map fun j => (v j).1) ((List.range' 0 g).map fun j => (v j).2)).bind
          fun samples => some ⟨samples, a.left - g, a.write + g, a.read, clipRotAt fmt clip w + (if fmt = .dropWVariable then 24 * g else 0), s0, s1⟩) ∧
      (g = 4 → s0 = c0.rotAt cfg fmt m (w + 4) ∧ s1 = c1.rotAt cfg fmt m (w + 4)) := by
  unfold AnimState.unpackRotationGroup
  rw [if_neg hl, if_neg hc]
  rw [p0] at hv0 seg0 same
  rw [p1] at hv1 seg1 same
  rw [pc] at hv0 hv1 clipB
  by_cases hf : fmt = .dropWVariable
  · rw [if_pos hf]
    dsimp only
    rw [← hg, if_pos hf]
    obtain ⟨cr, hcr, hcr'⟩ := loadClipRange4_spec (m := m) (p := clipRotAt fmt clip w) (n := g) (by omega) (clipB hf)
    -- segment ranges
    have hsegs : ∃ ranges : Option (Nat → Range8) × Option (Nat → Range8),
        (if cfg.hasSegments = true then
          (unpackSegmentRange m a.s0.seg).bind fun r0 =>
          (if cfg.singleSegment = true then some r0 else unpackSegmentRange m a.s1.seg).bind fun r1 => some (some r0, some r1)
        else some (none, none)) = some ranges ∧
        RangesOk cfg fmt m (c0.rotAt cfg fmt m w) (clipRotAt fmt clip w) g ranges.1 (some cr) ∧
        RangesOk cfg fmt m (c1.rotAt cfg fmt m w) (clipRotAt fmt clip w) g ranges.2 (some cr) := by
      cases hs : cfg.hasSegments with
      | false =>
        rw [if_neg (by decide)]
        refine ⟨_, rfl, ⟨hraw, fun h => absurd hf h, fun h => absurd hf h, fun _ h => ?_, fun _ => rfl, fun _ => ⟨cr, rfl, ?_⟩⟩,
          ⟨hraw, fun h => absurd hf h, fun h => absurd hf h, fun _ h => ?_, fun _ => rfl, fun _ => ⟨cr, rfl, ?_⟩⟩⟩
        · rw [hs] at h; cases h
        · exact hcr'
        · rw [hs] at h; cases h
        · exact hcr'
      | true =>
        rw [if_pos rfl]
        obtain ⟨r0, h0, h0'⟩ := unpackSegmentRange_spec (seg0 hf hs)
        obtain ⟨r1, h1, h1'⟩ := unpackSegmentRange_spec (seg1 hf hs)
        rw [p0, h0, Option.bind_some, p1]
        have key : ∃ r, (if cfg.singleSegment = true then some r0 else unpackSegmentRange m (c1.rotAt cfg fmt m w).seg) = some r ∧
            ∀ i, i < 4 → readSegmentRangeAt m ((c1.rotAt cfg fmt m w).seg + i) = some (r i) := by
          by_cases hss : cfg.singleSegment = true
          · rw [if_pos hss]; refine ⟨r0, rfl, ?_⟩; rw [same hss]; exact h0'
          · rw [if_neg hss]; exact ⟨r1, h1, h1'⟩
        obtain ⟨r, hr, hr'⟩ := key
        rw [hr, Option.bind_some]
        refine ⟨_, rfl, ⟨hraw, fun h => absurd hf h, fun h => absurd hf h, fun _ _ => ⟨r0, rfl, h0'⟩, fun h => ?_, fun _ => ⟨cr, rfl, hcr'⟩⟩,
          ⟨hraw, fun h => absurd hf h, fun h => absurd hf h, fun _ _ => ⟨r, rfl, hr'⟩, fun h => ?_, fun _ => ⟨cr, rfl, hcr'⟩⟩⟩
        · rw [hs] at h; cases h
        · rw [hs] at h; cases h
    obtain ⟨ranges, hrng, ok0, ok1⟩ := hsegs
    obtain ⟨lanes0, s0, hq0, hrm0, hc0⟩ := unpackQuat_spec cfg fmt m c0 w _ g (by omega) _ _ ok0 (fun j => (v j).1) hv0
    obtain ⟨lanes1, s1, hq1, hrm1, hc1⟩ := unpackQuat_spec cfg fmt m c1 w _ g (by omega) _ _ ok1 (fun j => (v j).2) hv1
    refine ⟨s0, s1, ?_, fun h4 => ⟨hc0 h4, hc1 h4⟩⟩
    rw [hrng, Option.bind_some, p0, hq0, Option.bind_some]
    dsimp only
    rw [p1, hq1, Option.bind_some]
    dsimp only
    rw [pc, hcr, Option.bind_some, hrm0, hrm1, show g * 12 * 2 = 24 * g by omega]
  · rw [if_neg hf]
    dsimp only
    rw [← hg, if_neg hf]
    have ok0 : RangesOk cfg fmt m (c0.rotAt cfg fmt m w) (clipRotAt fmt clip w) g none none :=
      ⟨hraw, fun _ => rfl, fun _ => rfl, fun h => absurd h hf, fun _ => rfl, fun h => absurd h hf⟩
    have ok1 : RangesOk cfg fmt m (c1.rotAt cfg fmt m w) (clipRotAt fmt clip w) g none none :=
      ⟨hraw, fun _ => rfl, fun _ => rfl, fun h => absurd h hf, fun _ => rfl, fun h => absurd h hf⟩
    obtain ⟨lanes0, s0, hq0, hrm0, hc0⟩ := unpackQuat_spec cfg fmt m c0 w _ g (by omega) _ _ ok0 (fun j => (v j).1) hv0
    obtain ⟨lanes1, s1, hq1, hrm1, hc1⟩ := unpackQuat_spec cfg fmt m c1 w _ g (by omega) _ _ ok1 (fun j => (v j).2) hv1
    refine ⟨s0, s1, ?_, fun h4 => ⟨hc0 h4, hc1 h4⟩⟩
    rw [p0, hq0, Option.bind_some]
    dsimp only
    rw [p1, hq1, Option.bind_some]
    dsimp only
    rw [hrm0, hrm1, pc]; rfl

theorem unpackRotationGroup_spec {cfg : AnimCfg} {fmt : RotationFormat} {m : List (BitVec 8)} {clip N : Nat} {c0 c1 : SegCtx}
    {V : Nat → Sample × Sample} (hm : RotMem cfg fmt m clip N c0 c1 V) {k : Nat} {a : AnimState}
    (h : AnimInv V N (RotPos cfg fmt m clip c0 c1) k a) :
    ∃ a', a.unpackRotationGroup cfg fmt m = some a' ∧ AnimInv V N (RotPos cfg fmt m clip c0 c1) k a' ∧ min N (k + 4) ≤ a'.write := by
  have hrd := h.read; have htot := h.total; have hle := h.le
  by_cases hl : a.left = 0
  · unfold AnimState.unpackRotationGroup; rw [if_pos hl]; exact ⟨a, rfl, h, by omega⟩
  by_cases hc : a.write - a.read ≥ 4
  · unfold AnimState.unpackRotationGroup; rw [if_neg hl, if_pos hc]; exact ⟨a, rfl, h, by omega⟩
  have hal := h.aligned hl
  obtain ⟨p0, p1, pc⟩ := h.pos hl
  obtain ⟨g, hg⟩ : ∃ g, g = min a.left 4 := ⟨_, rfl⟩
  have hgN : min (N - a.write) 4 = g := by omega
  have e0 : fmt = .dropWVariable → (c0.rotAt cfg fmt m a.write).seg = c0.seg + 6 * a.write := by intro hf; rw [hf]; rfl
  have e1 : fmt = .dropWVariable → (c1.rotAt cfg fmt m a.write).seg = c1.seg + 6 * a.write := by intro hf; rw [hf]; rfl
  have ec : fmt = .dropWVariable → clipRotAt fmt clip a.write = clip + 24 * a.write := by
    intro hf; unfold clipRotAt; rw [if_pos hf]
  obtain ⟨s0, s1, hu, h4⟩ := unpackRotationGroup_lanes hm.raw hl hc hg p0 p1 pc (fun j => V (a.write + j))
    (by
      intro j hj
      have := unpackSingleQuat_spec cfg fmt m clip N c0 a.write j hal (by omega) _ (hm.val0 (a.write + j) (by omega))
      rw [hgN] at this; rw [p0, pc]; exact this)
    (by
      intro j hj
      have := unpackSingleQuat_spec cfg fmt m clip N c1 a.write j hal (by omega) _ (hm.val1 (a.write + j) (by omega))
      rw [hgN] at this; rw [p1, pc]; exact this)
    (by
      intro hs
      have hs' := hm.same hs
      rw [p0, p1]; unfold SegCtx.rotAt; cases fmt <;> dsimp only <;> omega)
    (by intro hf hs; have := hm.seg0 hf hs; rw [p0, e0 hf]; omega)
    (by intro hf hs; have := hm.seg1 hf hs; rw [p1, e1 hf]; omega)
    (by intro hf; have := hm.clipB hf; rw [pc, ec hf]; omega)
  have hpos : min a.left 4 = 4 → ∀ (smp : Nat → Option (Sample × Sample)) left write read,
      RotPos cfg fmt m clip c0 c1 (a.write + 4) ⟨smp, left, write, read, clipRotAt fmt clip a.write + (if fmt = .dropWVariable then 24 * g else 0), s0, s1⟩ := by
    intro h4' _ _ _ _
    obtain ⟨q0, q1⟩ := h4 (by omega)
    refine ⟨q0, q1, ?_⟩
    show clipRotAt fmt clip a.write + _ = clipRotAt fmt clip (a.write + 4)
    unfold clipRotAt
    by_cases hf : fmt = .dropWVariable
    · rw [if_pos hf, if_pos hf, if_pos hf]; omega
    · rw [if_neg hf, if_neg hf, if_neg hf]; rfl
  obtain ⟨samples, hset, hinv, hmin⟩ := h.unpack hl hc _ _ rfl rfl _ s0 s1 hpos
  rw [← hg] at hinv hmin hset
  rw [hu, hset, Option.bind_some]
  exact ⟨_, rfl, hinv, hmin⟩

theorem SegCtx.skip_spec {cfg : AnimCfg} {m : List (BitVec 8)} {g : Nat} {c : SegCtx} (h : g ≠ 0 → c.fmt + g * 4 + 12 ≤ m.length) :
    c.skip cfg m g = some { c with fmt := c.fmt + g * 4, seg := c.seg + g * 6 * 4, bit := c.bit + bitsBefore cfg.rawBits m c.fmt (g * 4) } := by
  obtain ⟨s, hs, hs3⟩ := countGroupBits_spec cfg m c.fmt g 0 0 (by intro h'; have := h h'; omega)
  unfold SegCtx.skip
  rw [Nat.zero_mul, Nat.add_zero] at hs3
  rw [hs, Option.bind_some, Nat.zero_add, hs3]

/-- Skipping groups then reading one lane gives the sample. `g` is any number of groups that leaves the sample
in the next one; the code does not call the skip when it is 0. -/
theorem rotationWithinGroup_skip {cfg : AnimCfg} {fmt : RotationFormat} {m : List (BitVec 8)} {clip N : Nat} {c0 c1 : SegCtx}
    {V : Nat → Sample × Sample} (hm : RotMem cfg fmt m clip N c0 c1 V)
    (hs0 : fmt = .dropWVariable → c0.fmt + N + 11 ≤ m.length) (hs1 : fmt = .dropWVariable → c1.fmt + N + 11 ≤ m.length)
    (a : AnimState) (ha : a.left = N) (hp : RotPos cfg fmt m clip c0 c1 0 a) (k : Nat) (hk : k < N) :
    ((if k / 4 ≠ 0 then a.skipRotationGroups cfg fmt m (k / 4) else some a).bind
      fun a => a.rotationWithinGroup cfg fmt m (k % 4)) = some (V k) := by
  obtain ⟨p0, p1, pc⟩ := hp
  have z0 : a.s0 = c0 := by rw [p0]; cases fmt <;> rfl
  have z1 : a.s1 = c1 := by rw [p1]; cases fmt <;> rfl
  have zc : a.clip = clip := by rw [pc]; unfold clipRotAt; split <;> rfl
  obtain ⟨w, hw⟩ : ∃ w, w = 4 * (k / 4) := ⟨_, rfl⟩
  suffices h : ∃ a', (if k / 4 ≠ 0 then a.skipRotationGroups cfg fmt m (k / 4) else some a) = some a' ∧
      a'.left = N - w ∧ RotPos cfg fmt m clip c0 c1 w a' by
    obtain ⟨a', ha', hl', q0, q1, qc⟩ := h
    rw [ha', Option.bind_some]
    unfold AnimState.rotationWithinGroup
    rw [if_pos (by omega)]
    dsimp only
    rw [hl', q0, q1, qc, unpackSingleQuat_spec cfg fmt m clip N c0 w (k % 4) (by omega) (by omega) (V k).1
      (by rw [show w + k % 4 = k by omega]; exact hm.val0 k hk), Option.bind_some,
      unpackSingleQuat_spec cfg fmt m clip N c1 w (k % 4) (by omega) (by omega) (V k).2
      (by rw [show w + k % 4 = k by omega]; exact hm.val1 k hk), Option.bind_some]
  by_cases hz : k / 4 ≠ 0
  · rw [if_pos hz]
    unfold AnimState.skipRotationGroups
    dsimp only
    rw [if_pos (by omega)]
    by_cases hf : fmt = .dropWVariable
    · have h0 := hs0 hf
      have h1 := hs1 hf
      rw [if_pos hf, z0, SegCtx.skip_spec (by intro _; omega), Option.bind_some, z1, SegCtx.skip_spec (by intro _; omega), Option.bind_some]
      refine ⟨_, rfl, by show a.left - k / 4 * 4 = _; omega, ?_, ?_, ?_⟩
      · subst hf
        show _ = SegCtx.rotAt cfg .dropWVariable m c0 w
        simp only [SegCtx.rotAt]
        rw [show k / 4 * 4 = w by omega, show k / 4 * 6 * 4 = 6 * w by omega]
      · subst hf
        show _ = SegCtx.rotAt cfg .dropWVariable m c1 w
        simp only [SegCtx.rotAt]
        rw [show k / 4 * 4 = w by omega, show k / 4 * 6 * 4 = 6 * w by omega]
      · show a.clip + 12 * 2 * 4 * (k / 4) = _
        unfold clipRotAt; rw [if_pos hf, zc]; omega
    · rw [if_neg hf]
      refine ⟨_, rfl, by show a.left - k / 4 * 4 = _; omega, ?_, ?_, ?_⟩
      · show ({ a.s0 with bit := _ } : SegCtx) = _
        rw [z0]
        cases fmt with
        | quatfFull => rw [if_pos rfl]; simp only [SegCtx.rotAt]; congr 1; omega
        | dropWFull => rw [if_neg (by decide)]; simp only [SegCtx.rotAt]; congr 1; omega
        | dropWVariable => exact absurd rfl hf
      · show ({ a.s1 with bit := _ } : SegCtx) = _
        rw [z1]
        cases fmt with
        | quatfFull => rw [if_pos rfl]; simp only [SegCtx.rotAt]; congr 1; omega
        | dropWFull => rw [if_neg (by decide)]; simp only [SegCtx.rotAt]; congr 1; omega
        | dropWVariable => exact absurd rfl hf
      · show a.clip = _
        unfold clipRotAt; rw [if_neg hf, zc]
  · rw [if_neg hz]
    have hw0 : w = 0 := by omega
    exact ⟨a, rfl, by omega, by rw [hw0]; exact ⟨p0, p1, pc⟩⟩

end Acl.Transform
