import Verif.Transform.AnimatedRotations
namespace Acl.Transform

/-- Where a context is after `w` sub-tracks. -/
def SegCtx.vecAt (cfg : AnimCfg) (fmt : VectorFormat) (m : List (BitVec 8)) (c : SegCtx) (w : Nat) : SegCtx :=
  match fmt with
  | .full => { c with bit := c.bit + 96 * w }
  | .varBits => { c with fmt := c.fmt + w, seg := c.seg + 6 * w, bit := c.bit + bitsBefore cfg.rawBits m c.fmt w }

/-- Equal contexts, except for the segment ranges of a clip without segments (they are not read). -/
structure CtxOk (cfg : AnimCfg) (a b : SegCtx) : Prop where
  fmt : a.fmt = b.fmt
  data : a.data = b.data
  bit : a.bit = b.bit
  seg : cfg.hasSegments = true → a.seg = b.seg

/-- Where the clip ranges are after `w` sub-tracks. -/
def clipVecAt (fmt : VectorFormat) (clip w : Nat) : Nat := if fmt = .varBits then clip + 24 * w else clip

theorem unpackSingleVector3_spec (cfg : AnimCfg) (fmt : VectorFormat) (m : List (BitVec 8)) (clip : Nat) (c : SegCtx)
    (w i : Nat) (hi : i < 4) (s : Sample) (hs : vectorSampleAt cfg fmt m clip c (w + i) = some s) :
    unpackSingleVector3 cfg fmt m i (clipVecAt fmt clip w) (c.vecAt cfg fmt m w) = some s := by
  cases fmt with
  | full =>
    unfold vectorSampleAt at hs
    unfold unpackSingleVector3 SegCtx.vecAt
    rw [if_neg (by decide)]
    dsimp only at hs ⊢
    rw [show c.bit + 96 * w + i * 96 = c.bit + 96 * (w + i) by omega, ← hs]
    cases readFloat3 c.data (c.bit + 96 * (w + i)) <;> rfl
  | varBits =>
    unfold vectorSampleAt at hs
    unfold unpackSingleVector3 SegCtx.vecAt clipVecAt
    rw [if_pos rfl, if_pos rfl]
    dsimp only at hs ⊢
    rw [show c.seg + 6 * (w + i) = c.seg + 6 * w + 6 * i by omega,
      show clip + 24 * (w + i) = clip + 24 * w + 12 * 2 * i by omega, bitsBefore_add, ← Nat.add_assoc, ← Nat.add_assoc] at hs
    have hb : c.fmt + w + i < m.length := by
      cases h : byteAt m (c.fmt + w + i) with
      | none => rw [h] at hs; cases hs
      | some b => exact byteAt_lt h
    obtain ⟨sk, hsk, hsk3⟩ := skipBits_spec cfg m (c.fmt + w) i hi hb
    rw [hsk, Option.bind_some, hsk3]
    rw [byteAt_some hb, Option.bind_some] at hs ⊢
    revert hs
    generalize m.getD (c.fmt + w + i) 0 = b
    by_cases h0 : b.toNat = 0
    · rw [if_pos h0, if_pos h0]
      cases readConstantVector3 m (c.seg + 6 * w + 6 * i) with
      | none => intro h; cases h
      | some r =>
        simp only [Option.bind_some, Bool.not_true, Bool.and_false, Bool.false_eq_true, if_false, Bool.not_false, if_true]
        cases readClipRange m (clip + 24 * w + 12 * 2 * i) (clip + 24 * w + 12 * 2 * i + 12) with
        | none => intro h; cases h
        | some cr => exact id
    · rw [if_neg h0, if_neg h0]
      by_cases hr : b.toNat = cfg.rawBits
      · rw [if_pos hr, if_pos hr]
        cases readFloat3 c.data (c.bit + bitsBefore cfg.rawBits m c.fmt w + bitsBefore cfg.rawBits m (c.fmt + w) i) with
        | none => intro h; cases h
        | some r =>
          simp only [Option.bind_some, Bool.not_true, Bool.and_false, Bool.false_eq_true, if_false]
          exact id
      · rw [if_neg hr, if_neg hr]
        cases readQuantized b.toNat c.data (c.bit + bitsBefore cfg.rawBits m c.fmt w + bitsBefore cfg.rawBits m (c.fmt + w) i) with
        | none => intro h; cases h
        | some r =>
          simp only [Option.bind_some, Bool.not_false, Bool.and_true, if_true]
          cases cfg.hasSegments with
          | true =>
            simp only [if_true]
            cases readRange24 m (c.seg + 6 * w + 6 * i) (c.seg + 6 * w + 6 * i + 3) with
            | none => intro h; cases h
            | some sr =>
              simp only [Option.bind_some, Option.map_some]
              cases readClipRange m (clip + 24 * w + 12 * 2 * i) (clip + 24 * w + 12 * 2 * i + 12) with
              | none => intro h; cases h
              | some cr => exact id
          | false =>
            simp only [Bool.false_eq_true, if_false, Option.bind_some]
            cases readClipRange m (clip + 24 * w + 12 * 2 * i) (clip + 24 * w + 12 * 2 * i + 12) with
            | none => intro h; cases h
            | some cr => exact id

theorem unpackVector3Loop_spec (cfg : AnimCfg) (fmt : VectorFormat) (m : List (BitVec 8)) (clip w : Nat) (base : SegCtx)
    (hraw : cfg.rawBits ≠ 0) (V : Nat → Sample) :
    ∀ n i (c : SegCtx), CtxOk cfg c (base.vecAt cfg fmt m (w + i)) →
      (∀ j, i ≤ j → j < i + n → vectorSampleAt cfg fmt m clip base (w + j) = some (V j)) →
      (∀ j, i ≤ j → j < i + n → fmt = .varBits → byteAt m (base.fmt + (w + j)) = some 0 → cfg.hasSegments = true) →
      ∃ c', unpackVector3Loop cfg fmt m (clipVecAt fmt clip w) n i c = some ((List.range' i n).map V, c') ∧
        CtxOk cfg c' (base.vecAt cfg fmt m (w + (i + n))) := by
  intro n
  induction n with
  | zero => intro i c hc _ _; exact ⟨c, rfl, hc⟩
  | succ n ih =>
    intro i c hc hV h0
    have hVi := hV i (Nat.le_refl _) (by omega)
    suffices h : ∃ c', CtxOk cfg c' (base.vecAt cfg fmt m (w + (i + 1))) ∧
        unpackVector3Loop cfg fmt m (clipVecAt fmt clip w) (n + 1) i c =
          (unpackVector3Loop cfg fmt m (clipVecAt fmt clip w) n (i + 1) c').bind fun (ss, c) => some (V i :: ss, c) by
      obtain ⟨c', hc', he⟩ := h
      obtain ⟨c'', he', hc''⟩ := ih (i + 1) c' hc' (fun j h1 h2 => hV j (by omega) (by omega))
        (fun j h1 h2 => h0 j (by omega) (by omega))
      refine ⟨c'', ?_, by rw [show i + (n + 1) = i + 1 + n by omega]; exact hc''⟩
      rw [he, he', List.range'_succ, List.map_cons]; rfl
    obtain ⟨cf, cd, cb, cs⟩ := hc
    obtain ⟨f, sg, d, bt⟩ := c
    cases fmt with
    | full =>
      unfold vectorSampleAt at hVi
      rw [unpackVector3Loop, if_neg (by decide)]
      dsimp only [SegCtx.vecAt] at hVi cb cd cf cs ⊢
      subst cf cd cb
      cases hq : readFloat3 base.data (base.bit + 96 * (w + i)) with
      | none => rw [hq] at hVi; cases hVi
      | some r =>
        rw [hq, Option.map_some] at hVi
        have hVi' := Option.some.inj hVi
        refine ⟨⟨base.fmt, sg, base.data, base.bit + 96 * (w + (i + 1))⟩, ⟨rfl, rfl, rfl, cs⟩, ?_⟩
        simp only [Option.bind_some]
        rw [show base.bit + 96 * (w + i) + 96 = base.bit + 96 * (w + (i + 1)) by omega, hVi']
    | varBits =>
      unfold vectorSampleAt at hVi
      have h0i := h0 i (Nat.le_refl _) (by omega) rfl
      rw [unpackVector3Loop, if_pos rfl]
      dsimp only [SegCtx.vecAt] at hVi cb cd cf cs ⊢
      unfold clipVecAt
      rw [if_pos rfl]
      have hnext : bitsBefore cfg.rawBits m base.fmt (w + (i + 1)) = bitsBefore cfg.rawBits m base.fmt (w + i) +
        3 * componentBits cfg.rawBits (m.getD (base.fmt + (w + i)) 0) := rfl
      rw [hnext]
      rw [show clip + 24 * (w + i) = clip + 24 * w + 12 * 2 * i by omega] at hVi
      subst cf cd cb
      have hb : base.fmt + (w + i) < m.length := by
        cases h : byteAt m (base.fmt + (w + i)) with
        | none => rw [h] at hVi; cases hVi
        | some b => exact byteAt_lt h
      rw [byteAt_some hb, Option.bind_some] at hVi ⊢
      rw [byteAt_some hb] at h0i
      revert hVi h0i
      generalize m.getD (base.fmt + (w + i)) 0 = b
      intro hVi h0i
      have hfmt : base.fmt + (w + i) + 1 = base.fmt + (w + (i + 1)) := by omega
      by_cases hz : b.toNat = 0
      · have hseg := h0i (by rw [show b = 0 from BitVec.eq_of_toNat_eq hz])
        have hsg := cs hseg
        rw [if_pos hz] at hVi ⊢
        have hcb : componentBits cfg.rawBits b = 0 := by unfold componentBits; rw [if_neg (by omega), hz]
        rw [hcb, hsg]
        cases hq : readConstantVector3 m (base.seg + 6 * (w + i)) with
        | none => rw [hq] at hVi; cases hVi
        | some r =>
          rw [hq, Option.bind_some] at hVi
          cases hk : readClipRange m (clip + 24 * w + 12 * 2 * i) (clip + 24 * w + 12 * 2 * i + 12) with
          | none => rw [hk] at hVi; cases hVi
          | some cr =>
            rw [hk, Option.bind_some] at hVi
            have hVi' := Option.some.inj hVi
            refine ⟨⟨base.fmt + (w + i) + 1, base.seg + 6 * (w + i) + 6, base.data, base.bit + bitsBefore cfg.rawBits m base.fmt (w + i)⟩, ⟨hfmt, rfl, rfl, fun _ => by show base.seg + 6 * (w + i) + 6 = base.seg + 6 * (w + (i + 1)); omega⟩, ?_⟩
            simp only [Option.bind_some, Bool.not_true, Bool.and_false, Bool.false_eq_true, if_false, Bool.not_false, if_true]
            rw [hVi']
      · rw [if_neg hz] at hVi ⊢
        by_cases hrb : b.toNat = cfg.rawBits
        · rw [if_pos hrb] at hVi ⊢
          have hcb : componentBits cfg.rawBits b = 32 := by unfold componentBits; rw [if_pos hrb]
          rw [hcb]
          cases hq : readFloat3 base.data (base.bit + bitsBefore cfg.rawBits m base.fmt (w + i)) with
          | none => rw [hq] at hVi; cases hVi
          | some r =>
            rw [hq, Option.bind_some] at hVi
            have hVi' := Option.some.inj hVi
            refine ⟨⟨base.fmt + (w + i) + 1, sg + 6, base.data, base.bit + bitsBefore cfg.rawBits m base.fmt (w + i) + 96⟩, ⟨hfmt, rfl, by show _ + 96 = _ + (_ + 3 * 32); omega, fun h => by have := cs h; show sg + 6 = base.seg + 6 * (w + (i + 1)); omega⟩, ?_⟩
            simp only [Option.bind_some, Bool.not_true, Bool.and_false, Bool.false_eq_true, if_false]
            rw [hVi']
        · rw [if_neg hrb] at hVi ⊢
          have hcb : componentBits cfg.rawBits b = b.toNat := by unfold componentBits; rw [if_neg hrb]
          rw [hcb]
          cases hq : readQuantized b.toNat base.data (base.bit + bitsBefore cfg.rawBits m base.fmt (w + i)) with
          | none => rw [hq] at hVi; cases hVi
          | some r =>
            rw [hq, Option.bind_some] at hVi
            cases hk : readClipRange m (clip + 24 * w + 12 * 2 * i) (clip + 24 * w + 12 * 2 * i + 12) with
            | none =>
              rw [hk] at hVi
              revert hVi
              cases (if cfg.hasSegments = true then Option.map some (readRange24 m (base.seg + 6 * (w + i)) (base.seg + 6 * (w + i) + 3)) else some none) <;> (intro h; cases h)
            | some cr =>
              rw [hk] at hVi
              by_cases hseg : cfg.hasSegments = true
              · have hsg := cs hseg
                rw [if_pos hseg] at hVi
                cases hrg : readRange24 m (base.seg + 6 * (w + i)) (base.seg + 6 * (w + i) + 3) with
                | none => rw [hrg] at hVi; cases hVi
                | some sr =>
                  rw [hrg] at hVi
                  have hVi' := Option.some.inj hVi
                  refine ⟨⟨base.fmt + (w + i) + 1, base.seg + 6 * (w + i) + 3 + 3, base.data, base.bit + bitsBefore cfg.rawBits m base.fmt (w + i) + b.toNat * 3⟩, ⟨hfmt, rfl, by show _ + b.toNat * 3 = _ + (_ + 3 * b.toNat); omega, fun _ => by show base.seg + 6 * (w + i) + 3 + 3 = base.seg + 6 * (w + (i + 1)); omega⟩, ?_⟩
                  simp only [Option.bind_some, hseg, Bool.not_false, Bool.and_true, if_true]
                  rw [hsg, hrg]
                  simp only [Option.bind_some]
                  rw [hVi']
              · have hseg' : cfg.hasSegments = false := by simpa using hseg
                rw [if_neg hseg] at hVi
                have hVi' := Option.some.inj hVi
                refine ⟨⟨base.fmt + (w + i) + 1, sg, base.data, base.bit + bitsBefore cfg.rawBits m base.fmt (w + i) + b.toNat * 3⟩, ⟨hfmt, rfl, by show _ + b.toNat * 3 = _ + (_ + 3 * b.toNat); omega, fun h => absurd h hseg⟩, ?_⟩
                simp only [Option.bind_some, hseg', Bool.not_false, Bool.and_true, Bool.false_eq_true, if_false, if_true]
                rw [hVi']

/-- Where the readers of translations or scales are after `w` samples. -/
def VecPos (cfg : AnimCfg) (fmt : VectorFormat) (m : List (BitVec 8)) (clip : Nat) (c0 c1 : SegCtx) (w : Nat) (a : AnimState) : Prop :=
  CtxOk cfg a.s0 (c0.vecAt cfg fmt m w) ∧ CtxOk cfg a.s1 (c1.vecAt cfg fmt m w) ∧ a.clip = clipVecAt fmt clip w

/-- What the readers need of the memory: the samples are readable, and a clip without segments has no sub-track
that is constant in its segment (there would be no range data to hold its sample). -/
structure VecMem (cfg : AnimCfg) (fmt : VectorFormat) (m : List (BitVec 8)) (clip N : Nat) (c0 c1 : SegCtx)
    (V : Nat → Sample × Sample) : Prop where
  raw : cfg.rawBits ≠ 0
  val0 : ∀ k, k < N → vectorSampleAt cfg fmt m clip c0 k = some (V k).1
  val1 : ∀ k, k < N → vectorSampleAt cfg fmt m clip c1 k = some (V k).2
  const0 : ∀ k, k < N → fmt = .varBits → byteAt m (c0.fmt + k) = some 0 → cfg.hasSegments = true
  const1 : ∀ k, k < N → fmt = .varBits → byteAt m (c1.fmt + k) = some 0 → cfg.hasSegments = true

theorem unpackVectorGroup_spec {cfg : AnimCfg} {fmt : VectorFormat} {m : List (BitVec 8)} {clip N : Nat} {c0 c1 : SegCtx}
    {V : Nat → Sample × Sample} (hm : VecMem cfg fmt m clip N c0 c1 V) {k : Nat} {a : AnimState}
    (h : AnimInv V N (VecPos cfg fmt m clip c0 c1) k a) :
    ∃ a', a.unpackVectorGroup cfg fmt m = some a' ∧ AnimInv V N (VecPos cfg fmt m clip c0 c1) k a' ∧ min N (k + 4) ≤ a'.write := by
  unfold AnimState.unpackVectorGroup
  have hrd := h.read; have htot := h.total; have hle := h.le
  by_cases hl : a.left = 0
  · rw [if_pos hl]; exact ⟨a, rfl, h, by omega⟩
  rw [if_neg hl]
  by_cases hc : a.write - a.read ≥ 4
  · rw [if_pos hc]; exact ⟨a, rfl, h, by omega⟩
  rw [if_neg hc]
  obtain ⟨p0, p1, pc⟩ := h.pos hl
  obtain ⟨g, hg⟩ : ∃ g, g = min a.left 4 := ⟨_, rfl⟩
  obtain ⟨s0, e0, k0⟩ := unpackVector3Loop_spec cfg fmt m clip a.write c0 hm.raw (fun j => (V (a.write + j)).1) g 0 a.s0 p0
    (fun j _ hj => hm.val0 _ (by omega)) (fun j _ hj => hm.const0 _ (by omega))
  obtain ⟨s1, e1, k1⟩ := unpackVector3Loop_spec cfg fmt m clip a.write c1 hm.raw (fun j => (V (a.write + j)).2) g 0 a.s1 p1
    (fun j _ hj => hm.val1 _ (by omega)) (fun j _ hj => hm.const1 _ (by omega))
  have hpos : min a.left 4 = 4 → ∀ (smp : Nat → Option (Sample × Sample)) left write read,
      VecPos cfg fmt m clip c0 c1 (a.write + 4) ⟨smp, left, write, read, if fmt = .varBits then a.clip + g * 12 * 2 else a.clip, s0, s1⟩ := by
    intro h4 _ _ _ _
    rw [show 0 + g = 4 by omega] at k0 k1
    refine ⟨k0, k1, ?_⟩
    show (if fmt = .varBits then a.clip + g * 12 * 2 else a.clip) = _
    rw [pc]; unfold clipVecAt
    by_cases hf : fmt = .varBits
    · rw [if_pos hf, if_pos hf, if_pos hf]; omega
    · rw [if_neg hf, if_neg hf, if_neg hf]
  obtain ⟨samples, hset, hinv, hmin⟩ := h.unpack hl hc _ _ rfl rfl _ s0 s1 hpos
  rw [← hg] at hinv hmin hset
  dsimp only
  rw [← hg, pc, e0, Option.bind_some]
  dsimp only
  rw [e1, Option.bind_some]
  dsimp only
  rw [hset, Option.bind_some]
  rw [pc] at hinv
  exact ⟨_, rfl, hinv, hmin⟩

theorem vectorWithinGroup_skip {cfg : AnimCfg} {fmt : VectorFormat} {m : List (BitVec 8)} {clip N : Nat} {c0 c1 : SegCtx}
    {V : Nat → Sample × Sample} (hm : VecMem cfg fmt m clip N c0 c1 V)
    (hs0 : fmt = .varBits → c0.fmt + N + 11 ≤ m.length) (hs1 : fmt = .varBits → c1.fmt + N + 11 ≤ m.length)
    (a : AnimState) (ha : a.left = N) (h0 : a.s0 = c0) (h1 : a.s1 = c1) (hcl : a.clip = clip) (k : Nat) (hk : k < N) :
    ((if k / 4 ≠ 0 then a.skipVectorGroups cfg fmt m (k / 4) else some a).bind
      fun a => a.vectorWithinGroup cfg fmt m (k % 4)) = some (V k) := by
  obtain ⟨w, hw⟩ : ∃ w, w = 4 * (k / 4) := ⟨_, rfl⟩
  suffices h : ∃ a', (if k / 4 ≠ 0 then a.skipVectorGroups cfg fmt m (k / 4) else some a) = some a' ∧
      a'.left = N - w ∧ a'.s0 = c0.vecAt cfg fmt m w ∧ a'.s1 = c1.vecAt cfg fmt m w ∧ a'.clip = clipVecAt fmt clip w by
    obtain ⟨a', ha', hl', q0, q1, qc⟩ := h
    rw [ha', Option.bind_some]
    unfold AnimState.vectorWithinGroup
    rw [if_pos (by omega)]
    rw [q0, q1, qc, unpackSingleVector3_spec cfg fmt m clip c0 w (k % 4) (by omega) (V k).1
      (by rw [show w + k % 4 = k by omega]; exact hm.val0 k hk), Option.bind_some,
      unpackSingleVector3_spec cfg fmt m clip c1 w (k % 4) (by omega) (V k).2
      (by rw [show w + k % 4 = k by omega]; exact hm.val1 k hk), Option.bind_some]
  by_cases hz : k / 4 ≠ 0
  · rw [if_pos hz]
    unfold AnimState.skipVectorGroups
    dsimp only
    rw [if_pos (by omega)]
    cases fmt with
    | varBits =>
      have h0' := hs0 rfl
      have h1' := hs1 rfl
      rw [if_pos rfl, h0, SegCtx.skip_spec (by intro _; omega), Option.bind_some, h1, SegCtx.skip_spec (by intro _; omega), Option.bind_some]
      refine ⟨_, rfl, by show a.left - k / 4 * 4 = _; omega, ?_, ?_, ?_⟩
      · show _ = SegCtx.vecAt cfg .varBits m c0 w
        simp only [SegCtx.vecAt]
        rw [show k / 4 * 4 = w by omega, show k / 4 * 6 * 4 = 6 * w by omega]
      · show _ = SegCtx.vecAt cfg .varBits m c1 w
        simp only [SegCtx.vecAt]
        rw [show k / 4 * 4 = w by omega, show k / 4 * 6 * 4 = 6 * w by omega]
      · show a.clip + 12 * 2 * 4 * (k / 4) = _
        unfold clipVecAt; rw [if_pos rfl, hcl]; omega
    | full =>
      rw [if_neg (by decide)]
      refine ⟨_, rfl, by show a.left - k / 4 * 4 = _; omega, ?_, ?_, ?_⟩
      · show ({ a.s0 with bit := a.s0.bit + 32 * 3 * 4 * (k / 4) } : SegCtx) = _
        rw [h0]; simp only [SegCtx.vecAt]
        rw [show 32 * 3 * 4 * (k / 4) = 96 * w by omega]
      · show ({ a.s1 with bit := a.s1.bit + 32 * 3 * 4 * (k / 4) } : SegCtx) = _
        rw [h1]; simp only [SegCtx.vecAt]
        rw [show 32 * 3 * 4 * (k / 4) = 96 * w by omega]
      · show a.clip = _
        unfold clipVecAt; rw [if_neg (by decide), hcl]
  · rw [if_neg hz]
    have hw0 : w = 0 := by omega
    refine ⟨a, rfl, by omega, ?_, ?_, ?_⟩
    · rw [hw0, h0]; cases fmt <;> rfl
    · rw [hw0, h1]; cases fmt <;> rfl
    · rw [hw0, hcl]; unfold clipVecAt; split <;> rfl

end Acl.Transform
