import Verif.Transform.Decompress
import Verif.Transform.SweepLemmas
import Verif.Transform.ConstantCacheReader
import Verif.Transform.AnimatedVectors
/-
The passes of `decompress_tracks`, each as the list of events it adds.
-/
namespace Acl.Transform

/-- The event of a write, when it is not skipped. -/
def written (w : Writer) (kind : Kind) (t : Nat) (v : Value) : List Event :=
  if !w.skipAll kind && !w.skipTrack kind t then [⟨kind, t, v⟩] else []

theorem write_eq (w : Writer) (kind : Kind) (t : Nat) (v : Value) (ev : List Event) :
    write w kind t v ev = ev ++ written w kind t v := by
  unfold write written; split <;> simp

/-- The entries of a kind are in the table. -/
structure KindTable (x : Context) (kind : Kind) (fs : List StreamFlags) : Prop where
  len : fs.length = x.numTracks
  entry : ∀ k, k < numSubTrackEntries x.numTracks → ∃ e, x.types[x.base kind + k]? = some e ∧ EntryOf e fs k

theorem flatMap_congr_mem {α β : Type} {l : List α} {f g : α → List β} (h : ∀ a ∈ l, f a = g a) : l.flatMap f = l.flatMap g := by
  induction l with
  | nil => rfl
  | cons a l ih =>
    rw [List.flatMap_cons, List.flatMap_cons, h a (by simp), ih (fun b hb => h b (by simp [hb]))]

variable {x : Context} {w : Writer} {kind : Kind} {fs : List StreamFlags}

theorem KindTable.visitConstant {σ : Type} (h : KindTable x kind fs) (onEntry onGroup : σ → Option σ) (onTrack : σ → Nat → Option σ) (s : σ) :
    visitEntries x.types (x.base kind) (fun _ => selectConstant) 0x55000000#32 lowLanes onEntry onGroup onTrack
        (numSubTrackEntries x.numTracks) 0 s =
      sweepEntries (fun i => decide (typeAt fs i = 1)) onEntry onGroup onTrack (numSubTrackEntries x.numTracks) 0 s := by
  rw [visitEntries_eq (fun i => decide (typeAt fs i = 1)) (b := 0) (by decide) lowMasks]
  intro k _ hk
  obtain ⟨e, he, hE⟩ := h.entry k (by omega)
  exact ⟨e, he, fun j hj => selectConstant_bits hE j hj⟩

theorem KindTable.visitAnimated {σ : Type} (h : KindTable x kind fs) (onEntry onGroup : σ → Option σ) (onTrack : σ → Nat → Option σ) (s : σ) :
    visitEntries x.types (x.base kind) (fun _ => selectAnimated) 0xAA000000#32 highLanes onEntry onGroup onTrack
        (numSubTrackEntries x.numTracks) 0 s =
      sweepEntries (fun i => decide (typeAt fs i = 2)) onEntry onGroup onTrack (numSubTrackEntries x.numTracks) 0 s := by
  rw [visitEntries_eq (fun i => decide (typeAt fs i = 2)) (b := 1) (by decide) highMasks]
  intro k _ hk
  obtain ⟨e, he, hE⟩ := h.entry k (by omega)
  exact ⟨e, he, fun j hj => selectAnimated_bits hE j hj⟩

theorem KindTable.visitDefault {σ : Type} (h : KindTable x kind fs) (onEntry onGroup : σ → Option σ) (onTrack : σ → Nat → Option σ) (s : σ) :
    visitEntries x.types (x.base kind) (selectDefault (numSubTrackEntries x.numTracks - 1) (paddingMask x.numTracks))
        0xAA000000#32 highLanes onEntry onGroup onTrack (numSubTrackEntries x.numTracks) 0 s =
      sweepEntries (fun i => decide (i < x.numTracks ∧ typeAt fs i = 0)) onEntry onGroup onTrack (numSubTrackEntries x.numTracks) 0 s := by
  rw [visitEntries_eq (fun i => decide (i < x.numTracks ∧ typeAt fs i = 0)) (b := 1) (by decide) highMasks]
  intro k _ hk
  obtain ⟨e, he, hE⟩ := h.entry k (by omega)
  refine ⟨e, he, fun j hj => ?_⟩
  have := h.len
  rw [← this] at hk ⊢
  exact selectDefault_bits hE (by omega) j hj

/-- Number of sub-tracks of a class among the first `n`. -/
abbrev classCount (fs : List StreamFlags) (c : BitVec 32) (n : Nat) : Nat := countBelow n fun i => decide (typeAt fs i = c)

theorem countBelow_stable (sel : Nat → Bool) {a b : Nat} (hab : a ≤ b) (h : ∀ i, a ≤ i → sel i = false) :
    countBelow b sel = countBelow a sel := by
  obtain ⟨d, rfl⟩ := Nat.exists_eq_add_of_le hab
  rw [countBelow_add, countBelow_false d _ (fun i _ => h _ (by omega)), Nat.add_zero]

theorem emitted_stable {ε : Type} (sel : Nat → Bool) (emit : Nat → Nat → List ε) {a b : Nat} (hab : a ≤ b)
    (h : ∀ i, a ≤ i → sel i = false) : emitted sel emit 0 b = emitted sel emit 0 a := by
  obtain ⟨d, rfl⟩ := Nat.exists_eq_add_of_le hab
  rw [emitted_add]
  have : emitted sel emit (0 + a) d = [] := by
    unfold emitted
    rw [List.flatMap_eq_nil_iff]
    intro u hu
    rw [List.mem_range'_1] at hu
    rw [h u (by omega)]; rfl
  rw [this, List.append_nil]

theorem entries_cover (n : Nat) : n ≤ 16 * numSubTrackEntries n := by unfold numSubTrackEntries; omega

theorem class_stable (h : KindTable x kind fs) {c : BitVec 32} (hc : c ≠ 0) (i : Nat) (hi : x.numTracks ≤ i) :
    decide (typeAt fs i = c) = false := by
  rw [typeAt_ge fs i (by have := h.len; omega)]
  exact decide_eq_false (fun h => hc h.symm)

/-- What a class of a kind adds: `emit t k` for the `k`-th sub-track of the class, track `t`. -/
def classEvents (fs : List StreamFlags) (c : BitVec 32) (n : Nat) (emit : Nat → Nat → List Event) : List Event :=
  (List.range n).flatMap fun t => if typeAt fs t = c then emit t (classCount fs c t) else []

theorem emitted_class (h : KindTable x kind fs) {c : BitVec 32} (hc : c ≠ 0) (emit : Nat → Nat → List Event) :
    emitted (fun i => decide (typeAt fs i = c)) emit 0 (16 * numSubTrackEntries x.numTracks) = classEvents fs c x.numTracks emit := by
  rw [emitted_stable _ _ (entries_cover _) (class_stable h hc)]
  unfold emitted classEvents
  rw [List.range_eq_range']
  congr 1
  funext u
  by_cases hu : typeAt fs u = c
  · rw [if_pos (decide_eq_true hu), if_pos hu]
  · rw [if_neg (by simp [hu]), if_neg hu]

theorem unpackDefaults_spec (h : KindTable x kind fs) (ev : List Event) :
    unpackDefaults x w kind ev = some (ev ++ if w.mode kind = .skipped then [] else
      classEvents fs 0 x.numTracks fun t _ => written w kind t (defaultValue (w.mode kind) t)) := by
  unfold unpackDefaults
  by_cases hs : w.mode kind = .skipped
  · rw [if_pos hs, if_pos hs, List.append_nil]
  · rw [if_neg hs, if_neg hs, h.visitDefault]
    have := sweepEntries_consume (fun i => decide (i < x.numTracks ∧ typeAt fs i = 0)) some
      (fun (s : Unit × List Event) t => some (s.1, write w kind t (defaultValue (w.mode kind) t) s.2))
      (fun t _ => written w kind t (defaultValue (w.mode kind) t)) (fun _ _ => True) (fun _ _ _ => True)
      (countBelow (numSubTrackEntries x.numTracks * 16) fun i => decide (i < x.numTracks ∧ typeAt fs i = 0))
      (fun k s ev _ _ => ⟨s, rfl, trivial⟩)
      (fun lim k s ev t _ _ _ _ _ => ⟨s, by rw [write_eq], trivial⟩)
      (fun _ _ _ _ => trivial) (numSubTrackEntries x.numTracks) 0 () ev trivial (by rw [Nat.zero_add])
    obtain ⟨s', hs', _⟩ := this
    rw [hs', Option.map_some]
    have he : ∀ emit, emitted (fun i => decide (i < x.numTracks ∧ typeAt fs i = 0)) emit (0 * 16) (16 * numSubTrackEntries x.numTracks) =
        (List.range x.numTracks).flatMap fun t => if typeAt fs t = 0 then (emit t (countBelow t fun i => decide (i < x.numTracks ∧ typeAt fs i = 0)) : List Event) else [] := by
      intro emit
      rw [Nat.zero_mul, emitted_stable _ _ (entries_cover _) (fun i hi => decide_eq_false (by omega))]
      unfold emitted
      rw [← List.range_eq_range']
      apply flatMap_congr_mem
      intro t ht
      have := List.mem_range.1 ht
      by_cases h0 : typeAt fs t = 0
      · rw [if_pos (decide_eq_true ⟨this, h0⟩), if_pos h0]
      · rw [if_neg (by rw [decide_eq_true_eq]; exact fun hh => h0 hh.2), if_neg h0]
    rw [he]; rfl

theorem unpackConstantRotations_spec {base N : Nat} {full : Bool} (h : KindTable x .rotation fs) (hfull : x.fullRotations = full)
    (hN : classCount fs 1 x.numTracks = N) (hm : base + rotSize full * N + 12 ≤ x.clip.length) (Q : Nat → Quat)
    (hQ : ∀ k, k < N → rotationAt x.clip base full N k = some (Q k)) (c : ConstCache) (hc : CacheInv x.clip base full N 0 c)
    (ev : List Event) :
    ∃ c', unpackConstantRotations x w (c, ev) = some (c', ev ++ classEvents fs 1 x.numTracks fun t k => written w .rotation t (.rotation (Q k))) ∧
      SameVectors c c' := by
  unfold unpackConstantRotations
  rw [h.visitConstant]
  have hN' : countBelow ((0 + numSubTrackEntries x.numTracks) * 16) (fun i => decide (typeAt fs i = 1)) ≤ N := by
    rw [← hN, Nat.zero_add, Nat.mul_comm, countBelow_stable _ (entries_cover _) (class_stable h (by decide))]
  have hkN : ∀ t, decide (typeAt fs t = 1) = true → classCount fs 1 t < N := by
    intro t ht
    rw [← hN]
    have htn : t < x.numTracks := by
      rcases Nat.lt_or_ge t x.numTracks with h' | h'
      · exact h'
      · rw [class_stable h (by decide) t h'] at ht; cases ht
    have h1 : classCount fs 1 (t + 1) ≤ classCount fs 1 x.numTracks := countBelow_mono _ (by omega)
    have h2 : classCount fs 1 (t + 1) = classCount fs 1 t + 1 := by
      unfold classCount; rw [countBelow_succ, ht]; rfl
    omega
  obtain ⟨c', hc', inv', _, same⟩ := sweepEntries_consume (fun i => decide (typeAt fs i = 1))
    (fun s : ConstCache × List Event => (s.1.unpackGroup x.clip x.fullRotations).map (·, s.2))
    (fun s t => s.1.consumeRotation.bind fun (q, c) => some (c, write w .rotation t (.rotation q) s.2))
    (fun t k => written w .rotation t (.rotation (Q k)))
    (fun k s => CacheInv x.clip base full N k s ∧ True ∧ SameVectors c s)
    (fun lim k s => CacheInv x.clip base full N k s ∧ lim ≤ s.write ∧ SameVectors c s) N
    (by
      rintro k s ev ⟨hi, _, hs⟩ hk
      obtain ⟨c1, h1, i1, w1, s1⟩ := unpackGroup_spec hm hi
      refine ⟨c1, ?_, i1, w1, s1.1.trans hs.1, s1.2.trans hs.2⟩
      dsimp only
      rw [hfull, h1]; rfl)
    (by
      rintro lim k s ev t ⟨hi, hw, hs⟩ hk hlim ht hkc
      obtain ⟨c1, h1, i1, w1, s1⟩ := consumeRotation_spec hi (by omega) (hQ k (by omega))
      refine ⟨c1, ?_, i1, by omega, s1.1.trans hs.1, s1.2.trans hs.2⟩
      dsimp only
      rw [h1, Option.bind_some, write_eq])
    (fun _ _ _ h => ⟨h.1, trivial, h.2.2⟩)
    (numSubTrackEntries x.numTracks) 0 c ev ⟨by rw [Nat.zero_mul]; exact hc, trivial, rfl, rfl⟩ hN'
  refine ⟨c', ?_, same⟩
  rw [hc', Nat.zero_mul, emitted_class h (by decide)]

/-- Translations and scales: `p k` is the offset handed out for sample `k`. -/
theorem unpackConstantVectors_spec (h : KindTable x kind fs) {base N : Nat} (consume : ConstCache → Nat × ConstCache)
    (ptr : ConstCache → Nat) (hcons : ∀ c, (consume c).1 = ptr c ∧ ptr (consume c).2 = ptr c + 12)
    (other : ConstCache → ConstCache → Prop) (hrefl : ∀ c, other c c) (hother : ∀ c d, other c d → other c (consume d).2)
    (hN : classCount fs 1 x.numTracks = N) (hm : N ≠ 0 → base + 12 * N + 4 ≤ x.clip.length) (V : Nat → Vec3)
    (hV : ∀ k, k < N → vec3At x.clip base k = some (V k)) (c : ConstCache) (hc : ptr c = base) (ev : List Event) :
    ∃ c', visitEntries x.types (x.base kind) (fun _ => selectConstant) 0x55000000#32 lowLanes some some
      (fun s t =>
        let p := consume s.1
        if !w.skipAll kind && !w.skipTrack kind t then
          (loadVec4 x.clip p.1).bind fun v => some (p.2, s.2 ++ [⟨kind, t, .vector v.xyz⟩])
        else some (p.2, s.2))
      (numSubTrackEntries x.numTracks) 0 (c, ev) =
        some (c', ev ++ classEvents fs 1 x.numTracks fun t k => written w kind t (.vector (V k))) ∧ other c c' := by
  rw [h.visitConstant]
  have hN' : countBelow ((0 + numSubTrackEntries x.numTracks) * 16) (fun i => decide (typeAt fs i = 1)) ≤ N := by
    rw [← hN, Nat.zero_add, Nat.mul_comm, countBelow_stable _ (entries_cover _) (class_stable h (by decide))]
  obtain ⟨c', hc', _, ho⟩ := sweepEntries_consume (fun i => decide (typeAt fs i = 1)) some
    (fun (s : ConstCache × List Event) t =>
        let p := consume s.1
        if !w.skipAll kind && !w.skipTrack kind t then
          (loadVec4 x.clip p.1).bind fun v => some (p.2, s.2 ++ [⟨kind, t, .vector v.xyz⟩])
        else some (p.2, s.2))
    (fun t k => written w kind t (.vector (V k)))
    (fun k s => ptr s = base + 12 * k ∧ other c s) (fun _ k s => ptr s = base + 12 * k ∧ other c s) N
    (fun k s ev hp _ => ⟨s, rfl, hp⟩)
    (by
      rintro lim k s ev t ⟨hp, ho⟩ hk hlim ht hkc
      obtain ⟨e1, e2⟩ := hcons s
      refine ⟨(consume s).2, ?_, by omega, hother _ _ ho⟩
      dsimp only
      unfold written
      by_cases hw : (!w.skipAll kind && !w.skipTrack kind t) = true
      · rw [if_pos hw, if_pos hw, e1, hp]
        have hv := vec3At_load (m := x.clip) (base := base) (k := k) (by have := hm (by omega); omega)
        rw [hV k (by omega)] at hv
        cases hl : loadVec4 x.clip (base + 12 * k) with
        | none => rw [hl] at hv; cases hv
        | some v =>
          rw [hl, Option.map_some] at hv
          rw [Option.bind_some, Option.some.inj hv]
      · rw [if_neg hw, if_neg hw, List.append_nil])
    (fun _ _ _ h => h) (numSubTrackEntries x.numTracks) 0 c ev ⟨by rw [Nat.zero_mul]; rw [hc]; simp [countBelow], hrefl c⟩ hN'
  refine ⟨c', ?_, ho⟩
  rw [hc', Nat.zero_mul, emitted_class h (by decide)]

theorem unpackAnimated_spec (h : KindTable x kind fs) (unpackGroup : AnimState → Option AnimState) {V : Nat → Sample × Sample} {N : Nat}
    {pos : Nat → AnimState → Prop} (hpos : ∀ w (a : AnimState) r, pos w a → pos w { a with read := r })
    (hu : ∀ k a, AnimInv V N pos k a → ∃ a', unpackGroup a = some a' ∧ AnimInv V N pos k a' ∧ min N (k + 4) ≤ a'.write)
    (hN : classCount fs 2 x.numTracks = N) (how : Nat → Interp)
    (hhow : ∀ t, t < x.numTracks → slotOf x w t = some (how t)) (a : AnimState) (ha : AnimInv V N pos 0 a) (ev : List Event) :
    ∃ a', unpackAnimated x w kind unpackGroup (a, ev) =
      some (a', ev ++ classEvents fs 2 x.numTracks fun t k => written w kind t (.animated (V k) (how t))) := by
  unfold unpackAnimated
  rw [h.visitAnimated, sweepEntries_groups]
  have hN' : countBelow (0 * 16 + 4 * (4 * numSubTrackEntries x.numTracks)) (fun i => decide (typeAt fs i = 2)) ≤ N := by
    rw [← hN, show 0 * 16 + 4 * (4 * numSubTrackEntries x.numTracks) = 16 * numSubTrackEntries x.numTracks by omega,
      countBelow_stable _ (entries_cover _) (class_stable h (by decide))]
  obtain ⟨a', ha', _⟩ := sweepGroups_consume (fun i => decide (typeAt fs i = 2))
    (fun s : AnimState × List Event => (unpackGroup s.1).map (·, s.2))
    (fun s t => (slotOf x w t).bind fun how => s.1.consume.bind fun (v, a) =>
      some (a, write w kind t (.animated v how) s.2))
    (fun t k => written w kind t (.animated (V k) (how t)))
    (fun k s => AnimInv V N pos k s) (fun lim k s => AnimInv V N pos k s ∧ lim ≤ s.write) N
    (by
      intro k s ev hi hk
      obtain ⟨a1, h1, i1, w1⟩ := hu k s hi
      refine ⟨a1, ?_, i1, w1⟩
      dsimp only
      rw [h1]; rfl)
    (by
      rintro lim k s ev t ⟨hi, hw⟩ hk hlim ht hkc
      obtain ⟨a1, h1, i1, w1⟩ := hi.consume_spec hpos (by omega)
      refine ⟨a1, ?_, i1, by omega⟩
      have htn : t < x.numTracks := by
        rcases Nat.lt_or_ge t x.numTracks with h' | h'
        · exact h'
        · rw [class_stable h (by decide) t h'] at ht; cases ht
      dsimp only
      rw [hhow t htn, Option.bind_some, h1, Option.bind_some, write_eq])
    (fun _ _ _ h => h.1) (4 * numSubTrackEntries x.numTracks) (0 * 16) a ev (by rw [Nat.zero_mul]; exact ha) hN'
  refine ⟨a', ?_⟩
  rw [ha', Nat.zero_mul, show 4 * (4 * numSubTrackEntries x.numTracks) = 16 * numSubTrackEntries x.numTracks by omega, emitted_class h (by decide)]

theorem writeDefaultScales_spec : ∀ (n t : Nat) (ev : List Event), writeDefaultScales w n t ev =
    ev ++ (List.range' t n).flatMap fun t => written w .scale t (defaultValue (w.mode .scale) t) := by
  intro n
  induction n with
  | zero => intro t ev; simp [writeDefaultScales]
  | succ n ih =>
    intro t ev
    rw [writeDefaultScales, ih, write_eq, List.range'_succ, List.flatMap_cons, List.append_assoc]

end Acl.Transform
