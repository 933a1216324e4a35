import Verif.Memory.BuildDatabase
import Verif.Props.C22
/-!
C83: what build_database refuses, which clips it can read, and what it does with memory.
Model: Verif/Memory/BuildDatabase.lean. Specification: `Usable`, `Older`, `Accepted`, `TrueOf` below.
-/
namespace Acl.C83
open Acl.Mem
variable {E : Type} [LinearOrder E] [OrderTop E] [Zero E]

/-- Specification: an entry that can be put in a database. -/
def Usable (t : Tracks E) : Prop :=
  t.valid = true ∧ t.bound = false ∧ t.stripped = false ∧ t.hasMetadata = true ∧ t.hasError = true

/-- Specification: an entry compressed by a version before ACL 2.1.0 (v02_01_99_2). -/
def Older (t : Tracks E) : Prop := t.version < 10

/-- Specification: what is accepted. -/
def Accepted (s : Settings.Database) (list : List (Option (Tracks E))) : Prop :=
  s.isValid = none ∧ list ≠ [] ∧ (∀ o ∈ list, ∃ t, o = some t ∧ Usable t) ∧ ∃ t, some t ∈ list ∧ 0 < t.clip.numSamples

/-- Specification: what a refusal claims. -/
def TrueOf (s : Settings.Database) (list : List (Option (Tracks E))) : Refusal → Prop
  | .settings => s.isValid ≠ none
  | .noClips => list = []
  | .nullEntry => none ∈ list
  | .invalid => ∃ t, some t ∈ list ∧ t.valid = false
  | .bound => ∃ t, some t ∈ list ∧ t.bound = true
  | .stripped => ∃ t, some t ∈ list ∧ t.stripped = true
  | .noMetadata => ∃ t, some t ∈ list ∧ t.hasMetadata = false
  | .noError => ∃ t, some t ∈ list ∧ t.hasError = false
  | .empty => ∀ t, some t ∈ list → t.clip.numSamples = 0

theorem checkEntry_none (o : Option (Tracks E)) : checkEntry o = none ↔ ∃ t, o = some t ∧ Usable t := by
  cases o with
  | none => simp [checkEntry]
  | some t =>
    unfold checkEntry Usable
    rcases t with ⟨a, b, c, d, e, _, _, _, _⟩
    cases a <;> cases b <;> cases c <;> cases d <;> cases e <;> simp

theorem checkEntries_none (l : List (Option (Tracks E))) : checkEntries l = none ↔ ∀ o ∈ l, ∃ t, o = some t ∧ Usable t := by
  induction l with
  | nil => simp [checkEntries]
  | cons o l ih =>
    unfold checkEntries
    cases h : checkEntry o with
    | some e =>
      simp only [reduceCtorEq, List.mem_cons, forall_eq_or_imp, false_iff, not_and]
      intro hn
      rw [(checkEntry_none o).mpr hn] at h
      cases h
    | none =>
      simp only [ih, List.mem_cons, forall_eq_or_imp]
      exact ⟨fun hl => ⟨(checkEntry_none o).mp h, hl⟩, fun hl => hl.2⟩

theorem checkEntries_some (s : Settings.Database) (l : List (Option (Tracks E))) (e : Refusal) (h : checkEntries l = some e) : TrueOf s l e := by
  have key : ∀ o e, o ∈ l → checkEntry o = some e → TrueOf s l e := by
    intro o e ho hc
    cases o with
    | none => simp only [checkEntry, Option.some.injEq] at hc; subst hc; exact ho
    | some t =>
      simp only [checkEntry] at hc
      split at hc
      · rename_i hh; cases hc; exact ⟨t, ho, by simpa using hh⟩
      split at hc
      · rename_i hh; cases hc; exact ⟨t, ho, hh⟩
      split at hc
      · rename_i hh; cases hc; exact ⟨t, ho, hh⟩
      split at hc
      · rename_i hh; cases hc; exact ⟨t, ho, by simpa using hh⟩
      split at hc
      · rename_i hh; cases hc; exact ⟨t, ho, by simpa using hh⟩
      · cases hc
  have : ∀ l' : List (Option (Tracks E)), (∀ o ∈ l', o ∈ l) → checkEntries l' = some e → TrueOf s l e := by
    intro l'
    induction l' with
    | nil => intro _ h; cases h
    | cons o l' ih =>
      intro hs hc
      unfold checkEntries at hc
      cases ho : checkEntry o with
      | some e' =>
        rw [ho] at hc
        simp only [Option.some.injEq] at hc
        subst hc
        exact key o e' (hs o (by simp)) ho
      | none =>
        rw [ho] at hc
        exact ih (fun o ho => hs o (by simp [ho])) hc
  exact this l (fun _ h => h) h

theorem numFrames_zero (l : List (Tiers.Clip E)) : Tiers.numFrames l = 0 ↔ ∀ c ∈ l, c.numSamples = 0 := by
  induction l with
  | nil => simp [Tiers.numFrames]
  | cons c l ih => simp [Tiers.numFrames, ih]

theorem numFrames_list (l : List (Option (Tracks E))) :
    Tiers.numFrames ((l.filterMap id).map (·.clip)) = 0 ↔ ∀ t, some t ∈ l → t.clip.numSamples = 0 := by
  rw [numFrames_zero]
  simp

theorem build_cases (sz : BuildSizes) (s : Settings.Database) (wl wm : Nat) (list : List (Option (Tracks E))) :
    (Accepted s list ∧ buildDatabase sz s wl wm list = buildTiers sz wl wm (list.filterMap id)) ∨
      ¬ Accepted s list ∧ ∃ e, TrueOf s list e ∧ buildDatabase sz s wl wm list = pure (.refused e) := by
  unfold buildDatabase Accepted
  by_cases h1 : s.isValid = none
  · rw [h1]
    simp only [Option.isSome_none, Bool.false_eq_true, if_false, true_and]
    by_cases h2 : list = []
    · subst h2
      exact Or.inr ⟨by simp, .noClips, rfl, by simp⟩
    · rw [if_neg (by simpa using h2)]
      cases h3 : checkEntries list with
      | some e =>
        refine Or.inr ⟨?_, e, checkEntries_some s list e h3, rfl⟩
        rintro ⟨-, h, -⟩
        rw [(checkEntries_none list).mpr h] at h3
        cases h3
      | none =>
        have h3 := (checkEntries_none list).mp h3
        by_cases h4 : Tiers.numFrames ((list.filterMap id).map (·.clip)) = 0
        · refine Or.inr ⟨?_, .empty, (numFrames_list list).mp h4, by simp only [h4, if_true]⟩
          rintro ⟨-, -, t, ht, hp⟩
          have := (numFrames_list list).mp h4 t ht
          omega
        · refine Or.inl ⟨⟨h2, h3, ?_⟩, by simp only [h4, if_false]⟩
          by_contra hc
          refine h4 ((numFrames_list list).mpr fun t ht => ?_)
          by_contra hn
          exact hc ⟨t, ht, by omega⟩
  · refine Or.inr ⟨fun h => h1 h.1, .settings, h1, ?_⟩
    rw [if_pos]
    exact Option.isSome_iff_ne_none.mpr h1

theorem considerClips_none {clips : List (Tiers.Clip E)} {na : List Nat} {hi : Bool} {i : Nat}
    (h : ∀ best, Tiers.considerClip clips na hi best i = none) :
    ∀ k c best, c ≤ i → i < c + k → Tiers.considerClips clips na hi k c best = none
  | 0, c, _, h1, h2 => by omega
  | k + 1, c, best, h1, h2 => by
    unfold Tiers.considerClips
    by_cases hc : c = i
    · subst hc
      rw [h best]; rfl
    · cases Tiers.considerClip clips na hi best c with
      | none => rfl
      | some b => exact considerClips_none h k (c + 1) b (by omega) (by omega)

theorem assignTiers_null {clips : List (Tiers.Clip E)} {c : Tiers.Clip E} (hc : c ∈ clips) (hm : c.metadata = []) (hs : 0 < c.numSamples)
    (wl wm : Nat) : Tiers.assignTiers clips wl wm = none := by
  obtain ⟨i, hi, hic⟩ := List.mem_iff_getElem.mp hc
  have one : ∀ hi' out, Tiers.assignOne clips hi' (clips.map (fun _ => 0), out) = none := by
    intro hi' out
    unfold Tiers.assignOne
    rw [considerClips_none (i := i) _ _ _ _ (Nat.zero_le _) (by omega)]
    · rfl
    · intro best
      unfold Tiers.considerClip
      simp only [List.getElem?_eq_getElem hi, hic, List.getElem?_map, Option.map_some, Option.bind_eq_bind, Option.bind_some, hm]
      rw [if_neg (by omega)]
      simp
  have loop : ∀ hi' k out, 0 < k → Tiers.assignLoop clips hi' k (clips.map (fun _ => 0), out) = none := by
    intro hi' k out hk
    cases k with
    | zero => omega
    | succ k => unfold Tiers.assignLoop; rw [one]; rfl
  have hframes : Tiers.numFrames clips ≠ 0 := by
    intro h
    have := (numFrames_zero clips).mp h c hc
    omega
  unfold Tiers.assignTiers
  simp only []
  by_cases h1 : Tiers.numLow clips wl = 0
  · rw [h1]
    simp only [Tiers.assignLoop, Option.bind_eq_bind, Option.bind_some, Nat.sub_zero]
    by_cases h2 : Tiers.numMedium clips wl wm = 0
    · rw [h2]
      simp only [Tiers.assignLoop, Option.bind_some, Nat.sub_zero]
      rw [loop true _ [] (by omega)]; rfl
    · rw [loop false _ [] (by omega)]; rfl
  · rw [loop false _ [] (by omega)]; rfl

/-- What is read of a clip. -/
def readable (t : Tracks E) : Tiers.Clip E := if 10 ≤ t.version then t.clip else { t.clip with metadata := [] }

/-- Whether a clip leaves its array behind. -/
def leaves (t : Tracks E) : Nat := if 10 ≤ t.version then 0 else 1

theorem own_setup (sz : BuildSizes) : ∀ l : List (Tracks E), Own 0 (l.mapM (setupClip sz)) (fun kept F =>
    kept = l.map (fun t => (none, readable t)) ∧ F.card = (l.map leaves).sum)
  | [] => by rw [List.mapM_nil]; exact own_pure ⟨rfl, rfl⟩
  | t :: l => by
    rw [List.mapM_cons]
    refine own_bind (Q := fun p F => p = (none, readable t) ∧ F.card = leaves t) ?_ ?_
    · unfold setupClip readable leaves versionConverted
      split
      · exact own_pure ⟨rfl, rfl⟩
      · refine own_bind (own_alloc _) ?_
        rintro p F rfl
        exact own_pure ⟨rfl, rfl⟩
    · rintro p F ⟨rfl, hF⟩
      refine own_step F (own_setup sz l) (zero_add _).symm ?_
      rintro kept G ⟨rfl, hG⟩
      exact own_pure ⟨rfl, by rw [Multiset.card_add, hF, hG, List.map_cons, List.sum_cons, add_comm]⟩

theorem own_outputs : ∀ l : List (Tracks E), Own 0 (l.mapM fun t => alloc t.outputSize) (fun ps F =>
    ps.length = l.length ∧ F = ↑(ps.zip (l.map (·.outputSize))))
  | [] => by rw [List.mapM_nil]; exact own_pure ⟨rfl, rfl⟩
  | t :: l => by
    rw [List.mapM_cons]
    refine own_bind (own_alloc _) ?_
    rintro p F rfl
    refine own_step {(p, t.outputSize)} (own_outputs l) (zero_add _).symm ?_
    rintro ps G ⟨hl, rfl⟩
    refine own_pure ⟨by simp [hl], ?_⟩
    rw [List.map_cons, List.zip_cons_cons, add_comm, Multiset.singleton_add]
    rfl

theorem own_destroyErrors (sz : BuildSizes) : ∀ l : List (Tracks E × Option Nat), (∀ x ∈ l, x.2 = none) →
    Own 0 (destroyClipErrors sz l) (fun _ F => F = 0)
  | [], _ => own_pure rfl
  | t :: l, h => by
    unfold destroyClipErrors
    refine own_bind (Q := fun _ F => F = 0) ?_ ?_
    · unfold destroyClipError
      rw [h t (by simp)]
      split
      · exact own_pure rfl
      · exact own_pure rfl
    · rintro _ F rfl
      exact own_destroyErrors sz l fun x hx => h x (by simp [hx])

/-- Building the tiers, from what there is to read. -/
theorem own_buildTiers (sz : BuildSizes) (wl wm : Nat) (l : List (Tracks E)) :
    Own 0 (buildTiers sz wl wm l) (fun r F => match Tiers.assignTiers (l.map readable) wl wm with
      | none => r = .nullRead
      | some _ => ∃ ps db L, r = .done ps db ∧ ps.length = l.length ∧
          F = ↑(ps.zip (l.map (·.outputSize))) + ({(db, sz.database)} + L) ∧ L.card = (l.map leaves).sum) := by
  unfold buildTiers
  dsimp only
  generalize Tiers.numLow _ wl = low
  generalize Tiers.numMedium _ wl wm = medium
  generalize Tiers.numFrames _ - medium - low = high
  refine own_bind (own_alloc _) ?_
  rintro errors F rfl
  refine own_step {(errors, sz.clipError * l.length)} (own_setup sz l) (zero_add _).symm ?_
  rintro kept L ⟨rfl, hL⟩
  refine own_step _ (own_alloc _) (zero_add _).symm ?_
  rintro hp F rfl
  refine own_step _ (own_alloc _) (zero_add _).symm ?_
  rintro mp F rfl
  refine own_step _ (own_alloc _) (zero_add _).symm ?_
  rintro lp F rfl
  rw [show (l.map (fun t => ((none : Option Nat), readable t))).map (·.2) = l.map readable by rw [List.map_map]; rfl]
  cases Tiers.assignTiers (l.map readable) wl wm with
  | none => exact own_pure rfl
  | some r =>
    dsimp only
    refine own_step _ (own_outputs l) (zero_add _).symm ?_
    rintro ps F ⟨hlen, rfl⟩
    refine own_step _ (own_alloc _) (zero_add _).symm ?_
    rintro db F rfl
    refine own_step ({(db, sz.database)} + (↑(ps.zip (l.map (·.outputSize))) + ({(lp, sz.frame * low)} + ({(mp, sz.frame * medium)} +
      (L + {(errors, sz.clipError * l.length)}))))) (own_free hp _) (by abel) ?_
    rintro _ F rfl
    refine own_step ({(db, sz.database)} + (↑(ps.zip (l.map (·.outputSize))) + ({(lp, sz.frame * low)} +
      (L + {(errors, sz.clipError * l.length)})))) (own_free mp _) (by abel) ?_
    rintro _ F rfl
    refine own_step ({(db, sz.database)} + (↑(ps.zip (l.map (·.outputSize))) + (L + {(errors, sz.clipError * l.length)})))
      (own_free lp _) (by abel) ?_
    rintro _ F rfl
    refine own_step ({(db, sz.database)} + (↑(ps.zip (l.map (·.outputSize))) + (L + {(errors, sz.clipError * l.length)})))
      (own_destroyErrors sz _ ?_) rfl ?_
    · intro x hx
      have := (List.of_mem_zip hx).2
      simp only [List.map_map, List.mem_map, Function.comp_apply] at this
      obtain ⟨_, _, e⟩ := this
      exact e.symm
    rintro _ F rfl
    refine own_step ({(db, sz.database)} + (↑(ps.zip (l.map (·.outputSize))) + L)) (own_free errors _) (by abel) ?_
    rintro _ F rfl
    exact own_pure ⟨ps, db, L, rfl, hlen, by abel, hL⟩

/-- Input is refused exactly when it is not as it has to be, what the error says is the case, and refusing costs nothing. -/
theorem C83_refused (sz : BuildSizes) (s : Settings.Database) (wl wm : Nat) (list : List (Option (Tracks E))) (h : Heap) (ok : h.Ok) :
    ((∃ e, (buildDatabase sz s wl wm list h).1 = .refused e) ↔ ¬ Accepted s list) ∧
      ∀ e, (buildDatabase sz s wl wm list h).1 = .refused e → TrueOf s list e ∧ (buildDatabase sz s wl wm list h).2 = h := by
  rcases build_cases sz s wl wm list with ⟨ha, he⟩ | ⟨ha, e, ht, he⟩
  · have : ∀ e, (buildDatabase sz s wl wm list h).1 ≠ .refused e := by
      intro e hc
      rw [he] at hc
      obtain ⟨F, hF, -⟩ := own_buildTiers sz wl wm (list.filterMap id) h h.live ok (zero_add _).symm
      cases ht : Tiers.assignTiers ((list.filterMap id).map readable) wl wm with
      | none =>
        rw [ht] at hF
        simp only at hF
        rw [hF] at hc; cases hc
      | some r =>
        rw [ht] at hF
        simp only at hF
        obtain ⟨ps, db, L, h1, -⟩ := hF
        rw [h1] at hc; cases hc
    exact ⟨⟨fun ⟨e, hc⟩ => absurd hc (this e), fun hn => absurd ha hn⟩, fun e hc => absurd hc (this e)⟩
  · rw [he]
    refine ⟨⟨fun _ => ha, fun _ => ⟨e, rfl⟩⟩, fun e' hc => ?_⟩
    cases hc
    exact ⟨ht, rfl⟩

/-- When every clip is of the current version and as compression produces it, a database is built: there is a new clip for each clip and a
database, everything else is given back with the size it was asked for, and the blocks of the caller are left. -/
theorem C83_current (sz : BuildSizes) (s : Settings.Database) (wl wm : Nat) (tracks : List (Tracks E)) (h : Heap) (ok : h.Ok)
    (ha : Accepted s (tracks.map some)) (hv : ∀ t ∈ tracks, ¬ Older t) {metrics : Nat → List (SegmentMetric E)} {sizes : Nat → List Nat}
    (hok : Tiers.ClipsOk (tracks.map (·.clip)) metrics sizes) :
    ∃ ps db, (buildDatabase sz s wl wm (tracks.map some) h).1 = .done ps db ∧ ps.length = tracks.length ∧
      (buildDatabase sz s wl wm (tracks.map some) h).2.live = ↑(ps.zip (tracks.map (·.outputSize))) + ((db, sz.database) ::ₘ h.live) ∧
      (buildDatabase sz s wl wm (tracks.map some) h).2.wrong = h.wrong := by
  rcases build_cases sz s wl wm (tracks.map some) with ⟨-, he⟩ | ⟨hn, -⟩
  · have hlist : (tracks.map some).filterMap id = tracks := by rw [List.filterMap_map]; simp
    rw [hlist] at he
    have hread : tracks.map readable = tracks.map (·.clip) := by
      refine List.map_congr_left fun t ht => ?_
      have := hv t ht
      unfold Older at this
      unfold readable
      rw [if_pos (by omega)]
    have hleaves : (tracks.map leaves).sum = 0 := by
      rw [List.sum_eq_zero]
      intro x hx
      obtain ⟨t, ht, rfl⟩ := List.mem_map.mp hx
      have := hv t ht
      unfold Older at this
      unfold leaves
      rw [if_pos (by omega)]
    obtain ⟨F, hF, hl, hw, -⟩ := own_buildTiers sz wl wm tracks h h.live ok (zero_add _).symm
    obtain ⟨low, medium, high, e, -⟩ := C22.C22_tiers hok wl wm
    rw [hread, e] at hF
    obtain ⟨ps, db, L, h1, h2, h3, h4⟩ := hF
    rw [hleaves, Multiset.card_eq_zero] at h4
    rw [he]
    refine ⟨ps, db, h1, h2, ?_, hw⟩
    rw [hl, h3, h4, add_zero, add_assoc, Multiset.singleton_add]
  · exact absurd ha hn

/-- Finding: a clip of an older version that is accepted and has a sample is read through a null pointer, whatever the settings and the
other clips: the array made for it is not kept (compress.database.impl.h:119-158). -/
theorem C83_older_null_read (sz : BuildSizes) (s : Settings.Database) (wl wm : Nat) (list : List (Option (Tracks E))) (h : Heap) (ok : h.Ok)
    (ha : Accepted s list) (t : Tracks E) (ht : some t ∈ list) (hv : Older t) (hs : 0 < t.clip.numSamples) :
    (buildDatabase sz s wl wm list h).1 = .nullRead := by
  rcases build_cases sz s wl wm list with ⟨-, he⟩ | ⟨hn, -⟩
  · obtain ⟨F, hF, -⟩ := own_buildTiers sz wl wm (list.filterMap id) h h.live ok (zero_add _).symm
    have hmem : t ∈ list.filterMap id := by simp [ht]
    have hnone : Tiers.assignTiers ((list.filterMap id).map readable) wl wm = none := by
      refine assignTiers_null (List.mem_map.mpr ⟨t, hmem, rfl⟩) ?_ ?_ wl wm
      · unfold readable
        unfold Older at hv
        rw [if_neg (by omega)]
      · unfold readable
        split <;> exact hs
    rw [hnone] at hF
    rw [he]
    exact hF
  · exact absurd ha hn

/-- Finding: when there is a result, the array of every clip of an older version is leaked. -/
theorem C83_older_leak (sz : BuildSizes) (s : Settings.Database) (wl wm : Nat) (tracks : List (Tracks E)) (h : Heap) (ok : h.Ok)
    (ps : List Nat) (db : Nat) (hd : (buildDatabase sz s wl wm (tracks.map some) h).1 = .done ps db) :
    ∃ L : Blocks, L.card = (tracks.filter (fun t => decide (t.version < 10))).length ∧
      (buildDatabase sz s wl wm (tracks.map some) h).2.live = ↑(ps.zip (tracks.map (·.outputSize))) + ((db, sz.database) ::ₘ (L + h.live)) := by
  rcases build_cases sz s wl wm (tracks.map some) with ⟨-, he⟩ | ⟨-, e, -, he⟩
  · have hlist : (tracks.map some).filterMap id = tracks := by rw [List.filterMap_map]; simp
    rw [hlist] at he
    obtain ⟨F, hF, hl, hw, -⟩ := own_buildTiers sz wl wm tracks h h.live ok (zero_add _).symm
    rw [he] at hd ⊢
    cases hq : Tiers.assignTiers (tracks.map readable) wl wm with
    | none => rw [hq] at hF; rw [hF] at hd; cases hd
    | some r =>
      rw [hq] at hF
      obtain ⟨ps', db', L, h1, h2, h3, h4⟩ := hF
      rw [hd] at h1
      cases h1
      refine ⟨L, ?_, ?_⟩
      · rw [h4]
        clear * -
        induction tracks with
        | nil => rfl
        | cons t l ih =>
          rw [List.map_cons, List.sum_cons, ih, List.filter_cons]
          unfold leaves
          by_cases hv : 10 ≤ t.version
          · rw [if_pos hv, if_neg (by simp; omega), zero_add]
          · rw [if_neg hv, if_pos (by simp; omega), List.length_cons, add_comm]
      · rw [hl, h3, add_assoc, add_assoc, Multiset.singleton_add]
  · rw [he] at hd
    cases hd

def exTracks (v : Nat) (c : Tiers.Clip C43.Err) : Tracks C43.Err := ⟨true, false, false, true, true, v, c, [], 100 + v⟩

def exSettings : Settings.Database := ⟨0x3F000000#32, 0x3F000000#32, 4096⟩

/-- Two clips of the current version give two clips and a database and no other block is left; were the second of an older version its
frames would be read through a null pointer; an entry that is bound to a database is refused. -/
theorem C83_example :
    let run (l : List (Option (Tracks C43.Err))) := buildDatabase ⟨24, 16, 40, 5000⟩ exSettings 3 2 l ⟨7, {(2, 9)}, 0⟩
    let a := C22.exClips.map fun c => some (exTracks 10 c)
    let b := C22.exClips.map fun c => some (exTracks (if c.numSegments = 1 then 9 else 10) c)
    (run a).1 = .done [11, 12] 13 ∧ (run a).2.live = {(11, 110), (12, 110), (13, 5000), (2, 9)} ∧ (run a).2.wrong = 0 ∧
      (run b).1 = .nullRead ∧ (run (a ++ [none])).1 = .refused .nullEntry ∧
      (run (a.map (Option.map fun t => { t with bound := true }))).1 = .refused .bound ∧ exSettings.isValid = none := by
  decide +kernel

end Acl.C83
