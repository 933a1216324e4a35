import Verif.Props.C52
/-!
C53: the clips build_database gives back answer every accessor as the clips it was given.
Specification vocabulary: `Rewrite.SameApi` (Database/RewriteApi.lean), `SameAccessors`, `Placement` (Database/BuildSpec.lean).
The accessors themselves are modelled in Layout/Metadata.lean and Layout/Accessors.lean (C29, C51: what they return for a compressed clip).
-/
namespace Acl.C53
open Acl.Headers Acl.Tiers Acl.Chunks Acl.Runtime Acl.Rewrite Acl.Transform Acl.Meta Acl.C43 Acl.C21 Acl.C22 Acl.C23 Acl.DbBuffer Acl.Seek.Spec Acl.DbBuild

variable {E : Type} [LinearOrder E] [OrderTop E] [Zero E]

/-- **C53.** For all clips build_database takes and all its settings: each clip it gives back has the version, the numbers of tracks
and samples, the track type, the sample rate, the default values, the looping policy, the durations, the name, the names of the
tracks, their parents and descriptions of the clip it was made of. It says that it has a database, it has no contributing error, and
it says it has stripped key frames exactly when a key frame of it went to the database. -/
theorem C53_accessors (value : BitVec 32 → E) (sort : List (Frame E) → List (Frame E)) (hsort : ∀ l, SortedFrames l (sort l))
    (metrics : Nat → List (SegmentMetric E)) (xs : List Input) (hne : xs ≠ []) (hx : ∀ (k : Nat) x, xs[k]? = some x → InputOk value (metrics k) x)
    (max wantLow wantMedium : Nat) (hfit : Fits xs max) (hmod : max % 4096 = 0) (hheaders : headersSize xs < 2 ^ 32) :
    ∃ outs content, buildContent value sort wantLow wantMedium max (xs.map (·.m)) = some (outs, content) ∧ outs.length = xs.length ∧
      ((∀ m' ∈ outs, m'.length < 2 ^ 32) → databaseSize content < 2 ^ 32 →
        ∃ db place, buildDatabase value sort wantLow wantMedium max (xs.map (·.m)) = some (some (outs, db)) ∧
          Placement xs wantLow wantMedium db place ∧ SameAccessors xs outs place) := by
  obtain ⟨outs, content, h1, h2, h3⟩ := C52.C52_round_trip value sort hsort metrics xs hne hx max wantLow wantMedium hfit hmod hheaders
  refine ⟨outs, content, h1, h2, fun a b => ?_⟩
  obtain ⟨db, place, g1, -, -, g2, g3, -⟩ := h3 a b
  exact ⟨db, place, g1, g2, g3⟩

/-- A clip says it has stripped key frames only if frames were asked for: with proportions of zero none has. -/
theorem C53_nothing_moved {xs : List Input} {outs : List (List (BitVec 8))} {db : List (BitVec 8)} {place : Place}
    (hp : Placement xs 0 0 db place) (ha : SameAccessors xs outs place) (k : Nat) (x : Input) (m' : List (BitVec 8))
    (hx : xs[k]? = some x) (hm : outs[k]? = some m') : hasStrippedKeyframes m' = some false := by
  obtain ⟨st, h1, h2⟩ := ha k x m' hx hm
  rw [h1.strippedKeyframes]
  cases hst : st with
  | false => rfl
  | true =>
    exfalso
    obtain ⟨n, hn, hpl⟩ := h2.1 hst
    obtain ⟨⟨t, i⟩, hp2⟩ := Option.ne_none_iff_exists'.1 hpl
    obtain ⟨ht, -⟩ := hp.chunk k n t i hp2
    have hzero : movedTo xs place t = 0 := by
      have h1 := hp.low
      have h0 := hp.medium
      rw [Nat.min_zero] at h1 h0
      rcases (show t = 0 ∨ t = 1 by omega) with rfl | rfl
      · exact h0
      · exact h1
    unfold movedTo at hzero
    rw [List.sum_eq_zero_iff] at hzero
    have hlt : k < xs.length := (List.getElem?_eq_some_iff.1 hx).1
    have hk := hzero _ (List.mem_map.2 ⟨k, List.mem_range.2 hlt, rfl⟩)
    rw [hx] at hk
    have hmem : n ∈ (List.range ((Option.map Input.sizes (some x)).getD []).sum).filter fun n => ((place k n).map (·.1)) == some t := by
      refine List.mem_filter.2 ⟨List.mem_range.2 hn, ?_⟩
      rw [hp2]
      simp
    rw [List.length_eq_zero_iff] at hk
    rw [hk] at hmem
    simp at hmem

/-! ### Example: the clips of C52 (their hypotheses are met there) -/
section Example
open C52

/-- Names, parents and flags before and after. -/
example : ((buildDatabase exValue exSort 1 1 4096 [exInput.m, exInput.m]).bind fun r => r.bind fun (outs, _) => (outs[0]?).bind fun m' =>
    (getTrackName m' 0).bind fun n' => (getTrackName exInput.m 0).bind fun n =>
    (getParent m' 1).bind fun p' => (getParent exInput.m 1).bind fun p =>
    (hasDatabase exInput.m).bind fun d => (hasDatabase m').bind fun d' => (hasStrippedKeyframes exInput.m).bind fun st => (hasStrippedKeyframes m').map fun st' =>
    [n == n', n != .str [], p == p', d, d', st, st']) = some [true, true, true, false, true, false, true] := by
  decide +kernel

end Example

end Acl.C53
