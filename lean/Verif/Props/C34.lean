import Verif.Scalar.Reader
import Mathlib.Tactic.Common
/-!
C34: for scalar track lists, decompressing the whole list is decompressing every track alone.
-/
namespace Acl.C34
open Acl.Scalar

/-- What `decompress_track` does once the scan is done. -/
def single (ctx : Ctx) (w : Writer) (track : Nat) (s : Scan) : Option (List Event) :=
  let clip := ctx.clip
  let c := numSampleElements clip.trackType
  let policy := w.policyOf ctx.rounding track
  let alpha := if w.perTrackRounding then applyRounding policy else .seek
  if w.perTrackRounding && policy == .perTrack then none else
  (numBitsOf clip track).bind fun n =>
  if w.supported clip.trackType then
    if n = 0 then
      (loadFloats c clip.bytes s.constant).bind fun v => some [⟨clip.trackType, track, .constant v⟩]
    else
      (readSample c clip n s.range (u32 (ctx.bitOffset0 + s.bit))).bind fun a =>
      (readSample c clip n s.range (u32 (ctx.bitOffset1 + s.bit))).bind fun b =>
      some [⟨clip.trackType, track, .lerp a b alpha⟩]
  else some []

/-- The cursor of the pose loop that corresponds to the scan. -/
def cursorOf (ctx : Ctx) (s : Scan) : Cursor :=
  ⟨s.constant, s.range, u32 (ctx.bitOffset0 + s.bit), u32 (ctx.bitOffset1 + s.bit)⟩

/-- One step of the scan. -/
def scanStep (c n : Nat) (s : Scan) : Scan where
  constant := if n = 0 then s.constant + 4 * c else s.constant
  range := if n = 0 then s.range else if n < 32 then s.range + 4 * (c * 2) else s.range
  bit := u32 (s.bit + u32 (n * c))

theorem scanLoop_succ (clip : Clip) (left track : Nat) (s : Scan) :
    scanLoop clip (left + 1) track s =
      (numBitsOf clip track).bind fun n => scanLoop clip left (track + 1) (scanStep (numSampleElements clip.trackType) n s) := by
  rw [scanLoop]
  cases numBitsOf clip track with
  | none => rfl
  | some n =>
    rw [Option.bind_some, Option.bind_some]
    unfold scanStep
    by_cases h0 : n = 0
    · rw [if_pos h0, if_pos h0, if_pos h0]
    · rw [if_neg h0, if_neg h0, if_neg h0]
      by_cases h1 : n < 32
      · rw [if_pos h1, if_pos h1]
      · rw [if_neg h1, if_neg h1]

theorem table_le (v : Bool) : ∀ n ∈ scalarBitRateTable v, n ≤ 32 := by
  cases v <;> decide

theorem numBits_le {clip : Clip} {track n : Nat} (h : numBitsOf clip track = some n) : n ≤ 32 := by
  unfold numBitsOf at h
  cases hb : clip.bytes[clip.metadataOffset + track]? with
  | none => rw [hb] at h; cases h
  | some b =>
    rw [hb, Option.bind_some] at h
    split at h
    · exact table_le _ _ (List.mem_of_getElem? h)
    · cases h

theorem alpha_table (p : Policy) : alphaPerPolicy p = applyRounding p := by cases p <;> rfl

theorem u32_shift (b s x : Nat) : u32 (u32 (b + s) + x) = u32 (b + u32 (s + u32 x)) := by
  unfold u32; omega

/-- One iteration of the pose loop against the single track path. -/
theorem step_eq (ctx : Ctx) (w : Writer) (track : Nat) (s : Scan) :
    stepTrack ctx w track (cursorOf ctx s) =
      (single ctx w track s).bind fun es =>
        (numBitsOf ctx.clip track).bind fun n =>
        some (if w.skip track then [] else es,
          if w.supported ctx.clip.trackType then cursorOf ctx (scanStep (numSampleElements ctx.clip.trackType) n s) else cursorOf ctx s) := by
  unfold stepTrack single
  dsimp only
  cases hn : numBitsOf ctx.clip track with
  | none =>
    rw [Option.bind_none, Option.bind_none]
    split <;> rfl
  | some n =>
    have hle := numBits_le hn
    rw [Option.bind_some, Option.bind_some, alpha_table]
    split
    · rfl
    split
    · by_cases h0 : n = 0
      · subst h0
        rw [if_pos rfl, if_pos rfl]
        show ((loadFloats (numSampleElements ctx.clip.trackType) ctx.clip.bytes s.constant).bind _) = _
        cases loadFloats (numSampleElements ctx.clip.trackType) ctx.clip.bytes s.constant with
        | none => rfl
        | some v =>
          rw [Option.bind_some, Option.bind_some, Option.bind_some, Option.bind_some]
          congr 2
          unfold cursorOf scanStep
          rw [if_pos rfl, if_pos rfl]
          congr 1
          · simp only [u32, Nat.zero_mul]; omega
          · simp only [u32, Nat.zero_mul]; omega
      · rw [if_neg h0, if_neg h0]
        show ((readSample _ _ n s.range (u32 (ctx.bitOffset0 + s.bit))).bind fun a =>
          (readSample _ _ n s.range (u32 (ctx.bitOffset1 + s.bit))).bind _) = _
        cases readSample (numSampleElements ctx.clip.trackType) ctx.clip n s.range (u32 (ctx.bitOffset0 + s.bit)) with
        | none => rfl
        | some a =>
          rw [Option.bind_some, Option.bind_some]
          cases readSample (numSampleElements ctx.clip.trackType) ctx.clip n s.range (u32 (ctx.bitOffset1 + s.bit)) with
          | none => rfl
          | some b =>
            rw [Option.bind_some, Option.bind_some, Option.bind_some, Option.bind_some]
            congr 2
            unfold cursorOf scanStep
            rw [if_neg h0, if_neg h0]
            congr 1
            · by_cases h1 : n = 32
              · rw [if_pos h1, if_neg (by omega)]
              · rw [if_neg h1, if_pos (by omega)]
                show s.range + 2 * (4 * numSampleElements ctx.clip.trackType) = s.range + 4 * (numSampleElements ctx.clip.trackType * 2)
                omega
            · exact u32_shift _ _ _
            · exact u32_shift _ _ _
    · simp

theorem single_unsupported (ctx : Ctx) (w : Writer) (track : Nat) (s s' : Scan)
    (h : w.supported ctx.clip.trackType = false) : single ctx w track s = single ctx w track s' := by
  unfold single
  simp only [h]
  rfl

/-- The pose loop is the concatenation of the single tracks. -/
theorem loop_iff (ctx : Ctx) (w : Writer) (left : Nat) : ∀ (track : Nat) (s sc : Scan) (es : List Event),
    (w.supported ctx.clip.trackType = true → sc = s) →
    (tracksLoop ctx w left track (cursorOf ctx sc) = some es ↔
      ∃ f : Nat → List Event, (∀ j, j < left → ((scanLoop ctx.clip j track s).bind fun s' => single ctx w (track + j) s') = some (f j)) ∧
        es = (List.range left).flatMap fun j => if w.skip (track + j) then [] else f j) := by
  induction left with
  | zero =>
    intro track s sc es _
    rw [tracksLoop]
    constructor
    · rintro h
      exact ⟨fun _ => [], fun j hj => absurd hj (by omega), (Option.some.inj h).symm⟩
    · rintro ⟨f, _, rfl⟩; rfl
  | succ left ih =>
    intro track s sc es hsc
    rw [tracksLoop, step_eq]
    have hsingle : single ctx w track sc = single ctx w track s := by
      cases hsup : w.supported ctx.clip.trackType with
      | true => rw [hsc hsup]
      | false => exact single_unsupported ctx w track sc s hsup
    rw [hsingle]
    have cur : ∀ n, ∃ sc', (if w.supported ctx.clip.trackType then cursorOf ctx (scanStep (numSampleElements ctx.clip.trackType) n sc) else cursorOf ctx sc) = cursorOf ctx sc' ∧
        (w.supported ctx.clip.trackType = true → sc' = scanStep (numSampleElements ctx.clip.trackType) n s) := by
      intro n
      cases hsup : w.supported ctx.clip.trackType with
      | true => exact ⟨_, if_pos rfl, fun _ => by rw [hsc hsup]⟩
      | false => exact ⟨sc, if_neg (by decide), nofun⟩
    constructor
    · intro h
      cases hs : single ctx w track s with
      | none => rw [hs] at h; cases h
      | some e =>
        rw [hs, Option.bind_some] at h
        cases hn : numBitsOf ctx.clip track with
        | none => rw [hn] at h; cases h
        | some n =>
          rw [hn, Option.bind_some, Option.bind_some] at h
          obtain ⟨sc', e1, e2⟩ := cur n
          dsimp only at h
          rw [e1] at h
          cases hl : tracksLoop ctx w left (track + 1) (cursorOf ctx sc') with
          | none => rw [hl] at h; cases h
          | some rest =>
            rw [hl, Option.bind_some] at h
            obtain ⟨f, hf, hr⟩ := (ih (track + 1) (scanStep (numSampleElements ctx.clip.trackType) n s) sc' rest e2).1 hl
            refine ⟨fun j => match j with | 0 => e | j + 1 => f j, ?_, ?_⟩
            · intro j hj
              cases j with
              | zero => rw [scanLoop, Option.bind_some]; exact hs
              | succ j =>
                rw [scanLoop_succ, hn, Option.bind_some]
                have := hf j (by omega)
                rwa [show track + 1 + j = track + (j + 1) by omega] at this
            · rw [List.range_succ_eq_map, List.flatMap_cons, ← Option.some.inj h, hr, List.flatMap_map]
              show _ ++ _ = _ ++ _
              congr 1
              have hidx : ∀ j, track + 1 + j = track + (j + 1) := fun j => by omega
              simp only [hidx]
    · rintro ⟨f, hf, hes⟩
      have h0 := hf 0 (by omega)
      rw [scanLoop, Option.bind_some] at h0
      rw [Nat.add_zero] at h0
      rw [h0, Option.bind_some]
      have hn : ∃ n, numBitsOf ctx.clip track = some n := by
        unfold single at h0
        dsimp only at h0
        split at h0
        · cases h0
        · cases hn : numBitsOf ctx.clip track with
          | none => rw [hn] at h0; cases h0
          | some n => exact ⟨n, rfl⟩
      obtain ⟨n, hn⟩ := hn
      rw [hn, Option.bind_some, Option.bind_some]
      obtain ⟨sc', e1, e2⟩ := cur n
      dsimp only
      rw [e1]
      have := (ih (track + 1) (scanStep (numSampleElements ctx.clip.trackType) n s) sc'
        ((List.range left).flatMap fun j => if w.skip (track + 1 + j) then [] else f (j + 1)) e2).2 ⟨fun j => f (j + 1), ?_, rfl⟩
      · rw [this, Option.bind_some, hes, List.range_succ_eq_map, List.flatMap_cons, List.flatMap_map]
        show some (_ ++ _) = some (_ ++ _)
        congr 2
        have hidx : ∀ j, track + 1 + j = track + (j + 1) := fun j => by omega
        simp only [hidx]
      · intro j hj
        have := hf (j + 1) (by omega)
        rw [scanLoop_succ, hn, Option.bind_some] at this
        rwa [show track + 1 + j = track + (j + 1) by omega]

theorem decompressTrack_eq (ctx : Ctx) (w : Writer) (track : Nat) (hs : ctx.seeked = true) (ht : track < ctx.clip.numTracks) :
    decompressTrack ctx w track =
      (scanLoop ctx.clip track 0 ⟨ctx.clip.constantOffset, ctx.clip.rangeOffset, 0⟩).bind fun s => single ctx w track s := by
  unfold decompressTrack single
  dsimp only
  rw [if_neg (by omega), hs, if_neg (by decide), if_neg (by omega)]
  split
  · cases scanLoop ctx.clip track 0 ⟨ctx.clip.constantOffset, ctx.clip.rangeOffset, 0⟩ <;> rfl
  · rfl

/-- **C34.** Whatever the buffer and the writer, decompressing all the tracks succeeds exactly when every track can
be decompressed alone, and then hands to the writer, in track order, for every track that is not skipped, exactly
what decompressing that track alone hands to it. -/
theorem C34_pose_is_tracks (ctx : Ctx) (w : Writer) (es : List Event) (hs : ctx.seeked = true)
    (h0 : ctx.bitOffset0 < 2 ^ 32) (h1 : ctx.bitOffset1 < 2 ^ 32) :
    decompressTracks ctx w = some es ↔
      ∃ f : Nat → List Event, (∀ i, i < ctx.clip.numTracks → decompressTrack ctx w i = some (f i)) ∧
        es = (List.range ctx.clip.numTracks).flatMap fun i => if w.skip i then [] else f i := by
  have key := loop_iff ctx w ctx.clip.numTracks 0 ⟨ctx.clip.constantOffset, ctx.clip.rangeOffset, 0⟩
    ⟨ctx.clip.constantOffset, ctx.clip.rangeOffset, 0⟩ es (fun _ => rfl)
  have hc : cursorOf ctx ⟨ctx.clip.constantOffset, ctx.clip.rangeOffset, 0⟩ =
      ⟨ctx.clip.constantOffset, ctx.clip.rangeOffset, ctx.bitOffset0, ctx.bitOffset1⟩ := by
    unfold cursorOf u32
    rw [Nat.add_zero, Nat.add_zero, Nat.mod_eq_of_lt h0, Nat.mod_eq_of_lt h1]
  rw [hc] at key
  unfold decompressTracks
  by_cases hz : ctx.clip.numTracks = 0
  · rw [if_pos hz, hz]
    constructor
    · intro h; exact ⟨fun _ => [], fun i hi => absurd hi (by omega), (Option.some.inj h).symm⟩
    · rintro ⟨f, _, rfl⟩; rfl
  · rw [if_neg hz, hs, if_pos rfl, key]
    constructor
    · rintro ⟨f, hf, he⟩
      refine ⟨f, fun i hi => ?_, ?_⟩
      · rw [decompressTrack_eq _ _ _ hs hi, ← hf i hi, Nat.zero_add]
      · simpa only [Nat.zero_add] using he
    · rintro ⟨f, hf, he⟩
      refine ⟨f, fun i hi => ?_, ?_⟩
      · rw [Nat.zero_add, ← decompressTrack_eq _ _ _ hs hi, hf i hi]
      · simpa only [Nat.zero_add] using he

/-- **C34.** Decompressing one track writes exactly one value, for that track, unless its type is not supported by
the settings, in which case nothing is written. -/
theorem C34_one_event (ctx : Ctx) (w : Writer) (i : Nat) (e : List Event) (hi : i < ctx.clip.numTracks)
    (h : decompressTrack ctx w i = some e) :
    if w.supported ctx.clip.trackType then ∃ v, e = [⟨ctx.clip.trackType, i, v⟩] else e = [] := by
  unfold decompressTrack at h
  dsimp only at h
  rw [if_neg (by omega)] at h
  cases hs : ctx.seeked with
  | false => rw [hs] at h; exact absurd h (by simp)
  | true =>
    rw [hs, if_neg (by decide), if_neg (by omega)] at h
    split at h
    · cases h
    · obtain ⟨s, _, h⟩ := Option.bind_eq_some_iff.1 h
      obtain ⟨n, _, h⟩ := Option.bind_eq_some_iff.1 h
      split at h
      · rename_i hsup
        rw [if_pos hsup]
        split at h
        · obtain ⟨v, _, h⟩ := Option.bind_eq_some_iff.1 h
          exact ⟨_, (Option.some.inj h).symm⟩
        · obtain ⟨a, _, h⟩ := Option.bind_eq_some_iff.1 h
          obtain ⟨b, _, h⟩ := Option.bind_eq_some_iff.1 h
          exact ⟨_, (Option.some.inj h).symm⟩
      · rename_i hsup
        rw [if_neg hsup]
        exact (Option.some.inj h).symm

/-- **C34.** In the whole pose, the values handed over for track `i` are those of decompressing `i` alone (none
when the writer skips it). -/
theorem C34_track_of_pose (ctx : Ctx) (w : Writer) (es : List Event) (hs : ctx.seeked = true)
    (h0 : ctx.bitOffset0 < 2 ^ 32) (h1 : ctx.bitOffset1 < 2 ^ 32) (h : decompressTracks ctx w = some es)
    (i : Nat) (hi : i < ctx.clip.numTracks) :
    ∃ e, decompressTrack ctx w i = some e ∧ es.filter (fun x => x.track == i) = if w.skip i then [] else e := by
  obtain ⟨f, hf, he⟩ := (C34_pose_is_tracks ctx w es hs h0 h1).1 h
  refine ⟨f i, hf i hi, ?_⟩
  have own : ∀ j, j < ctx.clip.numTracks → ∀ x ∈ f j, x.track = j := by
    intro j hj x hx
    have := C34_one_event ctx w j (f j) hj (hf j hj)
    split at this
    · obtain ⟨v, e⟩ := this
      rw [e, List.mem_singleton] at hx
      rw [hx]
    · rw [this] at hx; cases hx
  subst he
  have gen : ∀ n, n ≤ ctx.clip.numTracks →
      ((List.range n).flatMap fun j => if w.skip j then [] else f j).filter (fun x => x.track == i) =
        if i < n then (if w.skip i then [] else f i) else [] := by
    intro n hn
    induction n with
    | zero => rfl
    | succ n ih =>
      rw [List.range_succ, List.flatMap_append, List.filter_append, ih (by omega)]
      have last : (List.flatMap (fun j => if w.skip j then [] else f j) [n]).filter (fun x => x.track == i) =
          if i = n then (if w.skip i then [] else f i) else [] := by
        rw [List.flatMap_singleton]
        by_cases hin : i = n
        · subst hin
          rw [if_pos rfl]
          split
          · rfl
          · exact List.filter_eq_self.2 fun x hx => by rw [own i hi x hx]; exact beq_self_eq_true _
        · rw [if_neg hin]
          split
          · rfl
          · exact List.filter_eq_nil_iff.2 fun x hx => by
              rw [own n (by omega) x hx]; simp; omega
      rw [last]
      by_cases h2 : i < n
      · have h3 : ¬ i = n := by omega
        have h4 : i < n + 1 := by omega
        rw [if_pos h2, if_neg h3, if_pos h4, List.append_nil]
      · rw [if_neg h2, List.nil_append]
        by_cases h3 : i = n
        · have h4 : i < n + 1 := by omega
          rw [if_pos h3, if_pos h4]
        · have h4 : ¬ i < n + 1 := by omega
          rw [if_neg h3, if_neg h4]
  rw [gen _ (Nat.le_refl _), if_pos hi]

end Acl.C34
