import Verif.Transform.AnimatedWriter
import Verif.Transform.ConstantCacheLemmas
import Verif.Core.PackingLemmas
import Mathlib.Tactic.Common
/-
What the writers of the animated data write, position by position.
-/
namespace Acl.Transform

/-- The loop over the groups keeps an invariant `P done pend`: `done` are the entries flushed, `pend` those of the current
group; `T` is the whole list of entries. -/
theorem groupLoop_spec {α σ : Type} (filter : α → Bool) (entry : Nat → α → σ → Option σ) (flush : Nat → σ → Option σ)
    (T : List α) (P : List α → List α → σ → Prop)
    (hentry : ∀ done pend b s, pend.length < 4 → done.length % 4 = 0 → (done ++ pend ++ [b]) <+: T → P done pend s →
      ∃ s', entry pend.length b s = some s' ∧ P done (pend ++ [b]) s')
    (hflush : ∀ done pend s, 0 < pend.length → pend.length ≤ 4 → done.length % 4 = 0 → (done ++ pend) <+: T → P done pend s →
      ∃ s', flush pend.length s = some s' ∧ P (done ++ pend) [] s') :
    ∀ (l : List α) (done pend : List α) (s : σ), pend.length < 4 → done.length % 4 = 0 →
      done ++ pend ++ l.filter filter = T → P done pend s →
      ∃ s', groupLoop filter entry flush l pend.length s = some s' ∧ P T [] s' := by
  intro l
  induction l with
  | nil =>
    intro done pend s hp hd hT hP
    rw [List.filter_nil, List.append_nil] at hT
    rw [groupLoop]
    cases pend with
    | nil =>
      rw [List.append_nil] at hT
      subst hT
      exact ⟨s, rfl, hP⟩
    | cons a pend =>
      rw [if_pos (by simp)]
      obtain ⟨s', h1, h2⟩ := hflush done (a :: pend) s (by simp) (by omega) hd (by rw [hT]; exact List.prefix_rfl) hP
      rw [hT] at h2
      exact ⟨s', h1, h2⟩
  | cons b l ih =>
    intro done pend s hp hd hT hP
    rw [groupLoop]
    cases hf : filter b with
    | false =>
      rw [List.filter_cons_of_neg (by rw [hf]; decide)] at hT
      rw [if_neg (by decide), Option.bind_some]
      dsimp only
      rw [if_neg (by omega), Option.bind_some]
      exact ih done pend s hp hd hT hP
    | true =>
      rw [List.filter_cons_of_pos hf] at hT
      have hT' : done ++ (pend ++ [b]) ++ l.filter filter = T := by rw [← hT]; simp
      have hpre : (done ++ (pend ++ [b])) <+: T := ⟨_, hT'⟩
      obtain ⟨s1, h1, h2⟩ := hentry done pend b s hp hd (by rw [List.append_assoc]; exact hpre) hP
      rw [if_pos rfl, h1, Option.map_some, Option.bind_some]
      dsimp only
      have hl : (pend ++ [b]).length = pend.length + 1 := by simp
      by_cases h4 : pend.length + 1 = 4
      · obtain ⟨s2, h3, h5⟩ := hflush done (pend ++ [b]) s1 (by omega) (by omega) hd hpre h2
        rw [hl] at h3
        rw [if_pos h4, h3, Option.map_some, Option.bind_some]
        refine ih (done ++ (pend ++ [b])) [] s2 (by simp) ?_ (by rw [List.append_nil]; exact hT') h5
        rw [List.length_append, hl]; omega
      · rw [if_neg h4, Option.bind_some, ← hl]
        exact ih done (pend ++ [b]) s1 (by omega) hd hT' h2

/-- The entries of a kind. -/
def entries (bones : List Bone) (kind : Kind) : List Bone := bones.filter fun b => !(b.flags kind).isConstant

/-- The three loops one after the other; without scale the scales have no entries. -/
theorem groupWriter_spec {σ : Type} (hasScale : Bool) (bones : List Bone) (filter : Kind → Bone → Bool)
    (entry : Kind → Nat → Bone → σ → Option σ) (flush : Kind → Nat → σ → Option σ) (s : σ)
    (P : Kind → List Bone → List Bone → σ → Prop)
    (hentry : ∀ kind done pend b s, pend.length < 4 → done.length % 4 = 0 →
      (done ++ pend ++ [b]) <+: (entries bones kind).filter (filter kind) → P kind done pend s →
      ∃ s', entry kind pend.length b s = some s' ∧ P kind done (pend ++ [b]) s')
    (hflush : ∀ kind done pend s, 0 < pend.length → pend.length ≤ 4 → done.length % 4 = 0 →
      (done ++ pend) <+: (entries bones kind).filter (filter kind) → P kind done pend s →
      ∃ s', flush kind pend.length s = some s' ∧ P kind (done ++ pend) [] s')
    (hT : ∀ s, P .rotation ((entries bones .rotation).filter (filter .rotation)) [] s → P .translation [] [] s)
    (hS : ∀ s, P .translation ((entries bones .translation).filter (filter .translation)) [] s → P .scale [] [] s)
    (h0 : P .rotation [] [] s) (hscale : hasScale = false → entries bones .scale = []) :
    ∃ s', groupWriter hasScale bones filter entry flush s = some s' ∧
      P .scale ((entries bones .scale).filter (filter .scale)) [] s' := by
  have run : ∀ kind s, P kind [] [] s →
      ∃ s', groupLoop (fun b => !(b.flags kind).isConstant && filter kind b) (entry kind) (flush kind) bones 0 s = some s' ∧
        P kind ((entries bones kind).filter (filter kind)) [] s' := by
    intro kind s h
    refine groupLoop_spec _ _ _ _ (P kind) (hentry kind) (hflush kind) bones [] [] s (by decide) rfl ?_ h
    unfold entries
    rw [List.filter_filter]
    simp only [List.nil_append]
    congr 1
    funext b
    rw [Bool.and_comm]
  obtain ⟨s1, e1, p1⟩ := run .rotation s h0
  obtain ⟨s2, e2, p2⟩ := run .translation s1 (hT s1 p1)
  unfold groupWriter
  simp only []
  rw [e1, Option.bind_some, e2, Option.bind_some]
  cases hs : hasScale with
  | true => rw [if_pos rfl]; exact run .scale s2 (hS s2 p2)
  | false =>
    rw [if_neg (by decide), hscale hs, List.filter_nil]
    exact ⟨s2, rfl, hS s2 p2⟩

/-! ### Formats -/

/-- The number of entries of the rotations with their padding. -/
def padTo4 (n : Nat) : Nat := 4 * ((n + 3) / 4)

theorem formatByte_some {r : Nat} (h : r ≤ 24) : formatByte r = some (BitVec.ofNat 8 (if r = 24 then 31 else r)) := by
  have : ∀ r, r < 25 → formatByte r = some (BitVec.ofNat 8 (if r = 24 then 31 else r)) := by decide
  exact this r (by omega)

/-- The format byte of a bit rate. -/
def rateByte (r : Nat) : BitVec 8 := BitVec.ofNat 8 (if r = 24 then 31 else r)

/-- The format byte of a stream. -/
def Stream.byte (t : Stream) : BitVec 8 := match t.bitRate with | some r => rateByte r | none => 0

theorem store_group (A : List (BitVec 8)) (b : BitVec 8) (n : Nat) (h : A.length < n) :
    store (A ++ List.replicate (n - A.length) 0) A.length [b] = some (A ++ [b] ++ List.replicate (n - (A ++ [b]).length) 0) := by
  obtain ⟨k, hk⟩ : ∃ k, n - A.length = k + 1 := ⟨n - A.length - 1, by omega⟩
  rw [hk, show List.replicate (k + 1) (0 : BitVec 8) = [0#8] ++ List.replicate k 0 from rfl,
    store_append A [0#8] _ [b] _ rfl rfl]
  rw [List.length_append, List.length_singleton, show n - (A.length + 1) = k by omega, List.append_assoc]

/-- **Formats.** One byte per variable sub-track, the rotations padded to a multiple of 4 bytes. -/
theorem writeFormats_eq (hasScale : Bool) (bones : List Bone) (seg : Nat)
    (hscale : hasScale = false → entries bones .scale = [])
    (hr : ∀ kind, ∀ b ∈ entries bones kind, ∀ r, (b.stream seg kind).bitRate = some r → r ≤ 24) :
    let var (kind : Kind) : List Bone := (entries bones kind).filter fun b => (b.stream seg kind).bitRate.isSome
    writeFormats hasScale bones seg = some (
      (var .rotation).map (fun b => (b.stream seg .rotation).byte) ++
        List.replicate (padTo4 (var .rotation).length - (var .rotation).length) 0 ++
      (var .translation).map (fun b => (b.stream seg .translation).byte) ++
      (var .scale).map (fun b => (b.stream seg .scale).byte)) := by
  intro var
  have hvar : ∀ kind, var kind = (entries bones kind).filter fun b => (b.stream seg kind).bitRate.isSome := fun _ => rfl
  clear_value var
  let pre (kind : Kind) : List (BitVec 8) := match kind with
    | .rotation => []
    | .translation => (var .rotation).map (fun b => (b.stream seg .rotation).byte) ++
        List.replicate (padTo4 (var .rotation).length - (var .rotation).length) 0
    | .scale => (var .rotation).map (fun b => (b.stream seg .rotation).byte) ++
        List.replicate (padTo4 (var .rotation).length - (var .rotation).length) 0 ++
        (var .translation).map (fun b => (b.stream seg .translation).byte)
  let pad (kind : Kind) (n : Nat) : Nat := if kind = .rotation then padTo4 n - n else 0
  let P (kind : Kind) (done pend : List Bone) (s : List (BitVec 8) × List (BitVec 8)) : Prop :=
    s.1 = pre kind ++ done.map (fun b => (b.stream seg kind).byte) ++ List.replicate (pad kind done.length) 0 ∧
    s.2 = pend.map (fun b => (b.stream seg kind).byte) ++ List.replicate (4 - (pend.map (fun b => (b.stream seg kind).byte)).length) 0
  obtain ⟨s', e, p1, -⟩ := groupWriter_spec hasScale bones (fun kind b => (b.stream seg kind).bitRate.isSome)
    (fun kind g b (s : List (BitVec 8) × List (BitVec 8)) =>
      (b.stream seg kind).bitRate.bind fun r => (formatByte r).bind fun byte =>
      (store s.2 g [byte]).map fun group => (s.1, group))
    (fun kind g s =>
      let copySize := if kind = .rotation then 4 else g
      some (s.1 ++ s.2.take copySize, List.replicate 4 0))
    ([], List.replicate 4 0) P
    (by
      rintro kind done pend b ⟨s1, s2⟩ hp hd hpre ⟨h1, h2⟩
      have hb : b ∈ (entries bones kind).filter fun b => (b.stream seg kind).bitRate.isSome := hpre.subset (by simp)
      rw [List.mem_filter] at hb
      obtain ⟨r, hr'⟩ := Option.isSome_iff_exists.mp hb.2
      simp only at h1 h2 ⊢
      refine ⟨(s1, (pend ++ [b]).map (fun b => (b.stream seg kind).byte) ++
        List.replicate (4 - ((pend ++ [b]).map (fun b => (b.stream seg kind).byte)).length) 0), ?_, h1, rfl⟩
      rw [hr', Option.bind_some, formatByte_some (hr kind b hb.1 r hr'), Option.bind_some, h2]
      have e := store_group (pend.map (fun b => (b.stream seg kind).byte)) (rateByte r) 4 (by simpa using hp)
      rw [List.length_map] at e
      rw [List.length_map]
      unfold rateByte at e
      rw [e, Option.map_some]
      have hby : (b.stream seg kind).byte = BitVec.ofNat 8 (if r = 24 then 31 else r) := by
        unfold Stream.byte; rw [hr']; rfl
      simp only [List.map_append, List.map_cons, List.map_nil, hby])
    (by
      rintro kind done pend ⟨s1, s2⟩ h0 h4 hd hpre ⟨h1, h2⟩
      simp only at h1 h2
      refine ⟨_, rfl, ?_, by simp⟩
      have hpad : pad kind done.length = 0 := by simp only [pad, padTo4]; split <;> omega
      rw [hpad, List.replicate_zero, List.append_nil] at h1
      simp only [h1, h2]
      rw [List.map_append]
      simp only [List.append_assoc]
      congr 2
      rw [List.length_map]
      cases hk : decide (kind = .rotation) with
      | true =>
        have hk := of_decide_eq_true hk
        rw [if_pos hk, List.take_of_length_le (by simp; omega)]
        congr 2
        simp only [pad, if_pos hk, List.length_append]
        unfold padTo4
        omega
      | false =>
        have hk := of_decide_eq_false hk
        rw [if_neg hk, List.take_append_of_le_length (by simp), List.take_of_length_le (by simp)]
        simp only [pad, if_neg hk, List.replicate_zero, List.append_nil])
    (by
      rintro ⟨s1, s2⟩ ⟨h1, h2⟩
      refine ⟨?_, h2⟩
      simp only at h1 ⊢
      rw [h1]
      simp only [pre, pad, hvar, if_pos, List.nil_append, List.map_nil, List.append_nil, List.length_nil]
      rw [if_neg (by decide), List.replicate_zero, List.append_nil])
    (by
      rintro ⟨s1, s2⟩ ⟨h1, h2⟩
      refine ⟨?_, h2⟩
      simp only at h1 ⊢
      rw [h1]
      simp only [pre, pad, hvar, if_pos, List.nil_append, List.map_nil, List.append_nil, List.length_nil]
      rw [if_neg (by decide), List.replicate_zero, List.append_nil, if_neg (by decide), List.replicate_zero, List.append_nil])
    ⟨rfl, rfl⟩ hscale
  unfold writeFormats
  rw [e, Option.map_some, p1, hvar .scale]
  simp only [pad, pre]
  rw [if_neg (by decide), List.replicate_zero, List.append_nil]

/-! ### Groups of four -/

/-- A list cut in groups of four (the last one may be shorter), each group laid out by `G`. -/
def soa {α β : Type} (G : List α → List β) : List α → List β
  | a :: b :: c :: d :: rest => G [a, b, c, d] ++ soa G rest
  | [] => []
  | l => G l

theorem soa_short {α β : Type} (G : List α → List β) (l : List α) (h0 : 0 < l.length) (h4 : l.length ≤ 4) : soa G l = G l := by
  match l, h0, h4 with
  | [_], _, _ => rfl
  | [_, _], _, _ => rfl
  | [_, _, _], _, _ => rfl
  | [a, b, c, d], _, _ => rw [soa, soa, List.append_nil]

theorem soa_append {α β : Type} (G : List α → List β) : ∀ (done pend : List α), done.length % 4 = 0 → 0 < pend.length →
    pend.length ≤ 4 → soa G (done ++ pend) = soa G done ++ G pend
  | [], pend, _, h0, h4 => by rw [soa]; exact soa_short G pend h0 h4
  | [_], _, h, _, _ => absurd h (by simp)
  | [_, _], _, h, _, _ => absurd h (by simp)
  | [_, _, _], _, h, _, _ => absurd h (by simp)
  | a :: b :: c :: d :: done, pend, h, h0, h4 => by
    simp only [List.cons_append, soa]
    rw [soa_append G done pend (by simp only [List.length_cons] at h; omega) h0 h4, List.append_assoc]

/-- The group of element `k`. -/
theorem soa_split {α β : Type} (G : List α → List β) (w : Nat) (hw : ∀ g, g.length = 4 → (G g).length = w) :
    ∀ (l : List α) (k : Nat), k < l.length →
      ∃ A C g, soa G l = A ++ (G g ++ C) ∧ A.length = w * (k / 4) ∧ g.length = min (l.length - 4 * (k / 4)) 4 ∧ g[k % 4]? = l[k]?
  | [], k, h => absurd h (by simp)
  | [a], k, h => ⟨[], [], [a], by simp [soa], by simp at h; subst h; simp, by simp at h; subst h; simp, by simp at h; subst h; rfl⟩
  | [a, b], k, h => by
    have h : k < 2 := h
    refine ⟨[], [], [a, b], by simp [soa], ?_, ?_, ?_⟩
    · rw [show k / 4 = 0 by omega]; simp
    · rw [show k / 4 = 0 by omega]; rfl
    · rw [show k % 4 = k by omega]
  | [a, b, c], k, h => by
    have h : k < 3 := h
    refine ⟨[], [], [a, b, c], by simp [soa], ?_, ?_, ?_⟩
    · rw [show k / 4 = 0 by omega]; simp
    · rw [show k / 4 = 0 by omega]; rfl
    · rw [show k % 4 = k by omega]
  | a :: b :: c :: d :: rest, k, h => by
    by_cases hk : k < 4
    · refine ⟨[], soa G rest, [a, b, c, d], by rw [soa]; rfl, ?_, ?_, ?_⟩
      · rw [show k / 4 = 0 by omega]; simp
      · rw [show k / 4 = 0 by omega]; simp only [List.length_cons, List.length_nil]; omega
      · rw [show k % 4 = k by omega]
        match k, hk with
        | 0, _ => rfl
        | 1, _ => rfl
        | 2, _ => rfl
        | 3, _ => rfl
    · obtain ⟨A, C, g, e, hA, hg, hgk⟩ := soa_split G w hw rest (k - 4) (by simp only [List.length_cons] at h; omega)
      refine ⟨G [a, b, c, d] ++ A, C, g, by rw [soa, e, List.append_assoc], ?_, ?_, ?_⟩
      · rw [List.length_append, hw _ rfl, hA, show k / 4 = (k - 4) / 4 + 1 by omega, Nat.mul_add]; omega
      · rw [hg]; simp only [List.length_cons]; omega
      · rw [show k % 4 = (k - 4) % 4 by omega, hgk]
        obtain ⟨j, rfl⟩ : ∃ j, k = j + 4 := ⟨k - 4, by omega⟩
        simp

theorem soa_length {α β : Type} (G : List α → List β) (f : Nat → Nat) (hf : ∀ g, 0 < g.length → g.length ≤ 4 → (G g).length = f g.length) :
    ∀ (l : List α), (soa G l).length = l.length / 4 * f 4 + (if l.length % 4 = 0 then 0 else f (l.length % 4))
  | [] => by simp [soa]
  | [_] => by rw [soa_short _ _ (by simp) (by simp), hf _ (by simp) (by simp)]; simp
  | [_, _] => by rw [soa_short _ _ (by simp) (by simp), hf _ (by simp) (by simp)]; simp
  | [_, _, _] => by rw [soa_short _ _ (by simp) (by simp), hf _ (by simp) (by simp)]; simp
  | a :: b :: c :: d :: rest => by
    rw [soa, List.length_append, hf _ (by simp) (by simp), soa_length G f hf rest]
    simp only [List.length_cons, List.length_nil]
    rw [show (rest.length + 1 + 1 + 1 + 1) / 4 = rest.length / 4 + 1 by omega,
      show (rest.length + 1 + 1 + 1 + 1) % 4 = rest.length % 4 by omega, Nat.add_mul, Nat.one_mul]
    simp only [Nat.reduceAdd]
    omega

theorem getElem?_flatMap_const {α β : Type} (f : β → List α) (n : Nat) : ∀ (l : List β), (∀ a ∈ l, (f a).length = n) →
    ∀ c k, k < n → (l.flatMap f)[n * c + k]? = (l[c]?).bind fun a => (f a)[k]? := by
  intro l
  induction l with
  | nil => intro _ c k _; simp
  | cons a l ih =>
    intro h c k hk
    have ha := h a List.mem_cons_self
    rw [List.flatMap_cons]
    cases c with
    | zero => rw [List.getElem?_append_left (by rw [ha]; omega), Nat.mul_zero, Nat.zero_add]; rfl
    | succ c =>
      rw [List.getElem?_append_right (by rw [ha, Nat.mul_succ]; omega), ha,
        show n * (c + 1) + k - n = n * c + k by rw [Nat.mul_succ]; omega,
        ih (fun b hb => h b (List.mem_cons_of_mem _ hb)) c k hk]
      rfl

/-! ### Clip ranges -/

/-- The components of a range in the order they are written. -/
def RangeF.words (r : RangeF) : List (BitVec 32) := [r.min.x, r.min.y, r.min.z, r.extent.x, r.extent.y, r.extent.z]

/-- A group of ranges, component by component. -/
def clipGroup (g : List RangeF) : List (BitVec 8) :=
  floatBytes (g.map (·.min.x)) ++ floatBytes (g.map (·.min.y)) ++ floatBytes (g.map (·.min.z)) ++
    floatBytes (g.map (·.extent.x)) ++ floatBytes (g.map (·.extent.y)) ++ floatBytes (g.map (·.extent.z))

theorem clipGroup_length (g : List RangeF) : (clipGroup g).length = 24 * g.length := by
  unfold clipGroup; simp only [List.length_append, floatBytes_length, List.length_map]; omega

/-- **Clip ranges**: rotations in groups of four, component by component; then the translations and the scales. -/
theorem writeClipRanges_eq (flags : RangeFlags) (hasScale : Bool) (bones : List Bone) (garbage : Nat → RangeF)
    (hscale : hasScale = false → entries bones .scale = []) :
    let part (kind : Kind) : List Bone := (entries bones kind).filter fun _ => flags kind
    writeClipRanges flags hasScale bones garbage = some (
      soa clipGroup ((part .rotation).map (·.clipRange .rotation)) ++
      ((part .translation).map (·.clipRange .translation)).flatMap (fun r => floatBytes r.words) ++
      ((part .scale).map (·.clipRange .scale)).flatMap (fun r => floatBytes r.words)) := by
  intro part
  have hpart : ∀ kind, part kind = (entries bones kind).filter fun _ => flags kind := fun _ => rfl
  clear_value part
  let lay (kind : Kind) (l : List RangeF) : List (BitVec 8) :=
    if kind = .rotation then soa clipGroup l else l.flatMap (fun r => floatBytes r.words)
  let pre (kind : Kind) : List (BitVec 8) := match kind with
    | .rotation => []
    | .translation => soa clipGroup ((part .rotation).map (·.clipRange .rotation))
    | .scale => soa clipGroup ((part .rotation).map (·.clipRange .rotation)) ++
        ((part .translation).map (·.clipRange .translation)).flatMap (fun r => floatBytes r.words)
  let P (kind : Kind) (done pend : List Bone) (s : List (BitVec 8) × (Nat → RangeF)) : Prop :=
    s.1 = pre kind ++ lay kind (done.map (·.clipRange kind)) ∧
    ∀ i (h : i < pend.length), s.2 i = pend[i].clipRange kind
  obtain ⟨s', e, p1, -⟩ := groupWriter_spec hasScale bones (fun kind _ => flags kind)
    (fun kind g b (s : List (BitVec 8) × (Nat → RangeF)) =>
      if g < 4 then some (s.1, fun i => if i = g then b.clipRange kind else s.2 i) else none)
    (fun kind g s =>
      let lanes (f : RangeF → BitVec 32) : List (BitVec 8) := floatBytes ((List.range g).map fun i => f (s.2 i))
      if kind = .rotation then
        some (s.1 ++ lanes (·.min.x) ++ lanes (·.min.y) ++ lanes (·.min.z) ++
          lanes (·.extent.x) ++ lanes (·.extent.y) ++ lanes (·.extent.z), s.2)
      else
        some (s.1 ++ (List.range g).flatMap fun i =>
          floatBytes [(s.2 i).min.x, (s.2 i).min.y, (s.2 i).min.z] ++
          floatBytes [(s.2 i).extent.x, (s.2 i).extent.y, (s.2 i).extent.z], s.2))
    ([], garbage) P
    (by
      rintro kind done pend b ⟨s1, s2⟩ hp hd hpre ⟨h1, h2⟩
      refine ⟨_, if_pos hp, h1, ?_⟩
      intro i hi
      simp only at h2 ⊢
      by_cases hi' : i = pend.length
      · subst hi'
        rw [if_pos rfl]; simp
      · have hi2 : i < pend.length := by simp at hi; omega
        rw [if_neg hi', h2 i hi2, List.getElem_append_left hi2])
    (by
      rintro kind done pend ⟨s1, s2⟩ h0 h4 hd hpre ⟨h1, h2⟩
      simp only at h1 h2
      have hmap : (List.range pend.length).map s2 = pend.map (·.clipRange kind) := by
        apply List.ext_getElem
        · simp
        · intro i h5 h6
          rw [List.getElem_map, List.getElem_map, List.getElem_range]
          exact h2 i (by simpa using h6)
      have hf : ∀ f : RangeF → BitVec 32, (List.range pend.length).map (fun i => f (s2 i)) = (pend.map (·.clipRange kind)).map f := by
        intro f; rw [← hmap, List.map_map]; rfl
      cases hk : decide (kind = .rotation) with
      | true =>
        have hk := of_decide_eq_true hk
        simp only [if_pos hk]
        refine ⟨_, rfl, ?_, fun i hi => absurd hi (by simp)⟩
        simp only [h1, lay, if_pos hk]
        rw [List.map_append, soa_append _ _ _ (by simpa using hd) (by simpa using h0) (by simpa using h4)]
        have hx := hf (·.min.x); have hy := hf (·.min.y); have hz := hf (·.min.z)
        have ex := hf (·.extent.x); have ey := hf (·.extent.y); have ez := hf (·.extent.z)
        rw [hx, hy, hz, ex, ey, ez]
        simp only [clipGroup, List.append_assoc]
      | false =>
        have hk := of_decide_eq_false hk
        simp only [if_neg hk]
        refine ⟨_, rfl, ?_, fun i hi => absurd hi (by simp)⟩
        simp only [h1, lay, if_neg hk]
        rw [List.map_append, List.flatMap_append, ← hmap, List.flatMap_map s2, List.append_assoc]
        rfl)
    (by
      rintro ⟨s1, s2⟩ ⟨h1, -⟩
      refine ⟨?_, fun i hi => absurd hi (by simp)⟩
      simp only at h1 ⊢
      rw [h1]
      simp only [pre, lay, hpart]
      simp)
    (by
      rintro ⟨s1, s2⟩ ⟨h1, -⟩
      refine ⟨?_, fun i hi => absurd hi (by simp)⟩
      simp only at h1 ⊢
      rw [h1]
      simp only [pre, lay, hpart]
      simp)
    ⟨rfl, fun i hi => absurd hi (by simp)⟩ hscale
  unfold writeClipRanges
  rw [e, Option.map_some, p1, hpart .scale]
  rfl

/-! ### Segment ranges -/

/-- The byte of a lane in a group of segment ranges: component `c` of lane `i` is at `4 * c + i`; the lanes that are not
used are zero. -/
def segmentGroup (g : List (List (BitVec 8))) : List (BitVec 8) :=
  (List.range 24).map fun j => match g[j % 4]? with | some bytes => bytes.getD (j / 4) 0 | none => 0

theorem segmentGroup_length (g : List (List (BitVec 8))) : (segmentGroup g).length = 24 := by simp [segmentGroup]

theorem segmentGroup_get (g : List (List (BitVec 8))) (c i : Nat) (bytes : List (BitVec 8)) (hc : c < 6) (hi : i < 4)
    (hg : g[i]? = some bytes) : (segmentGroup g)[4 * c + i]? = some (bytes.getD c 0) := by
  unfold segmentGroup
  rw [List.getElem?_map, List.getElem?_range (by omega), Option.map_some, show (4 * c + i) % 4 = i by omega,
    show (4 * c + i) / 4 = c by omega, hg]

theorem segmentGroup_nil : segmentGroup [] = List.replicate 24 0 := by decide

theorem storeStrided_get : ∀ (bs : List (BitVec 8)) (p : Nat) (m : List (BitVec 8)),
    p + 4 * bs.length ≤ m.length + 3 →
    ∃ r, storeStrided 4 bs p m = some r ∧ r.length = m.length ∧
      ∀ (j : Nat), r[j]? = if p ≤ j ∧ (j - p) % 4 = 0 ∧ (j - p) / 4 < bs.length then bs[(j - p) / 4]? else m[j]? := by
  intro bs
  induction bs with
  | nil => intro p m h; exact ⟨m, rfl, rfl, fun j => by rw [if_neg (by simp)]⟩
  | cons b bs ih =>
    intro p m h
    simp only [List.length_cons] at h
    have hs : store m p [b] = some (m.take p ++ [b] ++ m.drop (p + 1)) := by
      unfold store; rw [if_pos (by simp; omega)]; simp
    have hset : m.take p ++ [b] ++ m.drop (p + 1) = m.set p b := by
      rw [List.set_eq_take_append_cons_drop, if_pos (by omega)]; simp
    rw [hset] at hs
    obtain ⟨r, e, l, g⟩ := ih (p + 4) (m.set p b) (by rw [List.length_set]; omega)
    refine ⟨r, by rw [storeStrided, hs, Option.bind_some, e], by rw [l, List.length_set], ?_⟩
    intro j
    rw [g j]
    simp only [List.length_cons]
    by_cases h1 : p + 4 ≤ j ∧ (j - (p + 4)) % 4 = 0 ∧ (j - (p + 4)) / 4 < bs.length
    · rw [if_pos h1, if_pos (by omega), show (j - p) / 4 = (j - (p + 4)) / 4 + 1 by omega, List.getElem?_cons_succ]
    · rw [if_neg h1]
      by_cases h2 : j = p
      · subst h2
        rw [if_pos (by omega), List.getElem?_set_self (by omega), Nat.sub_self]; rfl
      · rw [List.getElem?_set_ne (by omega), if_neg (by omega)]

theorem segmentGroup_push (g : List (List (BitVec 8))) (bytes : List (BitVec 8)) (hg : g.length < 4) (hb : bytes.length = 6) :
    storeStrided 4 bytes g.length (segmentGroup g) = some (segmentGroup (g ++ [bytes])) := by
  obtain ⟨r, e, l, h⟩ := storeStrided_get bytes g.length (segmentGroup g) (by rw [segmentGroup_length, hb]; omega)
  rw [e]
  congr 1
  apply List.ext_getElem?
  intro j
  rw [h j]
  by_cases hj : j < 24
  · unfold segmentGroup
    rw [List.getElem?_map, List.getElem?_map, List.getElem?_range hj, Option.map_some, Option.map_some, hb]
    by_cases hc : g.length ≤ j ∧ (j - g.length) % 4 = 0 ∧ (j - g.length) / 4 < 6
    · rw [if_pos hc, show j % 4 = g.length by omega, show (j - g.length) / 4 = j / 4 by omega,
        List.getElem?_append_right (Nat.le_refl _), Nat.sub_self]
      simp only [List.getElem?_cons_zero]
      rw [List.getElem?_eq_getElem (by omega), List.getD_eq_getElem?_getD, List.getElem?_eq_getElem (by omega)]
      rfl
    · rw [if_neg hc]
      by_cases hlt : j % 4 < g.length
      · rw [List.getElem?_append_left hlt]
      · rw [List.getElem?_eq_none (by omega), List.getElem?_eq_none (by simp; omega)]
  · rw [if_neg (by rw [hb]; omega), List.getElem?_eq_none (by rw [segmentGroup_length]; omega),
      List.getElem?_eq_none (by rw [segmentGroup_length]; omega)]

/-- **Segment ranges**, when `bytes kind b` are the six bytes of a sub-track. -/
theorem writeSegmentRanges_eq (flags : RangeFlags) (hasScale : Bool) (bones : List Bone) (seg : Nat)
    (hscale : hasScale = false → entries bones .scale = []) (bytes : Kind → Bone → List (BitVec 8))
    (hb : ∀ kind, ∀ b ∈ entries bones kind, flags kind = true →
      segmentRangeBytes kind (b.stream seg kind) (b.segmentRange seg kind) = some (bytes kind b) ∧ (bytes kind b).length = 6) :
    let part (kind : Kind) : List Bone := (entries bones kind).filter fun _ => flags kind
    writeSegmentRanges flags hasScale bones seg = some (
      soa segmentGroup ((part .rotation).map (bytes .rotation)) ++
      (part .translation).flatMap (bytes .translation) ++ (part .scale).flatMap (bytes .scale)) := by
  intro part
  have hpart : ∀ kind, part kind = (entries bones kind).filter fun _ => flags kind := fun _ => rfl
  clear_value part
  let lay (kind : Kind) (l : List Bone) : List (BitVec 8) :=
    if kind = .rotation then soa segmentGroup (l.map (bytes kind)) else l.flatMap (bytes kind)
  let grp (kind : Kind) (l : List Bone) : List (BitVec 8) :=
    if kind = .rotation then segmentGroup (l.map (bytes kind))
    else l.flatMap (bytes kind) ++ List.replicate (24 - (l.flatMap (bytes kind)).length) 0
  let pre (kind : Kind) : List (BitVec 8) := match kind with
    | .rotation => []
    | .translation => soa segmentGroup ((part .rotation).map (bytes .rotation))
    | .scale => soa segmentGroup ((part .rotation).map (bytes .rotation)) ++ (part .translation).flatMap (bytes .translation)
  have grp0 : ∀ kind, grp kind [] = List.replicate 24 0 := by
    intro kind
    simp only [grp]
    split
    · exact segmentGroup_nil
    · rfl
  let P (kind : Kind) (done pend : List Bone) (s : List (BitVec 8) × List (BitVec 8)) : Prop :=
    s.1 = pre kind ++ lay kind done ∧ s.2 = grp kind pend ∧ (pend.flatMap (bytes kind)).length = 6 * pend.length
  obtain ⟨s', e, p1, -⟩ := groupWriter_spec hasScale bones (fun kind _ => flags kind)
    (fun kind g b (s : List (BitVec 8) × List (BitVec 8)) =>
      (segmentRangeBytes kind (b.stream seg kind) (b.segmentRange seg kind)).bind fun bytes =>
      (if kind = .rotation then storeStrided 4 bytes g s.2 else store s.2 (g * 6) bytes).map fun group => (s.1, group))
    (fun kind g s =>
      let copySize := if kind = .rotation then 4 else g
      some (s.1 ++ s.2.take (copySize * 6), List.replicate 24 0))
    ([], List.replicate 24 0) P
    (by
      rintro kind done pend b ⟨s1, s2⟩ hp hd hpre ⟨h1, h2, h3⟩
      have hm : b ∈ (entries bones kind).filter fun _ => flags kind := hpre.subset (by simp)
      rw [List.mem_filter] at hm
      obtain ⟨hbe, hbl⟩ := hb kind b hm.1 hm.2
      simp only at h1 h2 h3 ⊢
      have hfl : (pend ++ [b]).flatMap (bytes kind) = pend.flatMap (bytes kind) ++ bytes kind b := by simp
      refine ⟨(s1, grp kind (pend ++ [b])), ?_, h1, rfl, by
        rw [hfl, List.length_append, h3, hbl, List.length_append, List.length_singleton]; omega⟩
      rw [hbe, Option.bind_some, h2]
      cases hk : decide (kind = .rotation) with
      | true =>
        have hk := of_decide_eq_true hk
        simp only [if_pos hk, grp, List.map_append, List.map_cons, List.map_nil]
        have := segmentGroup_push (pend.map (bytes kind)) (bytes kind b) (by simpa using hp) hbl
        rw [List.length_map] at this
        rw [this, Option.map_some]
      | false =>
        have hk := of_decide_eq_false hk
        simp only [if_neg hk, grp, hfl]
        have hpad : List.replicate (24 - (pend.flatMap (bytes kind)).length) (0 : BitVec 8) =
            List.replicate 6 0 ++ List.replicate (24 - (pend.flatMap (bytes kind) ++ bytes kind b).length) 0 := by
          rw [List.replicate_append_replicate]
          congr 1
          rw [List.length_append, h3, hbl]; omega
        rw [hpad, store_append _ _ _ _ _ (by rw [h3]; omega) (by rw [hbl]; rfl), Option.map_some, List.append_assoc])
    (by
      rintro kind done pend ⟨s1, s2⟩ h0 h4 hd hpre ⟨h1, h2, h3⟩
      simp only at h1 h2 h3
      refine ⟨_, rfl, ?_, (grp0 kind).symm, by simp⟩
      simp only [h1, h2]
      cases hk : decide (kind = .rotation) with
      | true =>
        have hk := of_decide_eq_true hk
        simp only [if_pos hk, grp, lay]
        rw [List.take_of_length_le (by rw [segmentGroup_length]), List.map_append,
          soa_append _ _ _ (by simpa using hd) (by simpa using h0) (by simpa using h4), List.append_assoc]
      | false =>
        have hk := of_decide_eq_false hk
        simp only [if_neg hk, grp, lay]
        rw [List.take_append_of_le_length (by rw [h3]; omega), List.take_of_length_le (by rw [h3]; omega), List.flatMap_append,
          List.append_assoc])
    (by
      rintro ⟨s1, s2⟩ ⟨h1, h2, h3⟩
      rw [grp0] at h2
      refine ⟨?_, by rw [grp0]; exact h2, rfl⟩
      simp only at h1 ⊢
      rw [h1]
      simp only [pre, lay, hpart]
      simp)
    (by
      rintro ⟨s1, s2⟩ ⟨h1, h2, h3⟩
      rw [grp0] at h2
      refine ⟨?_, by rw [grp0]; exact h2, rfl⟩
      simp only at h1 ⊢
      rw [h1]
      simp only [pre, lay, hpart]
      simp)
    ⟨rfl, (grp0 _).symm, rfl⟩ hscale
  unfold writeSegmentRanges
  rw [e, Option.map_some, p1, hpart .scale]
  rfl

end Acl.Transform
