import Verif.Transform.RateCacheLemmas
import Verif.Transform.HierarchyLemmas
import Verif.Transform.SegmentingLemmas
import Verif.Transform.RateCacheClip
import Verif.Props.C65
/-!
C66: the cache of sampled sub-tracks does not change anything: whatever is built and sampled, in any order, in any segments, from
uninitialized memory, every transform is the one that sampling the streams gives. The memory that is reserved for the first segment
is enough for all the others.
-/
namespace Acl.C66
open Acl.Transform Acl.Search Acl.RateCache Acl.Hierarchy

/-! ## Specification -/

/-- What sampling a sub-track gives -/
def fresh {V T : Type} (c : Config) (s : Streams V T) (track : Nat) (kind : Kind) (key rate : Nat) : V :=
  if s.isDefault track kind then s.default track kind
  else if s.isConstant track kind then s.constant track kind
  else if c.isVariable kind then s.sampleAt track kind key rate
  else s.sampleFull track kind key

/-- What sampling a bone gives -/
def freshTransform {V T : Type} (c : Config) (s : Streams V T) (key : Nat) (rates : Rates) (track : Nat) : Transform V :=
  ⟨fresh c s track .rotation key rates.rotation, fresh c s track .translation key rates.translation, fresh c s track .scale key rates.scale⟩

/-- The bones of a query: one, one and its ancestors, or all -/
inductive Tracks (n : Nat) (parents : List Nat) : Which → List Nat → Prop
  | single {t : Nat} : t < n → Tracks n parents (.single t) [t]
  | chain {t : Nat} {path : List Nat} : RootPath parents t path → Tracks n parents (.chain t) path.reverse
  | every : Tracks n parents .every (List.range n)

/-- The streams of a segment go with the cache. -/
structure StreamsOk {V T : Type} (c : Config) (s : Streams V T) : Prop where
  parents : s.parents.length = c.numTransforms
  ordered : Ordered s.parents
  scale : c.hasScale = false → ∀ t, t < c.numTransforms → s.isDefault t .scale = true

/-- In a segment a sub-track always has a bit rate or never has one. -/
def RatesOk (c : Config) (rated : Nat → Kind → Bool) (rates : Nat → Rates) (tracks : List Nat) : Prop :=
  ∀ t ∈ tracks, ∀ kind, (kind = .scale → c.hasScale = true) → (rated t kind = true ↔ rateOf (rates t) kind ≠ 255)

/-- A legal run without the cache, from segment `g`, of a client that ends with `a`. -/
inductive Runs {V T A : Type} (c : Config) (segments : Nat → Streams V T) (rated : Nat → Nat → Kind → Bool) :
    Client V T A → Nat → Option (Which × (Nat → Rates)) → A → Prop
  | done {a : A} {g : Nat} {q : Option (Which × (Nat → Rates))} : Runs c segments rated (.done a) g q a
  | segment {a : A} {g g' : Nat} {q : Option (Which × (Nat → Rates))} {next : Client V T A} : StreamsOk c (segments g') →
      Runs c segments rated next g' none a → Runs c segments rated (.segment g' next) g q a
  | build {a : A} {g : Nat} {q : Option (Which × (Nat → Rates))} {which : Which} {rates : Nat → Rates} {next : Client V T A} {tracks : List Nat} :
      Tracks c.numTransforms (segments g).parents which tracks → RatesOk c (rated g) rates tracks →
      Runs c segments rated next g (some (which, rates)) a → Runs c segments rated (.build which rates next) g q a
  | sample {a : A} {g : Nat} {which : Which} {rates : Nat → Rates} {time : T} {next : List (Nat × Transform V) → Client V T A} {tracks : List Nat} :
      Tracks c.numTransforms (segments g).parents which tracks → (segments g).key time < c.numSamples →
      Runs c segments rated (next (tracks.map fun t => (t, freshTransform c (segments g) ((segments g).key time) (rates t) t))) g (some (which, rates)) a →
      Runs c segments rated (.sample time next) g (some (which, rates)) a

/-! ## Proofs -/

variable {V T : Type} {c : Config} {s : Streams V T} {rated : Nat → Kind → Bool} {U : Nat → Kind → Prop} {st : State V}

theorem chainOf_eq {parents : List Nat} : ∀ {t : Nat} {path : List Nat}, RootPath parents t path → ∀ fuel, path.length ≤ fuel →
    chainOf parents fuel t = some path.reverse := by
  intro t path h
  induction h with
  | root hr =>
    intro fuel hf
    obtain ⟨n, rfl⟩ : ∃ n, fuel = n + 1 := ⟨fuel - 1, by simp at hf; omega⟩
    unfold chainOf
    rw [hr]
    rfl
  | @child i p path hp hne _ ih =>
    intro fuel hf
    rw [List.length_append] at hf
    obtain ⟨n, rfl⟩ : ∃ n, fuel = n + 1 := ⟨fuel - 1, by simp at hf; omega⟩
    unfold chainOf
    rw [hp, List.reverse_append]
    have hne' : p ≠ 0xFFFFFFFF := hne
    simp only [Option.bind_eq_bind, Option.bind_some, if_neg hne', ih n (by simp at hf; omega)]
    rfl

theorem tracks_spec (hs : StreamsOk c s) {which : Which} {tracks : List Nat} (h : Tracks c.numTransforms s.parents which tracks) :
    tracksOf c s which = some tracks ∧ tracks.Nodup ∧ ∀ t ∈ tracks, t < c.numTransforms := by
  cases h with
  | single ht => exact ⟨rfl, List.nodup_singleton _, by simpa using ht⟩
  | every => exact ⟨rfl, List.nodup_range, by simp⟩
  | @chain t path hp =>
    have ha := hp.all_lt
    have hn : path.Nodup := (hp.ascending hs.ordered).1.imp fun h => Nat.ne_of_lt h
    refine ⟨chainOf_eq hp _ ?_, List.nodup_reverse.2 hn, ?_⟩
    · have hsub : path ⊆ List.range s.parents.length := fun j hj => List.mem_range.2 (ha j hj)
      have := (hn.subperm hsub).length_le
      rw [List.length_range] at this
      omega
    · intro j hj
      rw [← hs.parents]
      exact ha j (List.mem_reverse.1 hj)

/-- The indices of a bone lead to slots with its bit rates. -/
def Ready (c : Config) (rated : Nat → Kind → Bool) (U : Nat → Kind → Prop) (st : State V) (rates : Rates) (x : Indices) (t : Nat) : Prop :=
  ∀ kind, Live c kind → ∃ slot, slot < 4 ∧ indexOf x kind = baseIndex c t kind + slot ∧ SlotHolds rated U (slotsOf st t kind) t kind slot (rateOf rates kind)

theorem Ready.mono {U' : Nat → Kind → Prop} {st' : State V} {rates : Rates} {x : Indices} {t : Nat} (h : Ready c rated U st rates x t)
    (hU : ∀ t k, U t k → U' t k) (hs : ∀ k, slotsOf st' t k = slotsOf st t k) : Ready c rated U' st' rates x t := by
  intro kind hl
  obtain ⟨slot, h1, h2, h3⟩ := h kind hl
  exact ⟨slot, h1, h2, by rw [hs]; exact h3.mono hU⟩

theorem find_spec (h : Inv c s rated U st) {t : Nat} (ht : t < c.numTransforms) {rates : Rates}
    (hr : ∀ kind, Live c kind → (rated t kind = true ↔ rateOf rates kind ≠ 255)) :
    ∃ st' x U', findCacheEntries c st t rates = some (st', x) ∧ Inv c s rated U' st' ∧ (∀ t k, U t k → U' t k) ∧ Ready c rated U' st' rates x t ∧
      ∀ t' k, t' ≠ t → slotsOf st' t' k = slotsOf st t' k := by
  have l1 : Live c .rotation := by intro h; cases h
  have l2 : Live c .translation := by intro h; cases h
  obtain ⟨s1, i1, U1, e1, f1⟩ := findEntry_spec h ht l1 (hr _ l1)
  obtain ⟨s2, i2, U2, e2, f2⟩ := findEntry_spec f1.inv ht l2 (hr _ l2)
  cases hsc : c.hasScale with
  | false =>
    refine ⟨s2, ⟨i1, i2, 0xFFFFFFFF⟩, U2, ?_, f2.inv, fun t k hu => f2.mono _ _ (f1.mono _ _ hu), ?_, ?_⟩
    · unfold findCacheEntries findScale
      have e1' : findEntry c st t .rotation rates.rotation = some (s1, i1) := e1
      have e2' : findEntry c s1 t .translation rates.translation = some (s2, i2) := e2
      rw [e1', hsc]
      simp only [Option.bind_eq_bind, Option.bind_some, e2']
      rfl
    · intro kind hl
      cases kind with
      | rotation =>
        obtain ⟨slot, h1, h2, h3⟩ := f1.holds
        exact ⟨slot, h1, h2, by rw [f2.other _ _ (by simp)]; exact h3.mono f2.mono⟩
      | translation => exact f2.holds
      | scale => have := hl rfl; rw [hsc] at this; cases this
    · intro t' k hne
      rw [f2.other _ _ (by simp [hne]), f1.other _ _ (by simp [hne])]
  | true =>
    have l3 : Live c .scale := fun _ => hsc
    obtain ⟨s3, i3, U3, e3, f3⟩ := findEntry_spec f2.inv ht l3 (hr _ l3)
    refine ⟨s3, ⟨i1, i2, i3⟩, U3, ?_, f3.inv, fun t k hu => f3.mono _ _ (f2.mono _ _ (f1.mono _ _ hu)), ?_, ?_⟩
    · unfold findCacheEntries findScale
      have e1' : findEntry c st t .rotation rates.rotation = some (s1, i1) := e1
      have e2' : findEntry c s1 t .translation rates.translation = some (s2, i2) := e2
      have e3' : findEntry c s2 t .scale rates.scale = some (s3, i3) := e3
      rw [e1', hsc]
      simp only [Option.bind_eq_bind, Option.bind_some, e2', if_true, e3']
      rfl
    · intro kind hl
      cases kind with
      | rotation =>
        obtain ⟨slot, h1, h2, h3⟩ := f1.holds
        exact ⟨slot, h1, h2, by rw [f3.other _ _ (by simp), f2.other _ _ (by simp)]; exact (h3.mono f2.mono).mono f3.mono⟩
      | translation =>
        obtain ⟨slot, h1, h2, h3⟩ := f2.holds
        exact ⟨slot, h1, h2, by rw [f3.other _ _ (by simp)]; exact h3.mono f3.mono⟩
      | scale => exact f3.holds
    · intro t' k hne
      rw [f3.other _ _ (by simp [hne]), f2.other _ _ (by simp [hne]), f1.other _ _ (by simp [hne])]

theorem buildFold_spec {rates : Nat → Rates} : ∀ (tracks : List Nat) (st : State V) (U : Nat → Kind → Prop) (x : Nat → Indices), Inv c s rated U st →
    tracks.Nodup → (∀ t ∈ tracks, t < c.numTransforms) → RatesOk c rated rates tracks →
    ∃ st' y U', tracks.foldlM (buildTrack c rates) (st, x) = some (st', y) ∧ Inv c s rated U' st' ∧ (∀ t k, U t k → U' t k) ∧
      (∀ t ∈ tracks, Ready c rated U' st' (rates t) (y t) t) ∧ ∀ t, t ∉ tracks → y t = x t ∧ ∀ k, slotsOf st' t k = slotsOf st t k
  | [], st, U, x, h, _, _, _ => ⟨st, x, U, rfl, h, fun _ _ => id, by simp, fun _ _ => ⟨rfl, fun _ => rfl⟩⟩
  | t :: rest, st, U, x, h, hn, hlt, hr => by
    obtain ⟨hnotin, hn'⟩ := List.nodup_cons.1 hn
    obtain ⟨s1, y1, U1, e1, i1, m1, r1, o1⟩ := find_spec h (hlt t (by simp)) (rates := rates t) (fun kind hl => hr t (by simp) kind hl)
    obtain ⟨s2, y2, U2, e2, i2, m2, r2, o2⟩ := buildFold_spec rest s1 U1 (fun t' => if t' = t then y1 else x t') i1 hn' (fun t' h' => hlt t' (by simp [h']))
      (fun t' h' => hr t' (by simp [h']))
    refine ⟨s2, y2, U2, ?_, i2, fun a b hu => m2 _ _ (m1 _ _ hu), ?_, ?_⟩
    · rw [List.foldlM_cons]
      unfold buildTrack
      simp only [e1, Option.bind_eq_bind, Option.bind_some, Option.pure_def]
      exact e2
    · intro t' h'
      rcases List.mem_cons.1 h' with rfl | h'
      · obtain ⟨hy, hs⟩ := o2 t' hnotin
        rw [hy, if_pos rfl]
        exact r1.mono m2 hs
      · exact r2 t' h'
    · intro t' h'
      rw [List.mem_cons, not_or] at h'
      obtain ⟨hy, hs⟩ := o2 t' h'.2
      rw [hy, if_neg h'.1]
      exact ⟨rfl, fun k => by rw [hs, o1 _ _ h'.1]⟩

theorem sampleSub_spec (hs : StreamsOk c s) (h : Inv c s rated U st) {t : Nat} (ht : t < c.numTransforms) {rates : Rates} {x : Indices}
    (hr : Ready c rated U st rates x t) {key : Nat} (hkey : key < c.numSamples) (kind : Kind) :
    ∃ st', sampleSub c s st kind t key (rateOf rates kind) (indexOf x kind) = some (st', fresh c s t kind key (rateOf rates kind)) ∧ Inv c s rated U st' ∧
      st'.transforms = st.transforms := by
  unfold sampleSub fresh
  by_cases hd : s.isDefault t kind = true
  · rw [if_pos hd, if_pos hd]
    exact ⟨st, rfl, h, rfl⟩
  · rw [if_neg hd, if_neg hd]
    have hl : Live c kind := by
      rintro rfl
      cases hsc : c.hasScale with
      | true => rfl
      | false => exact absurd (hs.scale hsc t ht) hd
    obtain ⟨slot, h1, h2, h3⟩ := hr kind hl
    rw [h2]
    by_cases hc : s.isConstant t kind = true
    · rw [if_pos hc, if_pos hc]
      have := cached_spec h ht hl h1 h3 (show 0 < c.numSamples by omega)
      unfold want at this
      rw [if_pos hc] at this
      exact this
    · rw [if_neg hc, if_neg hc]
      have := cached_spec h ht hl h1 h3 hkey
      unfold want at this
      rw [if_neg hc] at this
      exact this

theorem slotsOf_congr {st st' : State V} (h : st'.transforms = st.transforms) (t : Nat) (k : Kind) : slotsOf st' t k = slotsOf st t k := by
  unfold slotsOf; rw [h]

theorem sampleTrack_spec (hs : StreamsOk c s) (h : Inv c s rated U st) {t : Nat} (ht : t < c.numTransforms) {rates : Rates} {x : Indices}
    (hr : Ready c rated U st rates x t) {key : Nat} (hkey : key < c.numSamples) :
    ∃ st', sampleTrack c s st t key rates x = some (st', freshTransform c s key rates t) ∧ Inv c s rated U st' ∧ st'.transforms = st.transforms := by
  obtain ⟨s1, e1, i1, t1⟩ := sampleSub_spec hs h ht hr hkey .rotation
  obtain ⟨s2, e2, i2, t2⟩ := sampleSub_spec hs i1 ht (hr.mono (fun _ _ => id) (slotsOf_congr t1 t)) hkey .translation
  obtain ⟨s3, e3, i3, t3⟩ := sampleSub_spec hs i2 ht (hr.mono (fun _ _ => id) (slotsOf_congr (t2.trans t1) t)) hkey .scale
  refine ⟨s3, ?_, i3, t3.trans (t2.trans t1)⟩
  have e1' : sampleSub c s st .rotation t key rates.rotation x.rotation = some (s1, fresh c s t .rotation key rates.rotation) := e1
  have e2' : sampleSub c s s1 .translation t key rates.translation x.translation = some (s2, fresh c s t .translation key rates.translation) := e2
  have e3' : sampleSub c s s2 .scale t key rates.scale x.scale = some (s3, fresh c s t .scale key rates.scale) := e3
  unfold sampleTrack
  simp only [e1', e2', e3', Option.bind_eq_bind, Option.bind_some, Option.pure_def]
  rfl

theorem sampleFold_spec (hs : StreamsOk c s) {q : Query} {key : Nat} (hkey : key < c.numSamples) : ∀ (tracks : List Nat) (st : State V)
    (out : List (Nat × Transform V)), Inv c s rated U st → (∀ t ∈ tracks, t < c.numTransforms) →
    (∀ t ∈ tracks, Ready c rated U st (q.rates t) (q.indices t) t) →
    ∃ st', tracks.foldlM (sampleOne c s q key) (st, out) = some (st', out ++ tracks.map fun t => (t, freshTransform c s key (q.rates t) t)) ∧
      Inv c s rated U st' ∧ st'.transforms = st.transforms
  | [], st, out, h, _, _ => ⟨st, by simp, h, rfl⟩
  | t :: rest, st, out, h, hlt, hr => by
    obtain ⟨s1, e1, i1, t1⟩ := sampleTrack_spec hs h (hlt t (by simp)) (hr t (by simp)) hkey
    obtain ⟨s2, e2, i2, t2⟩ := sampleFold_spec hs hkey rest s1 (out ++ [(t, freshTransform c s key (q.rates t) t)]) i1 (fun t' h' => hlt t' (by simp [h']))
      (fun t' h' => (hr t' (by simp [h'])).mono (fun _ _ => id) (slotsOf_congr t1 t'))
    refine ⟨s2, ?_, i2, t2.trans t1⟩
    have e : sampleOne c s q key (st, out) t = some (s1, out ++ [(t, freshTransform c s key (q.rates t) t)]) := by
      unfold sampleOne
      simp only [e1, Option.bind_eq_bind, Option.bind_some, Option.pure_def]
    rw [List.foldlM_cons, e]
    refine Eq.trans e2 ?_
    rw [List.map_cons, List.append_assoc, List.singleton_append]

/-- What is known of the query that was built last -/
def Built (c : Config) (s : Streams V T) (rated : Nat → Kind → Bool) (U : Nat → Kind → Prop) (st : State V) :
    Option (Which × (Nat → Rates)) → Option Query → Prop
  | none, _ => True
  | some (which, rates), some q => q.which = which ∧ q.rates = rates ∧
      ∀ tracks, Tracks c.numTransforms s.parents which tracks → ∀ t ∈ tracks, Ready c rated U st (rates t) (q.indices t) t
  | some _, none => False

theorem Tracks.unique {n : Nat} {parents : List Nat} {which : Which} {l l' : List Nat} (h : Tracks n parents which l) (h' : Tracks n parents which l') :
    l = l' := by
  cases h with
  | single _ => cases h'; rfl
  | every => cases h'; rfl
  | chain hp => cases h' with | chain hp' => rw [hp.unique hp']

theorem inv_reset {s' : Streams V T} {rated' : Nat → Kind → Bool} (h : Inv c s rated U st) : Inv c s' rated' (fun _ _ => False) (setSegment st) where
  transforms := by simp [setSegment, h.transforms]
  bits := h.bits
  data := h.data
  slots := by
    intro t f hf kind
    simp only [setSegment, List.getElem?_map, Option.map_eq_some_iff] at hf
    obtain ⟨a, -, rfl⟩ := hf
    exact ⟨rfl, rfl⟩
  used := by
    intro t f hf kind hg
    simp only [setSegment, List.getElem?_map, Option.map_eq_some_iff] at hf
    obtain ⟨a, -, rfl⟩ := hf
    exact absurd rfl hg
  cached := by
    intro t f hf kind _ slot hslot rate hh
    simp only [setSegment, List.getElem?_map, Option.map_eq_some_iff] at hf
    obtain ⟨a, -, rfl⟩ := hf
    exfalso
    unfold SlotHolds at hh
    split at hh
    · have : Slots.empty.rates[slot]? = some 255 := by
        rcases slot with _ | _ | _ | _ | n <;> first | rfl | omega
      rw [this] at hh
      exact hh.2 (by cases hh.1; rfl)
    · exact hh.2.2

theorem inv_fresh {bits : List (BitVec 32)} {data : List V} (hb : bits.length = c.bitsetSize * c.numCached)
    (hd : data.length = c.trackSize * c.numCached) : Inv c s rated (fun _ _ => False) (State.fresh c bits data) := by
  have hempty : ∀ (t : Nat) (f : Kind → Slots), (State.fresh c bits data).transforms[t]? = some f → f = fun _ => Slots.empty := by
    intro t f hf
    simp only [State.fresh, List.getElem?_replicate] at hf
    split at hf
    · cases hf; rfl
    · cases hf
  refine ⟨by simp [State.fresh], hb, hd, ?_, ?_, ?_⟩
  · intro t f hf kind
    rw [hempty t f hf]
    exact ⟨rfl, rfl⟩
  · intro t f hf kind hg
    rw [hempty t f hf] at hg
    exact absurd rfl hg
  · intro t f hf kind _ slot hslot rate hh
    rw [hempty t f hf] at hh
    exfalso
    unfold SlotHolds at hh
    split at hh
    · have : Slots.empty.rates[slot]? = some 255 := by
        rcases slot with _ | _ | _ | _ | n <;> first | rfl | omega
      rw [this] at hh
      exact hh.2 (by cases hh.1; rfl)
    · exact hh.2.2

theorem run_eq {A : Type} {segments : Nat → Streams V T} {rated : Nat → Nat → Kind → Bool} {client : Client V T A} {g : Nat}
    {q : Option (Which × (Nat → Rates))} {a : A} (h : Runs c segments rated client g q a) :
    ∀ (U : Nat → Kind → Prop) (st : State V) (Q : Option Query), StreamsOk c (segments g) → Inv c (segments g) (rated g) U st →
      Built c (segments g) (rated g) U st q Q → client.run c segments g st Q = some a := by
  induction h with
  | done => intro U st Q _ _ _; rfl
  | @segment a g g' q next hs _ ih =>
    intro U st Q _ hi _
    unfold Client.run
    exact ih _ _ _ hs (inv_reset hi) trivial
  | @build a g q which rates next tracks ht hr _ ih =>
    intro U st Q hs hi _
    obtain ⟨e1, e2, e3⟩ := tracks_spec hs ht
    obtain ⟨st', y, U', e, hi', -, hready, -⟩ := buildFold_spec tracks st U (oldIndices Q) hi e2 e3 hr
    have hb : RateCache.build c (segments g) st which rates (oldIndices Q) = some (st', ⟨which, rates, y⟩) := by
      unfold RateCache.build
      simp only [e1, e, Option.bind_eq_bind, Option.bind_some, Option.pure_def]
    unfold Client.run
    rw [hb]
    refine ih U' st' (some ⟨which, rates, y⟩) hs hi' ⟨rfl, rfl, ?_⟩
    intro tracks' ht' t htm
    rw [Tracks.unique ht' ht] at htm
    exact hready t htm
  | @sample a g which rates time next tracks ht hk _ ih =>
    intro U st Q hs hi hb
    obtain ⟨e1, e2, e3⟩ := tracks_spec hs ht
    cases Q with
    | none => exact hb.elim
    | some Q =>
      obtain ⟨h1, h2, h3⟩ := hb
      subst h1 h2
      obtain ⟨st', e, hi', htr⟩ := sampleFold_spec hs hk tracks st [] hi e3 (q := Q) (h3 tracks ht)
      unfold Client.run RateCache.sample
      simp only [e1, Option.bind_eq_bind, Option.bind_some]
      rw [e]
      dsimp only
      rw [List.nil_append]
      exact ih U st' _ hs hi' ⟨rfl, rfl, fun tr htr' t htm => (h3 tr htr' t htm).mono (fun _ _ => id) (slotsOf_congr htr t)⟩

/-- **C66.** From any memory, whatever is built and sampled in any segments: with the cache, every transform is the one that sampling the
streams gives, so a client ends with the same result; and no access is out of bounds. The generation ids may wrap. -/
theorem C66_transparent {A : Type} {segments : Nat → Streams V T} {rated : Nat → Nat → Kind → Bool} {bits : List (BitVec 32)} {data : List V}
    (hb : bits.length = c.bitsetSize * c.numCached) (hd : data.length = c.trackSize * c.numCached) {client : Client V T A} {g : Nat} {a : A}
    (hs : StreamsOk c (segments g)) (h : Runs c segments rated client g none a) :
    client.run c segments g (State.fresh c bits data) none = some a :=
  run_eq h _ _ _ hs (inv_fresh hb hd) trivial

theorem scan_runs {A E : Type} [LinearOrder E] {segments : Nat → Streams V T} {rated : Nat → Nat → Kind → Bool} {g : Nat} {which : Which}
    {rates : Nat → Rates} {tracks : List Nat} (ht : Tracks c.numTransforms (segments g).parents which tracks) (time : Nat → T)
    (error : Nat → List (Nat × Transform V) → E) (threshold : E) (untilTooHigh : Bool) (next : E → Client V T A) (a : A) :
    ∀ (l : List Nat) (m : E), (∀ i ∈ l, (segments g).key (time i) < c.numSamples) →
      Runs c segments rated (next (scan (fun i => error i (tracks.map fun t => (t, freshTransform c (segments g) ((segments g).key (time i)) (rates t) t)))
        threshold untilTooHigh l m)) g (some (which, rates)) a →
      Runs c segments rated (scanSamples time error threshold untilTooHigh next l m) g (some (which, rates)) a
  | [], _, _, h => h
  | i :: rest, m, hk, h => by
    refine Runs.sample ht (hk i (by simp)) ?_
    unfold scan at h
    split at h
    · rename_i hc
      rw [if_pos hc]
      exact h
    · rename_i hc
      rw [if_neg hc]
      exact scan_runs ht time error threshold untilTooHigh next a rest _ (fun j hj => hk j (by simp [hj])) h

/-- **C66.** The measurement of a bone, local or in object space, at some point of a client: without the cache it is the largest error
(`scan`, as in the search of C62) of the transforms that sampling the streams gives. -/
theorem C66_measure {A E : Type} [LinearOrder E] {segments : Nat → Streams V T} {rated : Nat → Nat → Kind → Bool} {g : Nat}
    {q : Option (Which × (Nat → Rates))} {which : Which} {rates : Nat → Rates} {tracks : List Nat}
    (ht : Tracks c.numTransforms (segments g).parents which tracks) (hr : RatesOk c (rated g) rates tracks) (numSamples : Nat) (time : Nat → T)
    (hk : ∀ i, i < numSamples → (segments g).key (time i) < c.numSamples)
    (error : Nat → List (Nat × Transform V) → E) (threshold : E) (untilTooHigh : Bool) (zero : E) (next : E → Client V T A) (a : A)
    (h : Runs c segments rated (next (scan (fun i => error i (tracks.map fun t => (t, freshTransform c (segments g) ((segments g).key (time i)) (rates t) t)))
        threshold untilTooHigh (List.range numSamples) zero)) g (some (which, rates)) a) :
    Runs c segments rated (measure which rates numSamples time error threshold untilTooHigh zero next) g q a :=
  Runs.build ht hr (scan_runs ht time error threshold untilTooHigh next a _ _ (fun i hi => hk i (List.mem_range.1 hi)) h)

/-- **C66.** The memory of the cache is reserved for the samples of the first segment; no other segment has more. -/
theorem C66_reserved (numSamples : Nat) (settings : Segmenting.Settings) (hv : settings.isValid = true) :
    ∀ n ∈ Segmenting.segmentSizes numSamples settings, n ≤ (Segmenting.segmentSizes numSamples settings).getD 0 0 := by
  have hv' : 0 < settings.ideal ∧ settings.ideal ≤ settings.max := by
    simp only [Segmenting.Settings.isValid, Bool.and_eq_true, Bool.not_eq_true', decide_eq_false_iff_not] at hv
    omega
  intro n hn
  unfold Segmenting.segmentSizes at hn ⊢
  by_cases hN : numSamples ≤ settings.max
  · have : Segmenting.splitSamplesPerSegment numSamples settings = none := by unfold Segmenting.splitSamplesPerSegment; rw [if_pos hN]
    rw [this] at hn ⊢
    simp at hn
    simp [hn]
  · obtain ⟨E, last, hE, hlast, hle, -, hcase⟩ := Segmenting.split_cases numSamples settings hv'.1 hv'.2 (by omega)
    rcases hcase with ⟨-, sizes, es, hlen, -, hget⟩ | ⟨-, es⟩
    · rw [es] at hn ⊢
      dsimp only at hn ⊢
      obtain ⟨i, hi, rfl⟩ := List.mem_iff_getElem.1 hn
      have h0 : 0 < sizes.length := by omega
      rw [List.getD_eq_getElem?_getD, List.getElem?_eq_getElem h0, Option.getD_some, hget i hi, hget 0 h0]
      by_cases hm : 0 < last % E
      · rw [if_pos hm]
        split <;> omega
      · rw [if_neg (show ¬ i < last % E by omega)]
        omega
    · rw [es] at hn ⊢
      dsimp only at hn ⊢
      obtain ⟨k, rfl⟩ : ∃ k, E = k + 1 := ⟨E - 1, by omega⟩
      rw [List.replicate_succ] at hn ⊢
      simp only [List.cons_append, List.getD_cons_zero]
      simp only [List.cons_append, List.mem_cons, List.mem_append, List.mem_replicate, List.not_mem_nil, or_false] at hn
      omega

/-- **C66.** Whatever the time, the key frame that is sampled is one of the segment: with `C66_reserved`, the condition on the keys in `Runs` is
always met. -/
theorem C66_key_in_segment {n : Nat} {rate : ℚ} {start size : Nat} (hs : 0 < size) {time : ℚ} {k : Nat}
    (h : uniformSampleKey n rate start size time = some k) : k < size := by
  unfold uniformSampleKey at h
  rw [Option.map_eq_some_iff] at h
  obtain ⟨p, -, rfl⟩ := h
  unfold segmentKey
  split
  · unfold clampKey0
    dsimp only
    split <;> omega
  · unfold clampKey1
    dsimp only
    split <;> omega

/-! ## With the streams of a clip -/

section clip
open Acl.Compressor Acl.F32

variable {x : Input}

/-- Specification: the flags of the bones fit together, as `compact_constant_streams` leaves them (C63). -/
structure FlagsOk (x : Input) : Prop where
  default : ∀ j, j < x.parents.length → ∀ kind, ((x.bones j).flags kind).isDefault = true → ((x.bones j).flags kind).isConstant = true
  scale : x.clip.hasScale = false → ∀ j, j < x.parents.length → ((x.bones j).flags .scale).isDefault = true

/-- The error in object space of a bone depends on it and on its ancestors. -/
def OnPath {E : Type} (M : Measure E) (parents : List Nat) : Prop :=
  ∀ b path n (P P' : List Pose), RootPath parents b path → (∀ j ∈ path, P[j]? = P'[j]?) → M.objectError b n P = M.objectError b n P'

theorem streamsOf_ok (fused : Bool) (h : C65.InputOk x) (hf : FlagsOk x) (g : Nat) : StreamsOk (configOf x) (streamsOf fused x g) where
  parents := rfl
  ordered := h.ordered
  scale := fun hs t ht => hf.scale hs t ht

/-- The bit rates a sub-track can have are the ones the search gives it. -/
def ratedOf (x : Input) (_ : Nat) (t : Nat) (kind : Kind) : Bool := (kindOf x.clip (x.bones t) kind).1

theorem ratedOf_ok {rates : BitRates} {tracks : List Nat} (h : ∀ t ∈ tracks, Allowed (kindsOf x.clip (x.bones t)) (rates t)) (g : Nat) :
    RatesOk (configOf x) (ratedOf x g) rates tracks := by
  intro t ht kind _
  have key : AllowedRate (kindOf x.clip (x.bones t) kind) (RateCache.rateOf (rates t) kind) := by
    obtain ⟨a1, a2, a3⟩ := h t ht
    cases kind <;> assumption
  unfold ratedOf
  rcases key with ⟨h1, h2⟩ | ⟨h1, h2, -⟩
  · rw [h1, h2]; simp
  · rw [h1]
    constructor
    · intro _; omega
    · intro _; rfl

theorem poseOf_fresh (fused : Bool) (hf : FlagsOk x) {t : Nat} (ht : t < x.parents.length) (g key : Nat) (rates : Rates) :
    poseOf (freshTransform (configOf x) (streamsOf fused x g) key rates t) = sampled fused x.clip (x.bones t) g key rates := by
  have hkind : ∀ kind, fresh (configOf x) (streamsOf fused x g) t kind key (RateCache.rateOf rates kind) =
      sampled fused x.clip (x.bones t) g key rates kind := by
    intro kind
    funext lane
    unfold fresh sampled streamsOf configOf
    dsimp only
    by_cases hc : ((x.bones t).flags kind).isConstant = true
    · simp only [hc, if_true]
      split <;> rfl
    · have hd : ((x.bones t).flags kind).isDefault ≠ true := fun h => hc (hf.default t ht kind h)
      simp only [hc, hd, if_false]
      have hr : RateCache.rateOf rates kind = Compressor.rateOf rates kind := by cases kind <;> rfl
      rw [hr]
      by_cases hv : x.clip.isVariable kind = true
      · simp only [hv, if_true]
        rfl
      · simp only [hv]
        have hv' : x.clip.isVariable kind = false := by simpa using hv
        unfold RawBone.measured
        simp only [hv', if_true]
        rfl
  funext kind
  cases kind
  · exact hkind .rotation
  · exact hkind .translation
  · exact hkind .scale

theorem writePose_get : ∀ (out : List (Nat × Transform (Axis → ℚ))) (pose : List Pose) (j : Nat), (out.map (·.1)).Nodup →
    (∀ e ∈ out, e.1 < pose.length) →
    (writePose pose out)[j]? = match out.find? (fun e => e.1 = j) with | some e => some (poseOf e.2) | none => pose[j]?
  | [], pose, j, _, _ => rfl
  | e :: rest, pose, j, hn, hl => by
    rw [List.map_cons, List.nodup_cons] at hn
    have ih := writePose_get rest (pose.set e.1 (poseOf e.2)) j hn.2 (by intro e' h'; rw [List.length_set]; exact hl e' (by simp [h']))
    have heq : writePose pose (e :: rest) = writePose (pose.set e.1 (poseOf e.2)) rest := rfl
    rw [heq, ih, List.find?_cons]
    by_cases hj : e.1 = j
    · have hnone : rest.find? (fun e => e.1 = j) = none := by
        rw [List.find?_eq_none]
        intro e' he' h'
        apply hn.1
        rw [hj, List.mem_map]
        exact ⟨e', he', by simpa using h'⟩
      rw [hnone]
      simp only [hj, decide_true]
      rw [← hj]
      exact List.getElem?_set_self (hl e (by simp))
    · simp only [hj, decide_false]
      cases hfind : rest.find? (fun e => e.1 = j) with
      | some e' => rfl
      | none => exact List.getElem?_set_ne hj

theorem find_map {α : Type} (f : Nat → α) (j : Nat) : ∀ l : List Nat, j ∈ l → (l.map fun t => (t, f t)).find? (fun e => e.1 = j) = some (j, f j)
  | [], h => by simp at h
  | a :: rest, h => by
    rw [List.map_cons, List.find?_cons]
    by_cases hj : a = j
    · subst hj; simp
    · simp only [hj, decide_false]
      exact find_map f j rest (by simpa [Ne.symm hj] using h)

theorem writePose_fresh (fused : Bool) (hf : FlagsOk x) {g : Nat} {tracks : List Nat} (hn : tracks.Nodup) (hlt : ∀ t ∈ tracks, t < x.parents.length)
    {pose : List Pose} (hp : pose.length = x.parents.length) (rates : BitRates) (key : Nat) {j : Nat} (hj : j ∈ tracks) :
    (writePose pose (tracks.map fun t => (t, freshTransform (configOf x) (streamsOf fused x g) key (rates t) t)))[j]? =
      some (sampled fused x.clip (x.bones j) g key (rates j)) := by
  rw [writePose_get]
  · rw [find_map (fun t => freshTransform (configOf x) (streamsOf fused x g) key (rates t) t) j tracks hj]
    dsimp only
    rw [poseOf_fresh fused hf (hlt j hj)]
  · rw [List.map_map]
    simpa [Function.comp_def] using hn
  · intro e he
    obtain ⟨t, ht, rfl⟩ := List.mem_map.1 he
    rw [hp]
    exact hlt t ht

theorem scan_congr {E : Type} [LinearOrder E] {e e' : Nat → E} (thr : E) (stop : Bool) : ∀ (l : List Nat) (m : E), (∀ i ∈ l, e i = e' i) →
    scan e thr stop l m = scan e' thr stop l m
  | [], _, _ => rfl
  | i :: rest, m, h => by
    unfold scan
    rw [h i (by simp), scan_congr thr stop rest _ fun j hj => h j (by simp [hj])]

theorem key_in_bounds (fused : Bool) (h : C65.InputOk x) {g : Nat} (hg : g < x.clip.sizes.length) (time : ℚ) :
    (streamsOf fused x g).key time < (configOf x).numSamples := by
  have hset := h.clip.settings
  have hpos : 0 < x.clip.sizes.getD g 0 := by
    have := h.clip.size_pos hg
    exact this
  have hle : x.clip.sizes.getD g 0 ≤ x.clip.sizes.getD 0 0 := by
    refine C66_reserved x.clip.numSamples x.clip.segmenting hset.1 _ ?_
    rw [List.getD_eq_getElem?_getD, List.getElem?_eq_getElem hg]
    exact List.getElem_mem _
  show (uniformSampleKey _ _ _ _ time).getD 0 < x.clip.sizes.getD 0 0
  cases hk : uniformSampleKey x.clip.numSamples x.sampleRate (x.clip.start g) (x.clip.sizes.getD g 0) time with
  | none => simp only [Option.getD_none]; omega
  | some k => have := C66_key_in_segment hpos hk; simp only [Option.getD_some]; omega

/-- **C66.** Measuring a bone in object space through the cache is what the search of C62 and C65 takes it to be: whatever was built,
sampled and left in the pose before. -/
theorem C66_object {E A : Type} [LinearOrder E] (M : Measure E) (fused : Bool) (h : C65.InputOk x) (hf : FlagsOk x) (hM : OnPath M x.parents)
    {g : Nat} (hg : g < x.clip.sizes.length) {rates : BitRates} (hr : ∀ j, j < x.parents.length → Allowed (kindsOf x.clip (x.bones j)) (rates j))
    {bone : Nat} (hb : bone < x.parents.length) (untilTooHigh : Bool) {pose : List Pose} (hp : pose.length = x.parents.length)
    (q : Option (Which × (Nat → Rates))) (next : E → Client (Axis → ℚ) ℚ A) (a : A)
    (hn : Runs (configOf x) (streamsOf fused x) (ratedOf x) (next (objectMax (setupOf M fused x g) rates bone untilTooHigh)) g
      (some (.chain bone, rates)) a) :
    Runs (configOf x) (streamsOf fused x) (ratedOf x) (measureObject M x g rates bone untilTooHigh pose next) g q a := by
  obtain ⟨path, hpath⟩ := RootPath.exists_of_ordered h.ordered hb
  have ht : Tracks (configOf x).numTransforms (streamsOf fused x g).parents (.chain bone) path.reverse := Tracks.chain hpath
  obtain ⟨-, hnd, hlt⟩ := tracks_spec (streamsOf_ok fused h hf g) ht
  refine C66_measure ht (ratedOf_ok (fun t htm => hr t (hlt t htm)) g) _ _ (fun i _ => key_in_bounds fused h hg _) _ _ _ _ _ _ ?_
  have e : scan (fun i => M.objectError bone (x.clip.start g + i) (writePose pose (path.reverse.map fun t =>
        (t, freshTransform (configOf x) (streamsOf fused x g) ((streamsOf fused x g).key (sampleTime x.sampleRate x.duration (x.clip.start g) i)) (rates t) t))))
      (M.precision bone) untilTooHigh (List.range (x.clip.sizes.getD g 0)) M.zero = objectMax (setupOf M fused x g) rates bone untilTooHigh := by
    unfold objectMax
    refine scan_congr _ _ _ _ fun i hi => ?_
    refine hM bone path _ _ _ hpath fun j hj => ?_
    rw [writePose_fresh fused hf hnd hlt hp rates _ (List.mem_reverse.2 hj)]
    rw [List.getElem?_map, List.getElem?_range (hpath.all_lt j hj)]
    rfl
  rw [e]
  exact hn

/-- **C66.** The same in local space. -/
theorem C66_local {E A : Type} [LinearOrder E] (M : Measure E) (fused : Bool) (h : C65.InputOk x) (hf : FlagsOk x)
    {g : Nat} (hg : g < x.clip.sizes.length) {rates : BitRates} (hr : ∀ j, j < x.parents.length → Allowed (kindsOf x.clip (x.bones j)) (rates j))
    {bone : Nat} (hb : bone < x.parents.length) {pose : List Pose} (hp : pose.length = x.parents.length)
    (q : Option (Which × (Nat → Rates))) (next : E → Client (Axis → ℚ) ℚ A) (a : A)
    (hn : Runs (configOf x) (streamsOf fused x) (ratedOf x) (next (localMax (setupOf M fused x g) bone (rates bone))) g
      (some (.single bone, rates)) a) :
    Runs (configOf x) (streamsOf fused x) (ratedOf x) (measureLocal M x g rates bone pose next) g q a := by
  have ht : Tracks (configOf x).numTransforms (streamsOf fused x g).parents (.single bone) [bone] := Tracks.single hb
  obtain ⟨-, hnd, hlt⟩ := tracks_spec (streamsOf_ok fused h hf g) ht
  refine C66_measure ht (ratedOf_ok (fun t htm => hr t (hlt t htm)) g) _ _ (fun i _ => key_in_bounds fused h hg _) _ _ _ _ _ _ ?_
  have e : scan (fun i => M.localError bone (x.clip.start g + i) ((writePose pose ([bone].map fun t =>
        (t, freshTransform (configOf x) (streamsOf fused x g) ((streamsOf fused x g).key (sampleTime x.sampleRate x.duration (x.clip.start g) i)) (rates t) t))).getD bone fun _ _ => 0))
      (M.precision bone) true (List.range (x.clip.sizes.getD g 0)) M.zero = localMax (setupOf M fused x g) bone (rates bone) := by
    unfold localMax
    refine scan_congr _ _ _ _ fun i hi => ?_
    rw [List.getD_eq_getElem?_getD, writePose_fresh fused hf hnd hlt hp rates _ (List.mem_singleton.2 rfl)]
    rfl
  rw [e]
  exact hn

theorem ex_flags : FlagsOk C65.exInput where
  default := fun j _ kind => by
    show (C65.exBone.flags kind).isDefault = true → (C65.exBone.flags kind).isConstant = true
    cases kind <;> decide
  scale := fun h => by cases h

theorem ex_path : OnPath C65.exMeasure C65.exInput.parents := by
  intro b path n P P' hp h
  have h0 : path = [0] := by
    have hp0 : RootPath C65.exInput.parents 0 [0] := RootPath.root rfl
    have hb : b = 0 := by have := hp.lt; simp [C65.exInput] at this; exact this
    subst hb
    exact hp.unique hp0
  subst h0
  show C65.exError n (P.getD 0 _) = C65.exError n (P'.getD 0 _)
  rw [List.getD_eq_getElem?_getD, List.getD_eq_getElem?_getD, h 0 (by simp)]

/-- The cache, on the clip of C65: the translation is measured at bit rate 5 in object space, at 24 in local space, then at 5 again. -/
example (bits : List (BitVec 32)) (data : List (Axis → ℚ)) (hb : bits.length = 12) (hd : data.length = 48) :
    (measureObject C65.exMeasure C65.exInput 0 (fun _ => ⟨255, 5, 255⟩) 0 true [fun _ _ => 7] fun e1 =>
      measureLocal C65.exMeasure C65.exInput 0 (fun _ => ⟨255, 24, 255⟩) 0 [fun _ _ => 8] fun e2 =>
      measureObject C65.exMeasure C65.exInput 0 (fun _ => ⟨255, 5, 255⟩) 0 false [fun _ _ => 9] fun e3 => .done (e1, e2, e3)).run
        (configOf C65.exInput) (streamsOf false C65.exInput) 0 (State.fresh (configOf C65.exInput) bits data) none =
      some ((1 : ℚ), (0 : ℚ), (1 : ℚ)) := by
  have hg : 0 < C65.exInput.clip.sizes.length := by decide +kernel
  have hr : ∀ q, 0 < q → q ≤ 24 → ∀ j, j < C65.exInput.parents.length →
      Allowed (kindsOf C65.exInput.clip (C65.exInput.bones j)) ⟨255, q, 255⟩ := by
    intro q h0 h1 j _
    have hk : kindsOf C65.exInput.clip (C65.exInput.bones j) = ⟨(false, false), (true, false), (false, false)⟩ := by
      have a1 : kindOf C65.exInput.clip C65.exBone .rotation = (false, false) := by decide +kernel
      have a2 : kindOf C65.exInput.clip C65.exBone .translation = (true, false) := by decide +kernel
      have a3 : kindOf C65.exInput.clip C65.exBone .scale = (false, false) := by decide +kernel
      show kindsOf C65.exInput.clip C65.exBone = _
      unfold kindsOf
      rw [a1, a2, a3]
    rw [hk]
    exact ⟨Or.inl ⟨rfl, rfl⟩, Or.inr ⟨rfl, h1, fun h => by simp at h; omega⟩, Or.inl ⟨rfl, rfl⟩⟩
  have e1 : objectMax (setupOf C65.exMeasure false C65.exInput 0) (fun _ => ⟨255, 5, 255⟩) 0 true = 1 := by decide +kernel
  have e2 : localMax (setupOf C65.exMeasure false C65.exInput 0) 0 ⟨255, 24, 255⟩ = 0 := by decide +kernel
  have e3 : objectMax (setupOf C65.exMeasure false C65.exInput 0) (fun _ => ⟨255, 5, 255⟩) 0 false = 1 := by decide +kernel
  have hn : (configOf C65.exInput).numSamples = 3 := by decide +kernel
  refine C66_transparent (rated := ratedOf C65.exInput) ?_ ?_ (streamsOf_ok false C65.exInput_ok ex_flags 0) ?_
  · rw [hb]; unfold Config.bitsetSize; rw [hn]; rfl
  · rw [hd]; unfold Config.trackSize; rw [hn]; rfl
  · refine C66_object _ false C65.exInput_ok ex_flags ex_path hg (hr 5 (by omega) (by omega)) (by decide) true rfl _ _ _ ?_
    refine C66_local _ false C65.exInput_ok ex_flags hg (hr 24 (by omega) (by omega)) (by decide) rfl _ _ _ ?_
    refine C66_object _ false C65.exInput_ok ex_flags ex_path hg (hr 5 (by omega) (by omega)) (by decide) false rfl _ _ _ ?_
    rw [e1, e2, e3]
    exact .done

end clip

/-! ## Findings and an example -/

/-- Two bones; a rotation of the first has a bit rate -/
def exConfig : Config := { numTransforms := 2, numSamples := 3, hasScale := false, isVariable := fun _ => true }

def exStreams : Streams Nat Nat where
  isDefault := fun _ k => decide (k = .scale)
  isConstant := fun t k => decide (t = 1 ∧ k = .translation)
  default := fun _ _ => 0
  constant := fun t _ => 7 + t
  sampleAt := fun t k key rate => 1000 * t + 100 * kindIndex k + 10 * key + rate
  sampleFull := fun _ _ _ => 0
  key := id
  parents := [0xFFFFFFFF, 0]

def exBits : List (BitVec 32) := List.replicate 16 0xFFFFFFFF#32
def exData : List Nat := List.replicate 64 12345

def exRates (r : Nat) : Nat → Rates := fun t => if t = 0 then ⟨r, 3, 255⟩ else ⟨r, 255, 255⟩

/-- A client that looks at what it got -/
def exClient : Client Nat Nat (List (List (Nat × Transform Nat))) :=
  .build (.chain 1) (exRates 1) <| .sample 2 fun a => .build (.chain 1) (exRates 2) <| .sample 2 fun b => .segment 0 <|
    .build .every (exRates (a.length)) <| .sample 2 fun d => .sample 2 fun e => .done [a, b, d, e]

def exRated : Nat → Nat → Kind → Bool := fun _ t k =>
  match k with
  | .rotation => true
  | .translation => decide (t = 0)
  | .scale => false

theorem exStreams_ok : StreamsOk exConfig exStreams where
  parents := rfl
  ordered := by
    intro i p h
    rcases i with _ | _ | i
    · left; simp [exStreams] at h; simp [Raw.invalidIndex, ← h]
    · right; simp [exStreams] at h; omega
    · simp [exStreams] at h
  scale := fun _ _ _ => rfl

theorem exRates_ok (r : Nat) (hr : r ≠ 255) (l : List Nat) (hl : ∀ t ∈ l, t < 2) : RatesOk exConfig (exRated 0) (exRates r) l := by
  intro t ht kind hk
  have := hl t ht
  obtain rfl | rfl : t = 0 ∨ t = 1 := by omega
  · cases kind
    · simpa [exRated, exRates, rateOf] using hr
    · simp [exRated, exRates, rateOf]
    · exact absurd (hk rfl) (by simp [exConfig])
  · cases kind
    · simpa [exRated, exRates, rateOf] using hr
    · simp [exRated, exRates, rateOf]
    · exact absurd (hk rfl) (by simp [exConfig])

example : ∃ a, Runs exConfig (fun _ => exStreams) exRated exClient 0 none a ∧
    exClient.run exConfig (fun _ => exStreams) 0 (State.fresh exConfig exBits exData) none = some a := by
  have path : RootPath exStreams.parents 1 [0, 1] := RootPath.child (p := 0) rfl (by decide) (RootPath.root rfl)
  have hc : Tracks exConfig.numTransforms exStreams.parents (.chain 1) [1, 0] := Tracks.chain path
  have hall : Tracks exConfig.numTransforms exStreams.parents .every [0, 1] := Tracks.every
  have hr : Runs exConfig (fun _ => exStreams) exRated exClient 0 none _ :=
    .build hc (exRates_ok 1 (by omega) _ (by simp)) <| .sample hc (by decide) <| .build hc (exRates_ok 2 (by omega) _ (by simp)) <| .sample hc (by decide) <|
      .segment exStreams_ok <| .build hall (exRates_ok 2 (by omega) _ (by simp)) <| .sample hall (by decide) <| .sample hall (by decide) .done
  exact ⟨_, hr, C66_transparent (by decide) (by decide) exStreams_ok hr⟩

/-- Building queries one after the other, for the rotation of the first bone -/
def exBuilds : List Nat → State Nat → Option (State Nat × List Nat)
  | [], st => some (st, [])
  | r :: rest, st => do
    let (st, i) ← findEntry exConfig st 0 .rotation r
    let (st, l) ← exBuilds rest st
    pure (st, i :: l)

/-- **C66, finding.** The slot that is replaced is the first one filled, not the least recently used one as documented
(track_bit_rate_database.h:213): using a bit rate again does not make it younger. After 1, 2, 3, 4 and 1 again, 5 takes the
place of 1, and then 1 that of 2. -/
theorem C66_fifo_finding : (exBuilds [1, 2, 3, 4, 1, 5, 1] (State.fresh exConfig exBits exData)).map (·.2) = some [0, 1, 2, 3, 0, 0, 1] := by
  decide +kernel

/-- Sample the rotation of the first bone at a key frame, with an index that was found before -/
def exSample (rate index : Nat) (st : State Nat) : Option (State Nat × Nat) := sampleSub exConfig exStreams st .rotation 0 2 rate index

/-- **C66, finding.** A query that is sampled after another one was built, without building it again, can spoil the cache for good: here the query
with bit rate 1 is sampled again after the bit rates 2, 3, 4 and 5 were built; later bit rate 5 gives the sample of bit rate 1. The
compressor builds before it samples each time. -/
theorem C66_stale_query_finding : ∃ st1 st2 st3 st4 v,
    (exBuilds [1, 2, 3, 4, 5] (State.fresh exConfig exBits exData)) = some (st1, [0, 1, 2, 3, 0]) ∧
    exSample 1 0 st1 = some (st2, 21) ∧ exBuilds [5] st2 = some (st3, [0]) ∧ exSample 5 0 st3 = some (st4, v) ∧
    v = 21 ∧ fresh exConfig exStreams 0 .rotation 2 5 = 25 := by
  refine ⟨_, _, _, _, 21, rfl, rfl, rfl, rfl, rfl, rfl⟩

end Acl.C66
