import Verif.Raw.TrackMemory
import Mathlib.Tactic.Linarith
import Mathlib.Tactic.NthRewrite
/-
C75: the memory of raw tracks, for every history of operations.
-/
namespace Acl.C75
open Acl.TrackMemory

/-! ## Specification -/

/-- The track owns its memory (track.h is_owner). -/
def Owner (track : Track) : Prop := ∃ a, track.allocator = some a

/-- A sample of a track can be read. -/
def Readable (s : State) (track : Track) (i : Nat) : Prop :=
  ∃ p bytes, address track i = some p ∧ readBytes s.heap p.1 p.2 track.sampleSize = some bytes

/-- What get_copy needs of a track that does not own its memory: the whole buffer of `stride` bytes per sample can be read
and the samples are in it. -/
def Whole (s : State) (track : Track) : Prop :=
  (∃ bytes, copied s.heap track = some bytes) ∧
  ∀ i < track.numSamples, Readable s track i ∧ i * track.stride + track.sampleSize ≤ track.dataSize

/-- The obligations of a client: variables are constructed once, sources live, memory passed to make_copy can be read,
memory passed to make_owner is an allocation of that allocator and size that the client gives away, memory passed to
make_ref is there at that time, a client frees what it holds. A client may only use a sample of a reference while the referenced memory is there. Nothing is asked about samples
of tracks that own their memory. -/
def Client (s : State) : Op → Prop
  | .buffer _ => True
  | .allocate _ _ => True
  | .free b => s.held b = true
  | .empty t => s.tracks t = none
  | .makeCopy t _ b offset n stride size =>
    s.tracks t = none ∧ ∀ i < n, ∃ bytes, readBytes s.heap b (offset + i * stride) size = some bytes
  | .makeReserve t _ n size bytes => s.tracks t = none ∧ bytes.length = n * size
  | .makeOwner t a b n stride size => s.tracks t = none ∧ s.held b = true ∧
    (∃ bytes, s.heap b = some ⟨some a, bytes⟩ ∧ bytes.length = n * stride) ∧ (n = 0 ∨ size ≤ stride)
  | .makeRef t b _ _ _ _ => s.tracks t = none ∧ ∃ k, s.heap b = some k
  | .getCopy t source _ => s.tracks t = none ∧ ∃ track, s.tracks source = some track ∧ (Owner track ∨ Whole s track)
  | .getRef t source => s.tracks t = none ∧ ∃ track, s.tracks source = some track
  | .moveConstruct t source => s.tracks t = none ∧ ∃ track, s.tracks source = some track
  | .moveAssign t source => (∃ track, s.tracks t = some track) ∧ ∃ track, s.tracks source = some track
  | .destroy t => ∃ track, s.tracks t = some track
  | .write t i bytes => ∃ track, s.tracks t = some track ∧ i < track.numSamples ∧ bytes.length = track.sampleSize ∧
    (Owner track ∨ Readable s track i)

/-- The states a program can be in: clients meet their obligations. -/
inductive Reachable : State → Prop
  | start : Reachable start
  | step {s s' : State} {op : Op} : Reachable s → Client s op → step s op = some s' → Reachable s'

/-- A history from a state to another one in which the client meets its obligations and every operation is of a kind. -/
inductive History (kind : Op → Prop) : State → State → Prop
  | nil {s : State} : History kind s s
  | cons {s s' s'' : State} {op : Op} : Client s op → kind op → step s op = some s' → History kind s' s'' →
      History kind s s''

/-- No other track sees the memory of the track in a variable. -/
def Private (s : State) (t : Nat) : Prop :=
  ∃ x b o, s.tracks t = some x ∧ Owner x ∧ x.data = some (b, o) ∧
    ∀ u y, u ≠ t → s.tracks u = some y → ∀ p, y.data = some p → p.1 ≠ b

/-- Operations that leave a track and its memory (block `b`) alone: they do not construct, destroy, move, write or refer to
it. Copying it is allowed. -/
def Avoids (t b : Nat) : Op → Prop
  | .buffer _ => True
  | .allocate _ _ => True
  | .free _ => True
  | .empty u => u ≠ t
  | .makeCopy u _ _ _ _ _ _ => u ≠ t
  | .makeReserve u _ _ _ _ => u ≠ t
  | .makeOwner u _ _ _ _ _ => u ≠ t
  | .makeRef u c _ _ _ _ => u ≠ t ∧ c ≠ b
  | .getCopy u _ _ => u ≠ t
  | .getRef u v => u ≠ t ∧ v ≠ t
  | .moveConstruct u v => u ≠ t ∧ v ≠ t
  | .moveAssign u v => u ≠ t ∧ v ≠ t
  | .destroy u => u ≠ t
  | .write u _ _ => u ≠ t

/-! ## Proofs -/

/-- An owner and its block. -/
def OwnerOk (s : State) (track : Track) (a : Nat) : Prop :=
  ∃ b k, track.data = some (b, 0) ∧ s.heap b = some k ∧ k.allocator = some a ∧ k.bytes.length = track.dataSize ∧
    s.held b = false ∧ ∀ i < track.numSamples, i * track.stride + track.sampleSize ≤ track.dataSize

structure Inv (s : State) : Prop where
  owner : ∀ t track a, s.tracks t = some track → track.allocator = some a → OwnerOk s track a
  distinct : ∀ t u x y, t ≠ u → s.tracks t = some x → s.tracks u = some y → Owner x → Owner y → x.data ≠ y.data
  covered : ∀ b k a, s.heap b = some k → k.allocator = some a →
    s.held b = true ∨ ∃ t track, s.tracks t = some track ∧ Owner track ∧ track.data = some (b, 0)
  fresh : ∀ b, s.next ≤ b → s.heap b = none
  held : ∀ b, s.held b = true → ∃ k, s.heap b = some k
  known : ∀ t x p, s.tracks t = some x → x.data = some p → p.1 < s.next

theorem inv_start : Inv start where
  owner := by intro t track a h; cases h
  distinct := by intro t u x y _ h; cases h
  covered := by intro b k a h; cases h
  fresh := by intro b _; rfl
  held := by intro b h; cases h
  known := by intro t x p h; cases h

theorem readBytes_length {h : Heap} {b o n : Nat} {l : List Byte} (hr : readBytes h b o n = some l) : l.length = n := by
  unfold readBytes at hr
  cases hb : h b with
  | none => rw [hb] at hr; cases hr
  | some k =>
    rw [hb, Option.bind_some] at hr
    split at hr
    · cases hr; rw [List.length_take, List.length_drop]; omega
    · cases hr

theorem readBytes_some {h : Heap} {b o n : Nat} {k : Block} (hb : h b = some k) (hn : o + n ≤ k.bytes.length) :
    readBytes h b o n = some ((k.bytes.drop o).take n) := by
  unfold readBytes; rw [hb, Option.bind_some, if_pos hn]

theorem gather_some {h : Heap} {b o st sz : Nat} : ∀ {n : Nat},
    (∀ i < n, ∃ bytes, readBytes h b (o + i * st) sz = some bytes) → ∃ l, gather h b o st sz n = some l ∧ l.length = n * sz := by
  intro n
  induction n with
  | zero => intro _; exact ⟨[], rfl, by simp⟩
  | succ n ih =>
    intro hn
    obtain ⟨l, h1, h2⟩ := ih (fun i hi => hn i (by omega))
    obtain ⟨x, hx⟩ := hn n (by omega)
    refine ⟨l ++ x, by simp only [gather, h1, hx, Option.bind_some, Option.map_some], ?_⟩
    rw [List.length_append, h2, readBytes_length hx, Nat.succ_mul]

/-- A block that is new is not used by an owner. -/
theorem owner_lt {s : State} (hi : Inv s) {t b o : Nat} {x : Track} (ht : s.tracks t = some x) (hx : Owner x)
    (hd : x.data = some (b, o)) : b < s.next := by
  obtain ⟨a, ha⟩ := hx
  obtain ⟨b', k, h1, h2, -⟩ := hi.owner t x a ht ha
  rw [h1] at hd; cases hd
  by_contra hb
  rw [hi.fresh b (by omega)] at h2; cases h2

theorem inv_new {s : State} (hi : Inv s) {t a : Nat} {bytes : List Byte} {x : Track} (ht : s.tracks t = none)
    (ha : x.allocator = some a) (hd : x.data = some (s.next, 0)) (hl : bytes.length = x.dataSize)
    (hs : ∀ i < x.numSamples, i * x.stride + x.sampleSize ≤ x.dataSize) : Inv (put (allocate s a bytes) t x) where
  owner := by
    intro u y c hu hc
    simp only [put, allocate, Function.update_apply] at hu
    split at hu
    · cases hu
      rw [ha] at hc; cases hc
      refine ⟨s.next, ⟨some a, bytes⟩, hd, by simp [put, allocate], rfl, hl, ?_, hs⟩
      by_contra hh
      obtain ⟨k, hk⟩ := hi.held s.next (by simpa [put, allocate] using hh)
      rw [hi.fresh _ le_rfl] at hk; cases hk
    · obtain ⟨b, k, h1, h2, h3⟩ := hi.owner u y c hu hc
      have hb := owner_lt hi hu ⟨c, hc⟩ h1
      exact ⟨b, k, h1, by simp only [put, allocate, Function.update_apply]; rw [if_neg (by omega)]; exact h2, h3⟩
  distinct := by
    intro u v y z huv hu hv hy hz
    simp only [put, allocate, Function.update_apply] at hu hv
    split at hu
    · rw [if_neg (by omega)] at hv
      cases hu
      obtain ⟨c, hc⟩ := hz
      obtain ⟨b, k, h1, -⟩ := hi.owner v z c hv hc
      have hb := owner_lt hi hv ⟨c, hc⟩ h1
      rw [hd, h1]; intro h; cases h; omega
    · split at hv
      · cases hv
        obtain ⟨c, hc⟩ := hy
        obtain ⟨b, k, h1, -⟩ := hi.owner u y c hu hc
        have hb := owner_lt hi hu ⟨c, hc⟩ h1
        rw [hd, h1]; intro h; cases h; omega
      · exact hi.distinct u v y z huv hu hv hy hz
  covered := by
    intro b k c hb hc
    simp only [put, allocate, Function.update_apply] at hb
    split at hb
    · rename_i hbn
      right
      exact ⟨t, x, by simp [put], ⟨a, ha⟩, by rw [hd, hbn]⟩
    · rcases hi.covered b k c hb hc with h | ⟨u, y, hu, hy, hyd⟩
      · left; exact h
      · right
        refine ⟨u, y, ?_, hy, hyd⟩
        simp only [put, allocate, Function.update_apply]
        rw [if_neg (by rintro rfl; rw [ht] at hu; cases hu)]; exact hu
  fresh := by
    intro b hb
    simp only [put, allocate] at hb ⊢
    rw [Function.update_apply, if_neg (by omega)]
    exact hi.fresh b (by omega)
  held := by
    intro b hb
    obtain ⟨k, hk⟩ := hi.held b hb
    have : b ≠ s.next := by rintro rfl; rw [hi.fresh _ le_rfl] at hk; cases hk
    exact ⟨k, by simp only [put, allocate, Function.update_apply]; rw [if_neg this]; exact hk⟩
  known := by
    intro u y p hu hp
    simp only [put, allocate, Function.update_apply] at hu ⊢
    split at hu
    · cases hu; rw [hd] at hp; cases hp; simp
    · have := hi.known u y p hu hp; omega

theorem inv_ref {s : State} (hi : Inv s) {t : Nat} {x : Track} (ht : s.tracks t = none) (ha : x.allocator = none)
    (hk : ∀ p, x.data = some p → p.1 < s.next) : Inv (put s t x) where
  owner := by
    intro u y c hu hc
    simp only [put, Function.update_apply] at hu
    split at hu
    · cases hu; rw [ha] at hc; cases hc
    · exact hi.owner u y c hu hc
  distinct := by
    intro u v y z huv hu hv hy hz
    simp only [put, Function.update_apply] at hu hv
    split at hu
    · cases hu; obtain ⟨c, hc⟩ := hy; rw [ha] at hc; cases hc
    · split at hv
      · cases hv; obtain ⟨c, hc⟩ := hz; rw [ha] at hc; cases hc
      · exact hi.distinct u v y z huv hu hv hy hz
  covered := by
    intro b k c hb hc
    rcases hi.covered b k c hb hc with h | ⟨u, y, hu, hy, hyd⟩
    · left; exact h
    · right
      refine ⟨u, y, ?_, hy, hyd⟩
      simp only [put, Function.update_apply]
      rw [if_neg (by rintro rfl; rw [ht] at hu; cases hu)]; exact hu
  fresh := hi.fresh
  held := hi.held
  known := by
    intro u y p hu hp
    simp only [put, Function.update_apply] at hu ⊢
    split at hu
    · cases hu; exact hk p hp
    · exact hi.known u y p hu hp

theorem inv_buffer {s : State} (hi : Inv s) (bytes : List Byte) :
    Inv { s with heap := Function.update s.heap s.next (some ⟨none, bytes⟩), next := s.next + 1 } where
  owner := by
    intro u y c hu hc
    obtain ⟨b, k, h1, h2, h3⟩ := hi.owner u y c hu hc
    have hb := owner_lt hi hu ⟨c, hc⟩ h1
    exact ⟨b, k, h1, by simp only [Function.update_apply]; rw [if_neg (by omega)]; exact h2, h3⟩
  distinct := hi.distinct
  covered := by
    intro b k c hb hc
    simp only [Function.update_apply] at hb
    split at hb
    · cases hb; cases hc
    · exact hi.covered b k c hb hc
  fresh := by
    intro b hb
    simp only at hb ⊢
    rw [Function.update_apply, if_neg (by omega)]
    exact hi.fresh b (by omega)
  held := by
    intro b hb
    obtain ⟨k, hk⟩ := hi.held b hb
    have : b ≠ s.next := by rintro rfl; rw [hi.fresh _ le_rfl] at hk; cases hk
    exact ⟨k, by simp only [Function.update_apply]; rw [if_neg this]; exact hk⟩
  known := by
    intro u y p hu hp
    have := hi.known u y p hu hp
    simp only; omega

theorem inv_allocate {s : State} (hi : Inv s) (a : Nat) (bytes : List Byte) :
    Inv { allocate s a bytes with held := Function.update s.held s.next true } where
  owner := by
    intro u y c hu hc
    obtain ⟨b, k, h1, h2, h3, h4, h5, h6⟩ := hi.owner u y c hu hc
    have hb := owner_lt hi hu ⟨c, hc⟩ h1
    refine ⟨b, k, h1, ?_, h3, h4, ?_, h6⟩
    · simp only [allocate, Function.update_apply]; rw [if_neg (by omega)]; exact h2
    · simp only [Function.update_apply]; rw [if_neg (by omega)]; exact h5
  distinct := hi.distinct
  covered := by
    intro b k c hb hc
    simp only [allocate, Function.update_apply] at hb
    simp only [allocate, Function.update_apply]
    split at hb
    · left; rename_i h; rw [if_pos h]
    · rename_i h; rw [if_neg h]; exact hi.covered b k c hb hc
  fresh := by
    intro b hb
    simp only [allocate] at hb ⊢
    rw [Function.update_apply, if_neg (by omega)]
    exact hi.fresh b (by omega)
  held := by
    intro b hb
    simp only [Function.update_apply, allocate] at hb ⊢
    split at hb
    · rename_i h; exact ⟨_, by rw [if_pos h]⟩
    · rename_i h; rw [if_neg h]; exact hi.held b hb
  known := by
    intro u y p hu hp
    have := hi.known u y p hu hp
    simp only [allocate]; omega

theorem inv_free {s : State} (hi : Inv s) {b : Nat} (hb : s.held b = true) :
    Inv { s with heap := Function.update s.heap b none, held := Function.update s.held b false } where
  owner := by
    intro u y c hu hc
    obtain ⟨d, k, h1, h2, h3, h4, h5, h6⟩ := hi.owner u y c hu hc
    have hne : d ≠ b := by rintro rfl; rw [hb] at h5; cases h5
    refine ⟨d, k, h1, ?_, h3, h4, ?_, h6⟩
    · simp only [Function.update_apply]; rw [if_neg hne]; exact h2
    · simp only [Function.update_apply]; rw [if_neg hne]; exact h5
  distinct := hi.distinct
  covered := by
    intro d k c hd hc
    simp only [Function.update_apply] at hd ⊢
    split at hd
    · cases hd
    · rename_i h; rw [if_neg h]; exact hi.covered d k c hd hc
  fresh := by
    intro d hd
    simp only [Function.update_apply]
    split
    · rfl
    · exact hi.fresh d hd
  held := by
    intro d hd
    simp only [Function.update_apply] at hd ⊢
    split at hd
    · cases hd
    · rename_i h; rw [if_neg h]; exact hi.held d hd
  known := hi.known

theorem inv_give {s : State} (hi : Inv s) {t a b : Nat} {x : Track} {bytes : List Byte} (ht : s.tracks t = none)
    (hh : s.held b = true) (hb : s.heap b = some ⟨some a, bytes⟩) (ha : x.allocator = some a) (hd : x.data = some (b, 0))
    (hl : bytes.length = x.dataSize) (hs : ∀ i < x.numSamples, i * x.stride + x.sampleSize ≤ x.dataSize) :
    Inv { put s t x with held := Function.update s.held b false } where
  owner := by
    intro u y c hu hc
    simp only [put, Function.update_apply] at hu
    split at hu
    · cases hu
      rw [ha] at hc; cases hc
      exact ⟨b, _, hd, hb, rfl, hl, by simp, hs⟩
    · obtain ⟨d, k, h1, h2, h3, h4, h5, h6⟩ := hi.owner u y c hu hc
      refine ⟨d, k, h1, h2, h3, h4, ?_, h6⟩
      simp only [Function.update_apply]
      split
      · rfl
      · exact h5
  distinct := by
    intro u v y z huv hu hv hy hz
    have key : ∀ w q, s.tracks w = some q → Owner q → x.data ≠ q.data := by
      rintro w q hw ⟨c, hc⟩
      obtain ⟨d, k, h1, h2, h3, h4, h5, h6⟩ := hi.owner w q c hw hc
      rw [hd, h1]; intro h; cases h; rw [hh] at h5; cases h5
    simp only [put, Function.update_apply] at hu hv
    split at hu
    · rw [if_neg (by omega)] at hv
      cases hu
      exact key v z hv hz
    · split at hv
      · cases hv; exact (key u y hu hy).symm
      · exact hi.distinct u v y z huv hu hv hy hz
  covered := by
    intro d k c hd' hc
    by_cases hdb : d = b
    · right; subst hdb; exact ⟨t, x, by simp [put], ⟨a, ha⟩, hd⟩
    · rcases hi.covered d k c hd' hc with h | ⟨u, y, hu, hy, hyd⟩
      · left; simp only [Function.update_apply]; rw [if_neg hdb]; exact h
      · right
        refine ⟨u, y, ?_, hy, hyd⟩
        simp only [put, Function.update_apply]
        rw [if_neg (by rintro rfl; rw [ht] at hu; cases hu)]; exact hu
  fresh := hi.fresh
  held := by
    intro d hd'
    simp only [Function.update_apply] at hd'
    split at hd'
    · cases hd'
    · exact hi.held d hd'
  known := by
    intro u y p hu hp
    simp only [put, Function.update_apply] at hu ⊢
    split at hu
    · cases hu; rw [hd] at hp; cases hp
      by_contra hlt
      rw [hi.fresh b (by simp only at hlt; omega)] at hb; cases hb
    · exact hi.known u y p hu hp

/-- Swapping two variables. -/
theorem inv_swap {s : State} (hi : Inv s) {t u : Nat} {x y : Track} (ht : s.tracks t = some x) (hu : s.tracks u = some y) :
    Inv (put (put s u x) t y) := by
  have back : ∀ v z, (put (put s u x) t y).tracks v = some z →
      s.tracks (if v = t then u else if v = u then t else v) = some z := by
    intro v z hv
    simp only [put, Function.update_apply] at hv
    by_cases h1 : v = t
    · rw [if_pos h1] at hv ⊢; cases hv; exact hu
    · rw [if_neg h1] at hv ⊢
      by_cases h2 : v = u
      · rw [if_pos h2] at hv ⊢; cases hv; exact ht
      · rw [if_neg h2] at hv ⊢; exact hv
  exact {
    owner := by intro v z c hv hc; exact hi.owner _ z c (back v z hv) hc
    distinct := by
      intro v w p q hvw hv hw hp hq
      refine hi.distinct _ _ p q ?_ (back v p hv) (back w q hw) hp hq
      by_cases h1 : v = t <;> by_cases h2 : w = t <;> by_cases h3 : v = u <;> by_cases h4 : w = u <;>
        simp only [h1, h2, h3, h4, if_true, if_false] <;> first | omega | (split <;> omega) | skip
      all_goals (intro h; split at h <;> omega)
    covered := by
      intro b k c hb hc
      rcases hi.covered b k c hb hc with h | ⟨v, z, hv, hz, hzd⟩
      · left; exact h
      · right
        by_cases h1 : v = t
        · subst h1
          rw [ht] at hv; cases hv
          by_cases h2 : u = v
          · subst h2; rw [ht] at hu; cases hu
            exact ⟨u, _, by simp [put], hz, hzd⟩
          · exact ⟨u, _, by simp [put, Function.update_apply, h2], hz, hzd⟩
        · by_cases h2 : v = u
          · subst h2; rw [hu] at hv; cases hv
            exact ⟨t, _, by simp [put], hz, hzd⟩
          · exact ⟨v, z, by simp [put, Function.update_apply, h1, h2, hv], hz, hzd⟩
    fresh := hi.fresh
    known := by intro v z p hv hp; exact hi.known _ z p (back v z hv) hp
    held := hi.held }

theorem inv_move {s : State} (hi : Inv s) {t u : Nat} {x : Track} (ht : s.tracks t = none) (hu : s.tracks u = some x) :
    Inv (put (put s u { x with allocator := none, data := none }) t x) := by
  have htu : t ≠ u := by rintro rfl; rw [ht] at hu; cases hu
  have back : ∀ v z, Owner z → (put (put s u { x with allocator := none, data := none }) t x).tracks v = some z →
      v ≠ u ∧ s.tracks (if v = t then u else v) = some z := by
    intro v z hz hv
    simp only [put, Function.update_apply] at hv
    by_cases h1 : v = t
    · rw [if_pos h1] at hv ⊢; cases hv; exact ⟨by omega, hu⟩
    · rw [if_neg h1] at hv ⊢
      by_cases h2 : v = u
      · rw [if_pos h2] at hv; cases hv; obtain ⟨c, hc⟩ := hz; cases hc
      · rw [if_neg h2] at hv; exact ⟨h2, hv⟩
  exact {
    owner := by intro v z c hv hc; exact hi.owner _ z c (back v z ⟨c, hc⟩ hv).2 hc
    distinct := by
      intro v w p q hvw hv hw hp hq
      obtain ⟨h1, h2⟩ := back v p hp hv
      obtain ⟨h3, h4⟩ := back w q hq hw
      refine hi.distinct _ _ p q ?_ h2 h4 hp hq
      split <;> split <;> omega
    covered := by
      intro b k c hb hc
      rcases hi.covered b k c hb hc with h | ⟨v, z, hv, hz, hzd⟩
      · left; exact h
      · right
        by_cases h2 : v = u
        · subst h2; rw [hu] at hv; cases hv
          exact ⟨t, _, by simp [put], hz, hzd⟩
        · have h1 : v ≠ t := by rintro rfl; rw [ht] at hv; cases hv
          exact ⟨v, z, by simp [put, Function.update_apply, h1, h2, hv], hz, hzd⟩
    fresh := hi.fresh
    known := by
      intro v z p hv hp
      simp only [put, Function.update_apply] at hv ⊢
      split at hv
      · cases hv; exact hi.known u _ p hu hp
      · split at hv
        · cases hv; cases hp
        · exact hi.known v z p hv hp
    held := hi.held }

theorem inv_drop {s : State} (hi : Inv s) {t : Nat} {x : Track} (ht : s.tracks t = some x) (hx : x.allocator = none) :
    Inv { s with tracks := Function.update s.tracks t none } where
  owner := by
    intro u y c hu hc
    simp only [Function.update_apply] at hu
    split at hu
    · cases hu
    · exact hi.owner u y c hu hc
  distinct := by
    intro u v y z huv hu hv hy hz
    simp only [Function.update_apply] at hu hv
    split at hu
    · cases hu
    · split at hv
      · cases hv
      · exact hi.distinct u v y z huv hu hv hy hz
  covered := by
    intro b k c hb hc
    rcases hi.covered b k c hb hc with h | ⟨u, y, hu, hy, hyd⟩
    · left; exact h
    · right
      refine ⟨u, y, ?_, hy, hyd⟩
      simp only [Function.update_apply]
      rw [if_neg (by rintro rfl; rw [ht] at hu; cases hu; obtain ⟨c, hc⟩ := hy; rw [hx] at hc; cases hc)]; exact hu
  fresh := hi.fresh
  held := hi.held
  known := by
    intro u y p hu hp
    simp only [Function.update_apply] at hu
    split at hu
    · cases hu
    · exact hi.known u y p hu hp

theorem inv_delete {s : State} (hi : Inv s) {t b : Nat} {x : Track} (ht : s.tracks t = some x) (hx : Owner x)
    (hd : x.data = some (b, 0)) :
    Inv { s with heap := Function.update s.heap b none, tracks := Function.update s.tracks t none } where
  owner := by
    intro u y c hu hc
    simp only [Function.update_apply] at hu
    split at hu
    · cases hu
    · rename_i hut
      obtain ⟨d, k, h1, h2, h3⟩ := hi.owner u y c hu hc
      have hne : d ≠ b := by
        rintro rfl
        exact hi.distinct u t y x hut hu ht ⟨c, hc⟩ hx (by rw [h1, hd])
      exact ⟨d, k, h1, by simp only [Function.update_apply]; rw [if_neg hne]; exact h2, h3⟩
  distinct := by
    intro u v y z huv hu hv hy hz
    simp only [Function.update_apply] at hu hv
    split at hu
    · cases hu
    · split at hv
      · cases hv
      · exact hi.distinct u v y z huv hu hv hy hz
  covered := by
    intro d k c hdk hc
    simp only [Function.update_apply] at hdk
    split at hdk
    · cases hdk
    · rename_i hdb
      rcases hi.covered d k c hdk hc with h | ⟨u, y, hu, hy, hyd⟩
      · left; exact h
      · right
        refine ⟨u, y, ?_, hy, hyd⟩
        simp only [Function.update_apply]
        rw [if_neg (by rintro rfl; rw [ht] at hu; cases hu; rw [hd] at hyd; cases hyd; exact hdb rfl)]; exact hu
  fresh := by
    intro d hd'
    simp only [Function.update_apply]
    split
    · rfl
    · exact hi.fresh d hd'
  held := by
    intro d hd'
    obtain ⟨k, hk⟩ := hi.held d hd'
    obtain ⟨a, ha⟩ := hx
    obtain ⟨b', k', h1, h2, h3, h4, h5, h6⟩ := hi.owner t x a ht ha
    rw [hd] at h1; cases h1
    refine ⟨k, ?_⟩
    simp only [Function.update_apply]
    rw [if_neg (by rintro rfl; simp only at hd'; rw [hd'] at h5; cases h5)]; exact hk
  known := by
    intro u y p hu hp
    simp only [Function.update_apply] at hu
    split at hu
    · cases hu
    · exact hi.known u y p hu hp

/-- Blocks keep their allocator and their size. -/
theorem inv_heap {s : State} (hi : Inv s) {h : Heap}
    (hs : ∀ b, (s.heap b = none ∧ h b = none) ∨
      ∃ k l, s.heap b = some k ∧ h b = some l ∧ k.allocator = l.allocator ∧ k.bytes.length = l.bytes.length) :
    Inv { s with heap := h } where
  owner := by
    intro u y c hu hc
    obtain ⟨d, k, h1, h2, h3, h4, h5⟩ := hi.owner u y c hu hc
    rcases hs d with ⟨g1, -⟩ | ⟨k', l, g1, g2, g3, g4⟩
    · rw [g1] at h2; cases h2
    · rw [g1] at h2; cases h2
      exact ⟨d, l, h1, g2, g3 ▸ h3, g4 ▸ h4, h5⟩
  distinct := hi.distinct
  covered := by
    intro d k c hd hc
    rcases hs d with ⟨-, g2⟩ | ⟨k', l, g1, g2, g3, g4⟩
    · simp only [g2] at hd; cases hd
    · simp only [g2] at hd; cases hd
      exact hi.covered d k' c g1 (g3.trans hc)
  fresh := by
    intro d hd
    rcases hs d with ⟨-, g2⟩ | ⟨k', l, g1, g2, g3, g4⟩
    · exact g2
    · rw [hi.fresh d hd] at g1; cases g1
  held := by
    intro d hd
    obtain ⟨k, hk⟩ := hi.held d hd
    rcases hs d with ⟨g1, -⟩ | ⟨k', l, g1, g2, g3, g4⟩
    · rw [g1] at hk; cases hk
    · exact ⟨l, g2⟩
  known := hi.known

theorem writeBytes_shape {h h' : Heap} {b o : Nat} {bytes : List Byte} (hw : writeBytes h b o bytes = some h') :
    ∀ c, (h c = none ∧ h' c = none) ∨
      ∃ k l, h c = some k ∧ h' c = some l ∧ k.allocator = l.allocator ∧ k.bytes.length = l.bytes.length := by
  unfold writeBytes at hw
  cases hb : h b with
  | none => rw [hb] at hw; cases hw
  | some k =>
    rw [hb, Option.bind_some] at hw
    split at hw
    swap
    · cases hw
    rename_i hl
    cases hw
    intro c
    by_cases hc : c = b
    · subst hc
      right
      refine ⟨k, { k with bytes := k.bytes.take o ++ bytes ++ k.bytes.drop (o + bytes.length) }, hb,
        Function.update_self _ _ _, rfl, ?_⟩
      simp only [List.length_append, List.length_take, List.length_drop]
      omega
    · simp only [Function.update_apply]
      rw [if_neg hc]
      cases hcc : h c with
      | none => left; exact ⟨rfl, rfl⟩
      | some l => right; exact ⟨l, l, rfl, rfl, rfl, rfl⟩

theorem owner_readable {s : State} (hi : Inv s) {t i : Nat} {x : Track} (ht : s.tracks t = some x) (hx : Owner x)
    (hn : i < x.numSamples) : Readable s x i := by
  obtain ⟨a, ha⟩ := hx
  obtain ⟨b, k, h1, h2, h3, h4, h5, h6⟩ := hi.owner t x a ht ha
  refine ⟨(b, 0 + i * x.stride), _, by simp [address, h1], readBytes_some h2 ?_⟩
  have := h6 i hn
  rw [h4]; simp only; omega

theorem writeBytes_some {h : Heap} {b o n : Nat} {l bytes : List Byte} (hr : readBytes h b o n = some l)
    (hn : bytes.length = n) : ∃ h', writeBytes h b o bytes = some h' := by
  unfold readBytes at hr
  unfold writeBytes
  cases hb : h b with
  | none => rw [hb] at hr; cases hr
  | some k =>
    rw [hb, Option.bind_some] at hr
    split at hr
    · rename_i hle; rw [Option.bind_some, if_pos (by omega)]; exact ⟨_, rfl⟩
    · cases hr

theorem owner_copied {s : State} (hi : Inv s) {t : Nat} {x : Track} (ht : s.tracks t = some x) (hx : Owner x) : Whole s x := by
  have hrd : ∀ i < x.numSamples, Readable s x i := fun i hn => owner_readable hi ht hx hn
  obtain ⟨a, ha⟩ := hx
  obtain ⟨b, k, h1, h2, h3, h4, h5, h6⟩ := hi.owner t x a ht ha
  refine ⟨⟨(k.bytes.drop 0).take x.dataSize, ?_⟩, fun i hn => ⟨hrd i hn, h6 i hn⟩⟩
  unfold copied
  rw [h1]
  exact readBytes_some h2 (by rw [h4]; omega)

theorem copied_length {h : Heap} {x : Track} {l : List Byte} (hc : copied h x = some l) : l.length = x.dataSize := by
  unfold copied at hc
  split at hc
  · exact readBytes_length hc
  · split at hc
    · rename_i h0; cases hc; rw [h0]; rfl
    · cases hc

/-- Every operation of a client that meets its obligations succeeds and keeps the invariant. -/
theorem step_ok {s : State} (hi : Inv s) {op : Op} (hc : Client s op) : ∃ s', step s op = some s' ∧ Inv s' := by
  cases op with
  | buffer bytes => exact ⟨_, rfl, inv_buffer hi bytes⟩
  | allocate a bytes => exact ⟨_, rfl, inv_allocate hi a bytes⟩
  | free b =>
    obtain ⟨k, hk⟩ := hi.held b hc
    exact ⟨_, by simp only [step, freeHeld, hk, Option.map_some], inv_free hi hc⟩
  | empty t => exact ⟨_, rfl, inv_ref hi hc rfl (by intro p hp; cases hp)⟩
  | makeCopy t a b o n st sz =>
    obtain ⟨ht, hr⟩ := hc
    obtain ⟨l, h1, h2⟩ := gather_some hr
    refine ⟨put (allocate s a l) t ⟨some a, some (s.next, 0), n, sz, n * sz, sz⟩,
      by simp only [step, makeCopy, h1, Option.map_some], inv_new hi ht rfl rfl h2 ?_⟩
    intro i hi'
    have : (i + 1) * sz ≤ n * sz := Nat.mul_le_mul_right _ hi'
    rw [Nat.succ_mul] at this
    exact this
  | makeReserve t a n sz bytes =>
    obtain ⟨ht, hl⟩ := hc
    refine ⟨put (allocate s a bytes) t ⟨some a, some (s.next, 0), n, sz, n * sz, sz⟩,
      by simp only [step, makeReserve, if_pos hl], inv_new hi ht rfl rfl hl ?_⟩
    intro i hi'
    have : (i + 1) * sz ≤ n * sz := Nat.mul_le_mul_right _ hi'
    rw [Nat.succ_mul] at this
    exact this
  | makeOwner t a b n st sz =>
    obtain ⟨ht, hh, ⟨bytes, hb, hl⟩, hsz⟩ := hc
    refine ⟨_, rfl, inv_give (x := ⟨some a, some (b, 0), n, st, n * st, sz⟩) hi ht hh hb rfl rfl hl ?_⟩
    intro i hi'
    have : (i + 1) * st ≤ n * st := Nat.mul_le_mul_right _ hi'
    rw [Nat.succ_mul] at this
    simp only at hi' ⊢
    omega
  | makeRef t b o n st sz =>
    obtain ⟨ht, k, hk⟩ := hc
    refine ⟨_, rfl, inv_ref hi ht rfl ?_⟩
    intro p hp; cases hp
    by_contra hlt
    rw [hi.fresh b (by simp only at hlt; omega)] at hk; cases hk
  | getCopy t u a =>
    obtain ⟨ht, x, hx, hw⟩ := hc
    have hw : Whole s x := hw.elim (owner_copied hi hx) id
    obtain ⟨⟨l, hl⟩, hs⟩ := hw
    exact ⟨_, by simp only [step, getCopy, hx, hl, Option.bind_some, Option.map_some],
      inv_new (bytes := l) (x := { x with allocator := some a, data := some (s.next, 0) }) hi ht rfl rfl
        (show l.length = x.dataSize from copied_length hl) (fun i hn => (hs i hn).2)⟩
  | getRef t u =>
    obtain ⟨ht, x, hx⟩ := hc
    exact ⟨put s t { x with allocator := none }, by simp only [step, getRef, hx, Option.map_some],
      inv_ref hi ht rfl (fun p hp => hi.known u x p hx hp)⟩
  | moveConstruct t u =>
    obtain ⟨ht, x, hx⟩ := hc
    exact ⟨_, by simp only [step, moveConstruct, hx, Option.map_some], inv_move hi ht hx⟩
  | moveAssign t u =>
    obtain ⟨⟨x, hx⟩, y, hy⟩ := hc
    exact ⟨_, by simp only [step, moveAssign, hx, hy, Option.bind_some, Option.map_some], inv_swap hi hx hy⟩
  | destroy t =>
    obtain ⟨x, hx⟩ := hc
    cases ha : x.allocator with
    | none => exact ⟨_, by simp only [step, destroy, hx, ha, Option.bind_some], inv_drop hi hx ha⟩
    | some a =>
      obtain ⟨b, k, h1, h2, h3, h4, h5, h6⟩ := hi.owner t x a hx ha
      exact ⟨_, by simp only [step, destroy, hx, ha, h1, Option.bind_some, if_true, deallocate, h2, h3, h4, and_self,
        Option.map_some], inv_delete hi hx ⟨a, ha⟩ h1⟩
  | write t i bytes =>
    obtain ⟨x, hx, hn, hl, hr⟩ := hc
    have hr : Readable s x i := hr.elim (fun h => owner_readable hi hx h hn) id
    obtain ⟨p, l, hp, hr⟩ := hr
    obtain ⟨h', hw⟩ := writeBytes_some hr hl
    exact ⟨_, by simp only [step, write, hx, hp, hw, Option.bind_some, Option.map_some], inv_heap hi (writeBytes_shape hw)⟩

theorem reachable_inv {s : State} (h : Reachable s) : Inv s := by
  induction h with
  | start => exact inv_start
  | step _ hc hs ih =>
    obtain ⟨s', h1, h2⟩ := step_ok ih hc
    rw [h1] at hs; cases hs; exact h2

/-- **C75_safe.** Whatever a client does, as long as it meets its obligations: no operation on tracks accesses memory that
is not there, frees anything twice, with the wrong allocator or with the wrong size, and every sample of every track that
owns its memory can be read. -/
theorem C75_safe {s : State} (h : Reachable s) :
    (∀ op, Client s op → ∃ s', step s op = some s') ∧
    (∀ t x i, s.tracks t = some x → Owner x → i < x.numSamples →
      ∃ bytes, sample s t i = some bytes ∧ bytes.length = x.sampleSize) := by
  have hi := reachable_inv h
  refine ⟨fun op hc => ?_, fun t x i ht hx hn => ?_⟩
  · obtain ⟨s', h1, -⟩ := step_ok hi hc; exact ⟨s', h1⟩
  · obtain ⟨p, l, hp, hr⟩ := owner_readable hi ht hx hn
    exact ⟨l, by simp only [sample, ht, hp, hr, Option.bind_some], readBytes_length hr⟩

/-- **C75_no_leak.** A block of an allocator that is live is either still the client's to free, or it belongs to exactly one
live track. Once every track is destroyed and the client freed what it held, no allocator has a live block. -/
theorem C75_no_leak {s : State} (h : Reachable s) :
    (∀ b k a, s.heap b = some k → k.allocator = some a →
      (s.held b = true ∧ ∀ t x, s.tracks t = some x → Owner x → x.data ≠ some (b, 0)) ∨
      (s.held b = false ∧ ∃! t, ∃ x, s.tracks t = some x ∧ x.allocator = some a ∧ x.data = some (b, 0))) ∧
    ((∀ t, s.tracks t = none) → (∀ b, s.held b = false) → ∀ b k, s.heap b = some k → k.allocator = none) := by
  have hi := reachable_inv h
  refine ⟨fun b k a hb ha => ?_, fun ht hh b k hb => ?_⟩
  · by_cases hh : s.held b = true
    · left
      refine ⟨hh, fun t x ht hx hd => ?_⟩
      obtain ⟨c, hc⟩ := hx
      obtain ⟨d, k', h1, h2, h3, h4, h5, h6⟩ := hi.owner t x c ht hc
      rw [hd] at h1; cases h1
      rw [hh] at h5; cases h5
    · right
      refine ⟨by simpa using hh, ?_⟩
      rcases hi.covered b k a hb ha with h | ⟨t, x, ht, ⟨c, hc⟩, hd⟩
      · exact absurd h hh
      · obtain ⟨d, k', h1, h2, h3, h4, h5, h6⟩ := hi.owner t x c ht hc
        rw [hd] at h1; cases h1
        rw [hb] at h2; cases h2
        rw [ha] at h3; cases h3
        refine ⟨t, ⟨x, ht, hc, hd⟩, ?_⟩
        rintro u ⟨y, hu, hy, hyd⟩
        by_contra hut
        exact hi.distinct u t y x hut hu ht ⟨_, hy⟩ ⟨_, hc⟩ (by rw [hyd, hd])
  · cases ha : k.allocator with
    | none => rfl
    | some a =>
      rcases hi.covered b k a hb ha with h | ⟨t, x, h1, -⟩
      · rw [hh] at h; cases h
      · rw [ht] at h1; cases h1

theorem gather_read {h : Heap} {b o st sz : Nat} : ∀ {n : Nat} {l : List Byte}, gather h b o st sz n = some l →
    ∀ i < n, readBytes h b (o + i * st) sz = some ((l.drop (i * sz)).take sz) := by
  intro n
  induction n with
  | zero => intro l _ i hi; omega
  | succ n ih =>
    intro l hl i hi
    simp only [gather] at hl
    cases hg : gather h b o st sz n with
    | none => rw [hg] at hl; cases hl
    | some l' =>
      rw [hg, Option.bind_some] at hl
      cases hr : readBytes h b (o + n * st) sz with
      | none => rw [hr] at hl; cases hl
      | some x =>
        rw [hr, Option.map_some] at hl; cases hl
        have hlen : l'.length = n * sz := by
          have hn : ∀ i < n, ∃ bytes, readBytes h b (o + i * st) sz = some bytes := fun i hi => ⟨_, ih hg i hi⟩
          obtain ⟨l'', h1, h2⟩ := gather_some hn
          rw [hg] at h1; cases h1; exact h2
        by_cases hin : i = n
        · subst hin
          rw [hr, List.drop_append, ← hlen, List.drop_length, Nat.sub_self, List.drop_zero, List.nil_append,
            List.take_of_length_le (readBytes_length hr).le]
        · have hlt : i < n := by omega
          rw [ih hg i hlt]
          have : (i + 1) * sz ≤ n * sz := Nat.mul_le_mul_right _ hlt
          rw [Nat.succ_mul] at this
          rw [List.drop_append_of_le_length (by omega), List.take_append_of_le_length (by rw [List.length_drop]; omega)]

theorem sample_new {s : State} {t a i : Nat} {bytes : List Byte} {x : Track} (hd : x.data = some (s.next, 0))
    (hl : i * x.stride + x.sampleSize ≤ bytes.length) :
    sample (put (allocate s a bytes) t x) t i = some ((bytes.drop (i * x.stride)).take x.sampleSize) := by
  have h1 : (put (allocate s a bytes) t x).tracks t = some x := by simp [put]
  have h2 : (put (allocate s a bytes) t x).heap s.next = some ⟨some a, bytes⟩ := by simp [put, allocate]
  simp only [sample, h1, Option.bind_some, address, hd, Option.map_some, Nat.zero_add]
  exact readBytes_some h2 (by exact hl)

/-- **C75_copy_values.** A copy of client memory (make_copy) has exactly the samples of the client, whatever the distance
between them. A copy of a track (get_copy) has exactly the samples of the track, if the track owns its memory or its whole
buffer is there. Both own their memory, and the source is what it was. -/
theorem C75_copy_values {s s' : State} (h : Reachable s) :
    (∀ t a b offset n stride size, Client s (.makeCopy t a b offset n stride size) →
      step s (.makeCopy t a b offset n stride size) = some s' →
      (∃ x, s'.tracks t = some x ∧ Owner x ∧ x.numSamples = n ∧ x.sampleSize = size) ∧
      ∀ i < n, sample s' t i = readBytes s.heap b (offset + i * stride) size) ∧
    (∀ t u a y, Client s (.getCopy t u a) → step s (.getCopy t u a) = some s' → s.tracks u = some y →
      (∃ x, s'.tracks t = some x ∧ Owner x ∧ x.numSamples = y.numSamples ∧ x.sampleSize = y.sampleSize) ∧
      (∀ i < y.numSamples, sample s' t i = sample s u i) ∧
      ∀ i bytes, sample s u i = some bytes → sample s' u i = some bytes) := by
  have hi := reachable_inv h
  constructor
  · intro t a b o n st sz hc hs
    obtain ⟨ht, hr⟩ := hc
    obtain ⟨l, h1, h2⟩ := gather_some hr
    simp only [step, makeCopy, h1, Option.map_some, Option.some.injEq] at hs
    subst hs
    refine ⟨⟨⟨some a, some (s.next, 0), n, sz, n * sz, sz⟩, by simp only [put, Function.update_self], ⟨a, rfl⟩, rfl, rfl⟩,
      fun i hin => ?_⟩
    have : (i + 1) * sz ≤ n * sz := Nat.mul_le_mul_right _ hin
    rw [Nat.succ_mul] at this
    rw [gather_read h1 i hin, sample_new rfl (by simp only; omega)]
  · intro t u a y hc hs hu
    obtain ⟨ht, x, hx, hw⟩ := hc
    rw [hu] at hx; cases hx
    have hw : Whole s y := hw.elim (owner_copied hi hu) id
    obtain ⟨⟨l, hl⟩, hsz⟩ := hw
    have hlen := copied_length hl
    simp only [step, getCopy, hu, hl, Option.bind_some, Option.map_some, Option.some.injEq] at hs
    subst hs
    have hut : u ≠ t := by rintro rfl; rw [ht] at hu; cases hu
    refine ⟨⟨{ y with allocator := some a, data := some (s.next, 0) }, by simp only [put, Function.update_self],
      ⟨a, rfl⟩, rfl, rfl⟩, fun i hin => ?_, fun i bytes hb => ?_⟩
    · obtain ⟨⟨q, -, hq, -⟩, hin'⟩ := hsz i hin
      rw [sample_new rfl (by simp only; omega)]
      simp only [sample, hu, Option.bind_some, address]
      unfold copied at hl
      cases hd : y.data with
      | none =>
        rw [address, hd] at hq; cases hq
      | some p =>
        rw [hd] at hl
        simp only [Option.map_some, Option.bind_some] at hl ⊢
        unfold readBytes at hl ⊢
        cases hb : s.heap p.1 with
        | none => rw [hb] at hl; cases hl
        | some k =>
          rw [hb] at hl
          simp only [Option.bind_some] at hl ⊢
          split at hl
          swap
          · cases hl
          rename_i hle
          cases hl
          rw [if_pos (by omega), List.drop_take, List.take_take, List.drop_drop, Nat.min_eq_left (by omega)]
    · simp only [sample, put, allocate, Function.update_apply] at hb ⊢
      rw [if_neg hut, hu, Option.bind_some]
      rw [hu, Option.bind_some] at hb
      cases hp : address y i with
      | none => rw [hp] at hb; cases hb
      | some p =>
        rw [hp] at hb
        simp only [Option.bind_some] at hb ⊢
        have hpn : p.1 ≠ s.next := by
          intro e
          unfold readBytes at hb
          rw [e, hi.fresh _ le_rfl] at hb; cases hb
        unfold readBytes at hb ⊢
        rw [Function.update_apply, if_neg hpn]; exact hb

/-- **C75_ref.** A reference sees exactly the samples of its source, also after later writes through either of them; moving
a track moves its samples, an assignment swaps those of the two tracks. -/
theorem C75_ref {s s' : State} :
    (∀ t u, Client s (.getRef t u) → step s (.getRef t u) = some s' →
      (∀ i, sample s' t i = sample s u i ∧ sample s' u i = sample s u i) ∧
      (∃ x, s'.tracks t = some x ∧ ¬ Owner x) ∧
      ∀ v j bytes s'', v = t ∨ v = u → step s' (.write v j bytes) = some s'' → ∀ i, sample s'' t i = sample s'' u i) ∧
    (∀ t u, Client s (.moveConstruct t u) → step s (.moveConstruct t u) = some s' →
      (∀ i, sample s' t i = sample s u i) ∧ s'.tracks t = s.tracks u) ∧
    (∀ t u, Client s (.moveAssign t u) → step s (.moveAssign t u) = some s' →
      ∀ i, sample s' t i = sample s u i ∧ sample s' u i = sample s t i) := by
  refine ⟨?_, ?_, ?_⟩
  · rintro t u ⟨ht, x, hx⟩ hs
    have hut : u ≠ t := by rintro rfl; rw [ht] at hx; cases hx
    simp only [step, getRef, hx, Option.map_some, Option.some.injEq] at hs
    subst hs
    refine ⟨fun i => ⟨?_, ?_⟩, ⟨{ x with allocator := none }, by simp [put], by rintro ⟨a, ha⟩; cases ha⟩, ?_⟩
    · simp only [sample, put, Function.update_self, hx, Option.bind_some, address]
    · simp only [sample, put, Function.update_apply, if_neg hut]
    · intro v j bytes s'' hv hw i
      simp only [step, write] at hw
      cases h1 : (put s t { x with allocator := none }).tracks v with
      | none => rw [h1] at hw; cases hw
      | some y =>
        rw [h1, Option.bind_some] at hw
        cases h2 : address y j with
        | none => rw [h2] at hw; cases hw
        | some p =>
          rw [h2, Option.bind_some] at hw
          cases h3 : writeBytes (put s t { x with allocator := none }).heap p.1 p.2 bytes with
          | none => rw [h3] at hw; cases hw
          | some h' =>
            rw [h3, Option.map_some] at hw; cases hw
            simp only [sample, put, Function.update_apply, if_neg hut, if_true, hx, Option.bind_some, address]
  · rintro t u ⟨ht, x, hx⟩ hs
    have hut : u ≠ t := by rintro rfl; rw [ht] at hx; cases hx
    simp only [step, moveConstruct, hx, Option.map_some, Option.some.injEq] at hs
    subst hs
    exact ⟨fun i => by simp only [sample, put, Function.update_self, hx], by simp only [put, Function.update_self, hx]⟩
  · rintro t u ⟨⟨x, hx⟩, y, hy⟩ hs
    simp only [step, moveAssign, hx, hy, Option.bind_some, Option.map_some, Option.some.injEq] at hs
    subst hs
    intro i
    refine ⟨by simp only [sample, put, Function.update_self, hy], ?_⟩
    by_cases hut : u = t
    · subst hut; rw [hx] at hy; cases hy
      simp only [sample, put, Function.update_self, hx]
    · simp only [sample, put, Function.update_apply, if_neg hut, if_true, hx]

/-- What one operation that leaves a private track alone does to it. -/
theorem avoid_step {s s' : State} (hi : Inv s) {op : Op} (hc : Client s op) (hs : step s op = some s') {t b : Nat}
    {x : Track} {k : Block} (ht : s.tracks t = some x) (hx : Owner x) (hd : x.data = some (b, 0)) (hk : s.heap b = some k)
    (hp : ∀ u y, u ≠ t → s.tracks u = some y → ∀ p, y.data = some p → p.1 ≠ b) (ha : Avoids t b op) :
    s'.tracks t = some x ∧ s'.heap b = some k ∧ ∀ u y, u ≠ t → s'.tracks u = some y → ∀ p, y.data = some p → p.1 ≠ b := by
  have hbn : b ≠ s.next := by rintro rfl; rw [hi.fresh _ le_rfl] at hk; cases hk
  have hput : ∀ (r : State) (v : Nat) (z : Track), v ≠ t → (r.tracks t = some x) →
      (∀ u y, u ≠ t → r.tracks u = some y → ∀ p, y.data = some p → p.1 ≠ b) → (∀ p, z.data = some p → p.1 ≠ b) →
      (put r v z).tracks t = some x ∧
      ∀ u y, u ≠ t → (put r v z).tracks u = some y → ∀ p, y.data = some p → p.1 ≠ b := by
    intro r v z hv hr1 hr2 hz
    refine ⟨by simp only [put, Function.update_apply]; rw [if_neg (Ne.symm hv)]; exact hr1, ?_⟩
    intro u y hu hy
    simp only [put, Function.update_apply] at hy
    split at hy
    · cases hy; exact hz
    · exact hr2 u y hu hy
  have hnew : ∀ (a v : Nat) (l : List Byte) (z : Track), v ≠ t → z.data = some (s.next, 0) →
      (put (allocate s a l) v z).tracks t = some x ∧ (put (allocate s a l) v z).heap b = some k ∧
      ∀ u y, u ≠ t → (put (allocate s a l) v z).tracks u = some y → ∀ p, y.data = some p → p.1 ≠ b := by
    intro a v l z hv hz
    obtain ⟨h1, h2⟩ := hput (allocate s a l) v z hv ht hp (by intro p hpz; rw [hz] at hpz; cases hpz; exact hbn.symm)
    refine ⟨h1, ?_, h2⟩
    simp only [put, allocate, Function.update_apply]; rw [if_neg hbn]; exact hk
  have hfalse : s.held b = false := by
    obtain ⟨a, hxa⟩ := hx
    obtain ⟨b', k', h1, h2, h3, h4, h5, h6⟩ := hi.owner t x a ht hxa
    rw [hd] at h1; cases h1; exact h5
  have hhb : ∀ c, s.held c = true → c ≠ b := by rintro c hc rfl; rw [hfalse] at hc; cases hc
  cases op with
  | buffer bytes =>
    cases hs
    exact ⟨ht, by simp only [Function.update_apply]; rw [if_neg hbn]; exact hk, hp⟩
  | allocate a bytes =>
    cases hs
    exact ⟨ht, by simp only [allocate, Function.update_apply]; rw [if_neg hbn]; exact hk, hp⟩
  | free c =>
    have hcb := hhb c hc
    obtain ⟨k', hk'⟩ := hi.held c hc
    simp only [step, freeHeld, hk', Option.map_some, Option.some.injEq] at hs
    subst hs
    exact ⟨ht, by simp only [Function.update_apply]; rw [if_neg hcb.symm]; exact hk, hp⟩
  | empty v =>
    cases hs
    obtain ⟨h1, h2⟩ := hput s v empty ha ht hp (by intro p hpz; cases hpz)
    exact ⟨h1, hk, h2⟩
  | makeCopy v a c o n st sz =>
    obtain ⟨l, h1, -⟩ := gather_some hc.2
    simp only [step, makeCopy, h1, Option.map_some, Option.some.injEq] at hs
    subst hs
    exact hnew _ _ _ _ ha rfl
  | makeReserve v a n sz bytes =>
    simp only [step, makeReserve, if_pos hc.2, Option.some.injEq] at hs
    subst hs
    exact hnew _ _ _ _ ha rfl
  | makeOwner v a c n st sz =>
    cases hs
    obtain ⟨h1, h2⟩ := hput s v ⟨some a, some (c, 0), n, st, n * st, sz⟩ ha ht hp
      (by intro p hpz; cases hpz; exact hhb c hc.2.1)
    exact ⟨h1, hk, h2⟩
  | makeRef v c o n st sz =>
    cases hs
    obtain ⟨h1, h2⟩ := hput s v ⟨none, some (c, o), n, st, n * st, sz⟩ ha.1 ht hp (by intro p hpz; cases hpz; exact ha.2)
    exact ⟨h1, hk, h2⟩
  | getCopy v u a =>
    obtain ⟨hv, y, hy, hw⟩ := hc
    obtain ⟨⟨l, hl⟩, -⟩ := hw.elim (owner_copied hi hy) id
    simp only [step, getCopy, hy, hl, Option.bind_some, Option.map_some, Option.some.injEq] at hs
    subst hs
    exact hnew _ _ _ _ ha rfl
  | getRef v u =>
    obtain ⟨hv, y, hy⟩ := hc
    simp only [step, getRef, hy, Option.map_some, Option.some.injEq] at hs
    subst hs
    obtain ⟨h1, h2⟩ := hput s v { y with allocator := none } ha.1 ht hp (hp u y ha.2 hy)
    exact ⟨h1, hk, h2⟩
  | moveConstruct v u =>
    obtain ⟨hv, y, hy⟩ := hc
    simp only [step, moveConstruct, hy, Option.map_some, Option.some.injEq] at hs
    subst hs
    obtain ⟨h1, h2⟩ := hput s u { y with allocator := none, data := none } ha.2 ht hp (by intro p hpz; cases hpz)
    obtain ⟨h3, h4⟩ := hput _ v y ha.1 h1 h2 (hp u y ha.2 hy)
    exact ⟨h3, hk, h4⟩
  | moveAssign v u =>
    obtain ⟨⟨z, hz⟩, y, hy⟩ := hc
    simp only [step, moveAssign, hz, hy, Option.bind_some, Option.map_some, Option.some.injEq] at hs
    subst hs
    obtain ⟨h1, h2⟩ := hput s u z ha.2 ht hp (hp v z ha.1 hz)
    obtain ⟨h3, h4⟩ := hput _ v y ha.1 h1 h2 (hp u y ha.2 hy)
    exact ⟨h3, hk, h4⟩
  | destroy v =>
    obtain ⟨z, hz⟩ := hc
    have hv : v ≠ t := ha
    have htr : Function.update s.tracks v none t = some x := by
      rw [Function.update_apply, if_neg (Ne.symm hv)]; exact ht
    have hot : ∀ u y, u ≠ t → Function.update s.tracks v none u = some y → ∀ p, y.data = some p → p.1 ≠ b := by
      intro u y hu hy
      rw [Function.update_apply] at hy
      split at hy
      · cases hy
      · exact hp u y hu hy
    cases hza : z.allocator with
    | none =>
      simp only [step, destroy, hz, hza, Option.bind_some, Option.some.injEq] at hs
      subst hs
      exact ⟨htr, hk, hot⟩
    | some a =>
      obtain ⟨c, k', h1, h2, h3, h4, h5, h6⟩ := hi.owner v z a hz hza
      simp only [step, destroy, hz, hza, h1, Option.bind_some, if_true, deallocate, h2, h3, h4, and_self,
        Option.map_some, Option.some.injEq] at hs
      subst hs
      have hcb : c ≠ b := hp v z hv hz _ h1
      exact ⟨htr, by simp only [Function.update_apply]; rw [if_neg hcb.symm]; exact hk, hot⟩
  | write v i bytes =>
    obtain ⟨y, hy, hn, hl, -⟩ := hc
    simp only [step, write, hy, Option.bind_some] at hs
    cases hq : address y i with
    | none => rw [hq] at hs; cases hs
    | some p =>
      rw [hq, Option.bind_some] at hs
      cases hw : writeBytes s.heap p.1 p.2 bytes with
      | none => rw [hw] at hs; cases hs
      | some h' =>
        rw [hw, Option.map_some] at hs; cases hs
        have hpb : p.1 ≠ b := by
          unfold address at hq
          cases hyd : y.data with
          | none => rw [hyd] at hq; cases hq
          | some q => rw [hyd, Option.map_some] at hq; cases hq; exact hp v y ha hy q hyd
        refine ⟨ht, ?_, hp⟩
        unfold writeBytes at hw
        cases hpk : s.heap p.1 with
        | none => rw [hpk] at hw; cases hw
        | some k' =>
          rw [hpk, Option.bind_some] at hw
          split at hw
          · cases hw
            simp only [Function.update_apply]; rw [if_neg hpb.symm]; exact hk
          · cases hw

/-- The block of an owner. -/
theorem avoid_history {t b : Nat} {s s' : State} (hh : History (Avoids t b) s s') : ∀ {x : Track} {k : Block}, Inv s →
    s.tracks t = some x → Owner x → x.data = some (b, 0) → s.heap b = some k →
    (∀ u y, u ≠ t → s.tracks u = some y → ∀ p, y.data = some p → p.1 ≠ b) →
    s'.tracks t = some x ∧ s'.heap b = some k ∧ ∀ u y, u ≠ t → s'.tracks u = some y → ∀ p, y.data = some p → p.1 ≠ b := by
  induction hh with
  | nil => intro x k hi ht hx hd hk hp; exact ⟨ht, hk, hp⟩
  | cons hc ha hs _ ih =>
    intro x k hi ht hx hd hk hp
    obtain ⟨h1, h2, h3⟩ := avoid_step hi hc hs ht hx hd hk hp ha
    obtain ⟨s', h4, h5⟩ := step_ok hi hc
    rw [hs] at h4; cases h4
    exact ih h5 h1 hx hd h2 h3

/-- **C75_isolated.** Every track that make_copy, make_reserve or get_copy returns sees memory no other track sees. And
whatever is done afterwards that leaves such a track alone - writing, moving or destroying its source, freeing the memory it
was copied from, copying the track itself and writing to the copy - its samples stay what they were and no other track comes
to see its memory. -/
theorem C75_isolated {s : State} (h : Reachable s) :
    (∀ op t s', Client s op → step s op = some s' →
      ((∃ a b o n st sz, op = .makeCopy t a b o n st sz) ∨ (∃ a n sz l, op = .makeReserve t a n sz l) ∨
        (∃ u a, op = .getCopy t u a)) → Private s' t) ∧
    (∀ t b o x s', Private s t → s.tracks t = some x → x.data = some (b, o) → History (Avoids t b) s s' →
      s'.tracks t = some x ∧ (∀ i, sample s' t i = sample s t i) ∧ Private s' t) := by
  have hi := reachable_inv h
  constructor
  · have key : ∀ a t l (z : Track), s.tracks t = none → Owner z → z.data = some (s.next, 0) →
        Private (put (allocate s a l) t z) t := by
      intro a t l z ht hz hd
      refine ⟨z, s.next, 0, by simp [put], hz, hd, ?_⟩
      intro u y hu hy p hp
      simp only [put, allocate, Function.update_apply] at hy
      rw [if_neg hu] at hy
      have := hi.known u y p hy hp
      omega
    intro op t s' hc hs hop
    rcases hop with ⟨a, b, o, n, st, sz, rfl⟩ | ⟨a, n, sz, l, rfl⟩ | ⟨u, a, rfl⟩
    · obtain ⟨l, h1, -⟩ := gather_some hc.2
      simp only [step, makeCopy, h1, Option.map_some, Option.some.injEq] at hs
      subst hs
      exact key _ _ _ _ hc.1 ⟨a, rfl⟩ rfl
    · simp only [step, makeReserve, if_pos hc.2, Option.some.injEq] at hs
      subst hs
      exact key _ _ _ _ hc.1 ⟨a, rfl⟩ rfl
    · obtain ⟨hv, y, hy, hw⟩ := hc
      obtain ⟨⟨l, hl⟩, -⟩ := hw.elim (owner_copied hi hy) id
      simp only [step, getCopy, hy, hl, Option.bind_some, Option.map_some, Option.some.injEq] at hs
      subst hs
      exact key _ _ _ _ hv ⟨a, rfl⟩ rfl
  · intro t b o x s' hp ht hd hh
    obtain ⟨x', b', o', h1, hx, h3, h4⟩ := hp
    rw [ht] at h1; cases h1
    rw [hd] at h3; cases h3
    obtain ⟨a, ha⟩ := hx
    obtain ⟨c, k, g1, g2, -⟩ := hi.owner t x a ht ha
    rw [hd] at g1; cases g1
    obtain ⟨r1, r2, r3⟩ := avoid_history hh hi ht ⟨a, ha⟩ hd g2 h4
    refine ⟨r1, fun i => ?_, x, b, 0, r1, ⟨a, ha⟩, hd, r3⟩
    simp only [sample, r1, ht, Option.bind_some, address, hd, Option.map_some, readBytes, r2, g2]

/-- **C75_strided_finding.** All samples of a reference can be read, and make_copy of the same memory works, yet get_copy
of the reference reads past the end of it: the buffer of a reference is taken to be `samples * stride` bytes, but the last
sample ends earlier. For every number of samples, every sample size and every larger stride, with an array that ends at the
end of the last sample. -/
theorem C75_strided_finding (n stride size a : Nat) (hn : 0 < n) (hs : size < stride) (bytes : List Byte)
    (hl : bytes.length = (n - 1) * stride + size) :
    ∃ s x, run start [.buffer bytes, .makeRef 0 0 0 n stride size] = some s ∧ Reachable s ∧ s.tracks 0 = some x ∧
      x.numSamples = n ∧ (∀ i < n, Readable s x i) ∧ Client s (.makeCopy 1 a 0 0 n stride size) ∧
      step s (.getCopy 1 0 a) = none := by
  have hmul : ∀ i < n, i * stride ≤ (n - 1) * stride := fun i hi => Nat.mul_le_mul_right _ (by omega)
  have hns : n * stride = (n - 1) * stride + stride := by
    rw [← Nat.succ_mul]; congr 1; omega
  let s1 : State := { start with heap := Function.update start.heap 0 (some ⟨none, bytes⟩), next := 1 }
  let x : Track := ⟨none, some (0, 0), n, stride, n * stride, size⟩
  have hb : (put s1 0 x).heap 0 = some ⟨none, bytes⟩ := by simp [put, s1]
  have hr1 : Reachable s1 := Reachable.step (op := .buffer bytes) Reachable.start trivial rfl
  have hr2 : Reachable (put s1 0 x) :=
    Reachable.step (op := .makeRef 0 0 0 n stride size) hr1 ⟨rfl, ⟨none, bytes⟩, by simp [s1]⟩ rfl
  refine ⟨put s1 0 x, x, rfl, hr2, by simp [put], rfl, ?_, ⟨by simp [put, s1, start], ?_⟩, ?_⟩
  · intro i hi
    have := hmul i hi
    exact ⟨(0, 0 + i * stride), _, rfl, readBytes_some hb (by show 0 + i * stride + size ≤ bytes.length; omega)⟩
  · intro i hi
    have := hmul i hi
    exact ⟨_, readBytes_some hb (by show 0 + i * stride + size ≤ bytes.length; omega)⟩
  · have ht : (put s1 0 x).tracks 0 = some x := by simp [put]
    have hc : copied (put s1 0 x).heap x = none := by
      show readBytes (put s1 0 x).heap 0 0 (n * stride) = none
      unfold readBytes
      rw [hb, Option.bind_some, if_neg (by show ¬ 0 + n * stride ≤ bytes.length; omega)]
    simp only [step, getCopy, ht, hc, Option.bind_some, Option.map_none]

/-- **C75_stride_zero_finding.** A reference with a stride of zero (every sample is the same value in memory) is accepted and
can be read, but get_copy of it allocates an empty buffer: the copy owns its memory and says it has the same number of
samples, none of which can be read. For every number of samples and sample size. -/
theorem C75_stride_zero_finding (n size a : Nat) (hn : 0 < n) (hs : 0 < size) (bytes : List Byte) (hl : bytes.length = size) :
    ∃ s s' x y, run start [.buffer bytes, .makeRef 0 0 0 n 0 size] = some s ∧ Reachable s ∧ s.tracks 0 = some x ∧
      (∀ i < n, Readable s x i) ∧ step s (.getCopy 1 0 a) = some s' ∧ s'.tracks 1 = some y ∧ Owner y ∧ y.numSamples = n ∧
      ∀ i < n, sample s' 1 i = none := by
  let s1 : State := { start with heap := Function.update start.heap 0 (some ⟨none, bytes⟩), next := 1 }
  let x : Track := ⟨none, some (0, 0), n, 0, n * 0, size⟩
  let s2 := put s1 0 x
  let y : Track := ⟨some a, some (1, 0), n, 0, n * 0, size⟩
  have hb : s2.heap 0 = some ⟨none, bytes⟩ := by simp [s2, put, s1]
  have hr1 : Reachable s1 := Reachable.step (op := .buffer bytes) Reachable.start trivial rfl
  have hr2 : Reachable s2 :=
    Reachable.step (op := .makeRef 0 0 0 n 0 size) hr1 ⟨rfl, ⟨none, bytes⟩, by simp [s1]⟩ rfl
  have ht : s2.tracks 0 = some x := by simp [s2, put]
  have hc : copied s2.heap x = some [] := by
    show readBytes s2.heap 0 0 (n * 0) = some []
    rw [readBytes_some hb (by simp)]; simp
  refine ⟨s2, put (allocate s2 a []) 1 y, x, y, rfl, hr2, ht, ?_, ?_, by simp [put], ⟨a, rfl⟩, rfl, ?_⟩
  · intro i hi
    exact ⟨(0, 0 + i * 0), _, rfl, readBytes_some hb (by show 0 + i * 0 + size ≤ bytes.length; omega)⟩
  · simp only [step, getCopy, ht, hc, Option.bind_some, Option.map_some]; rfl
  · intro i hi
    have h1 : (put (allocate s2 a []) 1 y).tracks 1 = some y := by simp [put]
    have h2 : (put (allocate s2 a []) 1 y).heap 1 = some ⟨some a, []⟩ := by simp [put, allocate, s2, s1]
    simp only [sample, h1, Option.bind_some]
    show readBytes (put (allocate s2 a []) 1 y).heap 1 (0 + i * 0) size = none
    unfold readBytes
    rw [h2, Option.bind_some, if_neg (by show ¬ 0 + i * 0 + size ≤ ([] : List Byte).length; simp; omega)]

/-- **C75_moved_finding.** The source of a move construction is not empty: it keeps its number of samples although it has
no memory. None of its samples can be read, and copying it copies from no memory. For every track with samples that was
moved. -/
theorem C75_moved_finding {s s' : State} {t u : Nat} {x : Track} (hc : Client s (.moveConstruct t u))
    (hs : step s (.moveConstruct t u) = some s') (hu : s.tracks u = some x) :
    ∃ y, s'.tracks u = some y ∧ y.numSamples = x.numSamples ∧ ¬ Owner y ∧ (∀ i, sample s' u i = none) ∧
      (0 < x.dataSize → ∀ v a, step s' (.getCopy v u a) = none) := by
  obtain ⟨ht, x', hx⟩ := hc
  rw [hu] at hx; cases hx
  have hut : u ≠ t := by rintro rfl; rw [ht] at hu; cases hu
  simp only [step, moveConstruct, hu, Option.map_some, Option.some.injEq] at hs
  subst hs
  have h1 : (put (put s u { x with allocator := none, data := none }) t x).tracks u =
      some { x with allocator := none, data := none } := by
    simp only [put, Function.update_apply]; rw [if_neg hut]; simp
  refine ⟨_, h1, rfl, (by rintro ⟨a, ha⟩; cases ha), fun i => ?_, fun h0 v a => ?_⟩
  · simp only [sample, h1, Option.bind_some, address, Option.map_none, Option.bind_none]
  · have hcp : copied (put (put s u { x with allocator := none, data := none }) t x).heap
        { x with allocator := none, data := none } = none := by
      show (if x.dataSize = 0 then some [] else none) = none
      rw [if_neg (by omega)]
    simp only [step, getCopy, h1, hcp, Option.bind_some, Option.map_none]

/-! ## Example: a program that copies, writes, moves, destroys -/

/-- Copies two 2-byte samples that are 3 bytes apart, copies the track, writes to the first, destroys it. -/
def exOps : List Op :=
  [.buffer [1, 2, 9, 3, 4], .makeCopy 0 7 0 0 2 3 2, .getCopy 1 0 7, .write 0 0 [8, 8], .getRef 2 0, .moveConstruct 3 0]

/-- The program runs, the copy has the samples of the client, the moved track has the new ones, the last destructors leave no
block of the allocator. -/
example :
    (run start exOps).map (fun s => [sample s 1 0, sample s 1 1, sample s 3 0, sample s 2 0, sample s 0 0]) =
      some [some [1, 2], some [3, 4], some [8, 8], some [8, 8], none] := by
  rfl

example : (run start (exOps ++ [.destroy 0, .destroy 1, .destroy 3, .destroy 2])).map
    (fun s => [(s.heap 1).isNone, (s.heap 2).isNone, (s.heap 0).isSome]) = some [true, true, true] := by
  rfl

/-- The state after the first two operations. -/
def exState : State :=
  put (allocate ⟨Function.update start.heap 0 (some ⟨none, [1, 2, 9, 3, 4]⟩), 1, start.tracks, start.held⟩ 7 [1, 2, 3, 4]) 0
    ⟨some 7, some (1, 0), 2, 2, 2 * 2, 2⟩

/-- The hypotheses of the theorems are met: after the first two operations the program is in a reachable state, the track is
private and may be copied, and a history that writes to the copy and frees it avoids the track. -/
example : ∃ s s', Reachable s ∧ Private s 0 ∧ Client s (.getCopy 1 0 7) ∧ History (Avoids 0 1) s s' ∧
    sample s 0 1 = some [3, 4] ∧ sample s' 1 0 = some [8, 8] := by
  have h1 : Reachable exState := by
    refine Reachable.step (op := .makeCopy 0 7 0 0 2 3 2)
      (Reachable.step (op := .buffer [1, 2, 9, 3, 4]) Reachable.start trivial rfl) ⟨rfl, ?_⟩ rfl
    intro i hi
    obtain rfl | rfl : i = 0 ∨ i = 1 := by omega
    · exact ⟨[1, 2], rfl⟩
    · exact ⟨[3, 4], rfl⟩
  have h2 : Client exState (.getCopy 1 0 7) :=
    ⟨rfl, _, rfl, Or.inl ⟨7, rfl⟩⟩
  refine ⟨_, _, h1, ⟨_, 1, 0, rfl, ⟨7, rfl⟩, rfl, ?_⟩, h2,
    History.cons h2 (by simp [Avoids]) rfl
      (History.cons (op := .write 1 0 [8, 8]) ⟨_, rfl, by decide, rfl, Or.inl ⟨7, rfl⟩⟩ (by simp [Avoids]) rfl History.nil),
    rfl, rfl⟩
  intro u y hu hy
  simp only [exState, put, allocate, Function.update_apply, if_neg hu] at hy
  cases hy

end Acl.C75
