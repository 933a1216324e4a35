import Verif.Database.Chunks
import Verif.Core.MemoryLemmas
import Verif.Core.BitsetLemmas
namespace Acl.Chunks
open Acl Acl.Tiers
variable {E : Type}

/-- Bytes of the samples of a group of segments. -/
def dataSum (g : List (Item E)) : Nat := (g.map Item.size).sum

/-- Bytes of a chunk holding the group, without padding. -/
def cost (g : List (Item E)) : Nat := chunkHeaderSize + (dataSum g + g.length * segHeaderSize)

/-- How the items are split over the chunks. -/
def split (max : Nat) : List (Item E) → List (Item E) → List (List (Item E))
  | [], cur => [cur]
  | it :: items, cur =>
    if cost cur + it.size + simdPadding + segHeaderSize ≥ max then cur :: split max items [it]
    else split max items (cur ++ [it])

theorem dataSum_append (a b : List (Item E)) : dataSum (a ++ b) = dataSum a + dataSum b := by
  simp [dataSum]

theorem cost_append (a : List (Item E)) (it : Item E) : cost (a ++ [it]) = cost a + (it.size + segHeaderSize) := by
  unfold cost
  rw [dataSum_append, List.length_append, Nat.add_mul]
  simp [dataSum]; omega

theorem split_flatten (max : Nat) (items cur : List (Item E)) : (split max items cur).flatten = cur ++ items := by
  induction items generalizing cur with
  | nil => simp [split]
  | cons it items ih =>
    rw [split]
    split
    · rw [List.flatten_cons, ih]; simp
    · rw [ih]; simp

theorem split_ne_nil (max : Nat) (items cur : List (Item E)) : split max items cur ≠ [] := by
  induction items generalizing cur with
  | nil => simp [split]
  | cons it items ih => rw [split]; split <;> simp [ih]

/-- Only the first group may be empty. -/
theorem split_nonempty (max : Nat) (items cur : List (Item E)) :
    (cur ≠ [] → ∀ g ∈ split max items cur, g ≠ []) ∧ (∀ g ∈ (split max items cur).tail, g ≠ []) ∧
    (items ≠ [] → ∀ g, (split max items cur).getLast? = some g → g ≠ []) := by
  induction items generalizing cur with
  | nil =>
    refine ⟨?_, ?_, fun h => absurd rfl h⟩
    · intro h g hg; simp [split] at hg; rw [hg]; exact h
    · intro g hg; simp [split] at hg
  | cons it items ih =>
    rw [split]
    split
    · have h1 := (ih [it]).1 (by simp)
      refine ⟨?_, ?_, ?_⟩
      · intro h g hg
        rcases List.mem_cons.1 hg with hg | hg
        · rw [hg]; exact h
        · exact h1 g hg
      · intro g hg; exact h1 g (by simpa using hg)
      · intro _ g hg
        rw [List.getLast?_cons, Option.some.injEq] at hg
        apply h1
        rw [← hg]
        have hx := List.getLast?_eq_some_getLast (split_ne_nil max items [it])
        rw [hx]; exact List.mem_of_getLast? hx
    · have h1 := (ih (cur ++ [it])).1 (by simp)
      exact ⟨fun _ => h1, fun g hg => h1 g (List.mem_of_mem_tail hg), fun _ g hg => h1 g (List.mem_of_getLast? hg)⟩

theorem split_cost (max : Nat) (items cur : List (Item E)) (hcur : cost cur + 3 ≤ max)
    (h : ∀ it ∈ items, it.size + simdPadding + segHeaderSize ≤ max) :
    ∀ g ∈ split max items cur, cost g + 3 ≤ max := by
  induction items generalizing cur with
  | nil => intro g hg; simp [split] at hg; rw [hg]; exact hcur
  | cons it items ih =>
    intro g hg
    rw [split] at hg
    have h1 := h it List.mem_cons_self
    unfold simdPadding segHeaderSize at *
    split at hg
    · rcases List.mem_cons.1 hg with hg | hg
      · rw [hg]; exact hcur
      · refine ih [it] ?_ (fun x hx => h x (List.mem_cons_of_mem _ hx)) g hg
        have : cost [it] = 12 + (it.size + 20) := by unfold cost dataSum segHeaderSize chunkHeaderSize; simp
        omega
    · rename_i hlt
      refine ih (cur ++ [it]) ?_ (fun x hx => h x (List.mem_cons_of_mem _ hx)) g hg
      rw [cost_append]; unfold segHeaderSize; omega

/-! ### Chunk descriptions -/

/-- The descriptions of the groups, the first one being chunk `k`. -/
def mkDescs (max : Nat) : Nat → List (List (Item E)) → List ChunkDesc
  | _, [] => []
  | k, [g] => [⟨cost g + simdPadding, k * max⟩]
  | k, _ :: gs => ⟨max, k * max⟩ :: mkDescs max (k + 1) gs

theorem mkDescs_cons (max k : Nat) (g : List (Item E)) (gs : List (List (Item E))) (h : gs ≠ []) :
    mkDescs max k (g :: gs) = ⟨max, k * max⟩ :: mkDescs max (k + 1) gs := by
  cases gs with
  | nil => exact absurd rfl h
  | cons a b => rfl

theorem describe_spec (max : Nat) (items cur : List (Item E)) (k : Nat) (out : List ChunkDesc)
    (hne : items ≠ [] ∨ cur ≠ []) :
    finishDescs (items.foldl (fun st it => describeStep max st it.size) ⟨k * max, cost cur, out⟩)
      = out ++ mkDescs max k (split max items cur) := by
  induction items generalizing cur k out with
  | nil =>
    have hc : cur ≠ [] := by simpa using hne
    have : cost cur ≠ chunkHeaderSize := by
      unfold cost chunkHeaderSize segHeaderSize
      have := List.length_pos_iff.2 hc
      omega
    rw [List.foldl_nil, finishDescs, split, mkDescs, if_pos this]
  | cons it items ih =>
    rw [List.foldl_cons, split]
    have hstep : describeStep max ⟨k * max, cost cur, out⟩ it.size =
        if cost cur + it.size + simdPadding + segHeaderSize ≥ max then
          ⟨(k + 1) * max, cost [it], out ++ [⟨max, k * max⟩]⟩ else ⟨k * max, cost (cur ++ [it]), out⟩ := by
      have e1 : (k + 1) * max = k * max + max := by rw [Nat.add_mul, Nat.one_mul]
      have e2 : cost [it] = chunkHeaderSize + (it.size + segHeaderSize) := by
        unfold cost dataSum; simp
      rw [e1, e2, cost_append]
      unfold describeStep
      dsimp only
      split <;> rfl
    rw [hstep]
    by_cases hc : cost cur + it.size + simdPadding + segHeaderSize ≥ max
    · rw [if_pos hc, if_pos hc, ih [it] (k+1) (out ++ [(⟨max, k * max⟩ : ChunkDesc)]) (Or.inr (by simp)),
        mkDescs_cons _ _ _ _ (split_ne_nil _ _ _)]
      simp
    · rw [if_neg hc, if_neg hc]
      exact ih (cur ++ [it]) k out (Or.inr (by simp))

/-! ### First pass -/

/-- The bit set of an item. -/
def indicesOf (it : Item E) : List (BitVec 32) := (sampleIndices it.frames [0#32]).getD []

/-- The segment headers of a group, the samples of the first one being at `off`. -/
def segsAt : Nat → List (Item E) → List SegHeader
  | _, [] => []
  | off, it :: g => ⟨it.hash, indicesOf it, off, it.clipHeaderOffset, it.segmentHeaderOffset⟩ :: segsAt (off + it.size) g

theorem segsAt_length (off : Nat) (g : List (Item E)) : (segsAt off g).length = g.length := by
  induction g generalizing off with
  | nil => rfl
  | cons it g ih => rw [segsAt, List.length_cons, ih]; rfl

theorem segsAt_append (off : Nat) (a b : List (Item E)) :
    segsAt off (a ++ b) = segsAt off a ++ segsAt (off + dataSum a) b := by
  induction a generalizing off with
  | nil => simp [segsAt, dataSum]
  | cons it a ih =>
    rw [List.cons_append, segsAt, segsAt, ih, List.cons_append]
    have : off + it.size + dataSum a = off + dataSum (it :: a) := by simp [dataSum]; omega
    rw [this]

/-- The chunks of the groups, the first one being chunk `k`; `base` gives the offset of the samples. -/
def mkChunks (max : Nat) (base : Nat → List (Item E) → Nat) : Nat → List (List (Item E)) → List Chunk
  | _, [] => []
  | k, [g] => [⟨k * max, k, cost g + simdPadding, segsAt (base k g) g⟩]
  | k, g :: gs => ⟨k * max, k, max, segsAt (base k g) g⟩ :: mkChunks max base (k + 1) gs

theorem mkChunks_cons (max : Nat) (base : Nat → List (Item E) → Nat) (k : Nat) (g : List (Item E))
    (gs : List (List (Item E))) (h : gs ≠ []) :
    mkChunks max base k (g :: gs) = ⟨k * max, k, max, segsAt (base k g) g⟩ :: mkChunks max base (k + 1) gs := by
  cases gs with
  | nil => exact absurd rfl h
  | cons a b => rfl

/-- Size of the bulk data whose last chunks, from number `k`, hold the groups. -/
def endOf (max : Nat) : Nat → List (List (Item E)) → Nat
  | k, [] => k * max
  | k, [g] => k * max + (cost g + simdPadding)
  | k, _ :: gs => endOf max (k + 1) gs

theorem endOf_cons (max k : Nat) (g : List (Item E)) (gs : List (List (Item E))) (h : gs ≠ []) :
    endOf max k (g :: gs) = endOf max (k + 1) gs := by
  cases gs with
  | nil => exact absurd rfl h
  | cons a b => rfl

theorem pass1_spec (max : Nat) (items cur : List (Item E)) (k : Nat) (done : List Chunk) (hne : items ≠ [] ∨ cur ≠ [])
    (hidx : ∀ it ∈ items, ∃ m, sampleIndices it.frames [0#32] = some m) :
    ∃ st, bulkPass1 max items ⟨k * max, dataSum cur, cost cur, k, done, ⟨k * max, k, 0, segsAt 0 cur⟩⟩ = some st ∧
      finishChunks st = (done ++ mkChunks max (fun _ _ => 0) k (split max items cur), endOf max k (split max items cur)) := by
  induction items generalizing cur k done with
  | nil =>
    have hc : cur ≠ [] := by simpa using hne
    have : cost cur ≠ chunkHeaderSize := by
      unfold cost chunkHeaderSize segHeaderSize
      have := List.length_pos_iff.2 hc
      omega
    refine ⟨_, rfl, ?_⟩
    unfold finishChunks
    dsimp only
    rw [if_pos this]
    rfl
  | cons it items ih =>
    obtain ⟨m, hm⟩ := hidx it List.mem_cons_self
    have hmi : indicesOf it = m := by unfold indicesOf; rw [hm]; rfl
    have hidx' : ∀ it ∈ items, ∃ m, sampleIndices it.frames [0#32] = some m := fun x hx => hidx x (List.mem_cons_of_mem _ hx)
    rw [split]
    by_cases hc : cost cur + it.size + simdPadding + segHeaderSize ≥ max
    · obtain ⟨st, e, h⟩ := ih [it] (k+1) (done ++ [⟨k * max, k, max, segsAt 0 cur⟩]) (Or.inr (by simp)) hidx'
      refine ⟨st, ?_, ?_⟩
      · rw [bulkPass1]
        unfold bulkStep
        dsimp only
        rw [if_pos hc, hm]
        simp only [Option.bind_eq_bind, Option.bind_some]
        rw [← e]
        congr 1
        have e2 : cost [it] = chunkHeaderSize + (it.size + segHeaderSize) := by unfold cost dataSum; simp
        have e3 : dataSum [it] = 0 + it.size := by simp [dataSum]
        rw [e2, e3, Nat.add_mul, Nat.one_mul, segsAt, segsAt, hmi]
        rfl
      · rw [h, if_pos hc, mkChunks_cons _ _ _ _ _ (split_ne_nil _ _ _), endOf_cons _ _ _ _ (split_ne_nil _ _ _)]
        simp
    · obtain ⟨st, e, h⟩ := ih (cur ++ [it]) k done (Or.inr (by simp)) hidx'
      refine ⟨st, ?_, ?_⟩
      · rw [bulkPass1]
        unfold bulkStep
        dsimp only
        rw [if_neg hc, hm]
        simp only [Option.bind_eq_bind, Option.bind_some]
        rw [← e]
        congr 1
        rw [cost_append, dataSum_append, segsAt_append, segsAt, segsAt, hmi]
        simp [dataSum]
      · rw [h, if_neg hc]

/-! ### Second pass -/

/-- An item the writer can write: all its frames have the same size and are in its source. -/
structure ItemOk (it : Item E) : Prop where
  bits : ∀ f ∈ it.frames, ∀ g ∈ it.frames, f.frameBitSize = g.frameBitSize
  source : ∀ f ∈ it.frames, f.segmentFrameIndex * f.frameBitSize + f.frameBitSize ≤ 8 * it.source.length

/-- The samples of the item are at byte `off`. -/
def Written (buf : List (BitVec 8)) (it : Item E) (off : Nat) : Prop :=
  ∀ (j : Nat) (f : Frame E), it.frames[j]? = some f → ∀ b, b < f.frameBitSize →
    bufBit buf (off * 8 + j * f.frameBitSize + b) = bufBit it.source (f.segmentFrameIndex * f.frameBitSize + b)

theorem segmentBits_eq (frames : List (Frame E)) (n : Nat) (h : ∀ f ∈ frames, f.frameBitSize = n) :
    segmentBits frames = frames.length * n := by
  cases frames with
  | nil => simp [segmentBits]
  | cons f rest => rw [segmentBits, h f List.mem_cons_self, Nat.mul_comm]; rfl

theorem writeTier_spec (source : List (BitVec 8)) (offset n : Nat) (frames : List (Frame E)) (written : Nat)
    (buf : List (BitVec 8)) (hn : ∀ f ∈ frames, f.frameBitSize = n)
    (hs : ∀ f ∈ frames, f.segmentFrameIndex * n + n ≤ 8 * source.length)
    (hb : offset * 8 + written + frames.length * n ≤ 8 * buf.length) :
    ∃ r, writeTierSegmentData source offset frames written buf = some r ∧ r.length = buf.length ∧
      (∀ i, (i < offset * 8 + written ∨ offset * 8 + written + frames.length * n ≤ i) → bufBit r i = bufBit buf i) ∧
      (∀ (j : Nat) f, frames[j]? = some f → ∀ b, b < n →
        bufBit r (offset * 8 + written + j * n + b) = bufBit source (f.segmentFrameIndex * n + b)) := by
  induction frames generalizing written buf with
  | nil => exact ⟨buf, rfl, rfl, fun i _ => rfl, fun j f h => by simp at h⟩
  | cons f rest ih =>
    have hfn := hn f List.mem_cons_self
    have hfs := hs f List.mem_cons_self
    rw [List.length_cons, Nat.add_mul, Nat.one_mul] at hb
    obtain ⟨r1, e1, l1, b1⟩ := memcpyBits_spec n buf (offset * 8 + written) source (f.segmentFrameIndex * n) (by omega) hfs
    obtain ⟨r, e2, l2, u2, w2⟩ := ih (written + n) r1 (fun x hx => hn x (List.mem_cons_of_mem _ hx))
      (fun x hx => hs x (List.mem_cons_of_mem _ hx)) (by rw [l1]; omega)
    refine ⟨r, ?_, by rw [l2, l1], ?_, ?_⟩
    · rw [writeTierSegmentData, hfn, e1, Option.bind_eq_bind, Option.bind_some, e2]
    · intro i hi
      rw [List.length_cons, Nat.add_mul, Nat.one_mul] at hi
      rw [u2 i (by omega), b1, if_neg (by omega)]
    · intro j g hj b hb'
      cases j with
      | zero =>
        simp only [List.getElem?_cons_zero, Option.some.injEq] at hj
        subst hj
        rw [u2 _ (by omega), b1, if_pos (by omega)]
        congr 1; omega
      | succ j =>
        rw [List.getElem?_cons_succ] at hj
        have := w2 j g hj b hb'
        rw [← this]
        congr 1
        rw [Nat.add_mul, Nat.one_mul]; omega

theorem writeItem_spec (it : Item E) (ok : ItemOk it) (offset : Nat) (buf : List (BitVec 8))
    (hb : offset + it.size ≤ buf.length) :
    ∃ r, writeTierSegmentData it.source offset it.frames 0 buf = some r ∧ r.length = buf.length ∧
      (∀ i, (i < offset * 8 ∨ (offset + it.size) * 8 ≤ i) → bufBit r i = bufBit buf i) ∧ Written r it offset := by
  obtain ⟨n, hn⟩ : ∃ n, ∀ f ∈ it.frames, f.frameBitSize = n := by
    cases h : it.frames with
    | nil => exact ⟨0, by simp⟩
    | cons g rest => exact ⟨g.frameBitSize, fun f hf => ok.bits f (h ▸ hf) g (by rw [h]; exact List.mem_cons_self)⟩
  have hbits := segmentBits_eq it.frames n hn
  have hsz : it.size = (it.frames.length * n + 7) / 8 := by unfold Item.size segmentSize; rw [hbits]
  obtain ⟨r, e, l, u, w⟩ := writeTier_spec it.source offset n it.frames 0 buf hn
    (fun f hf => by have := ok.source f hf; rw [hn f hf] at this; exact this) (by omega)
  refine ⟨r, e, l, fun i hi => u i (by omega), ?_⟩
  intro j f hj b hb'
  have hfn := hn f (List.mem_iff_getElem?.2 ⟨j, hj⟩)
  rw [hfn] at hb' ⊢
  have := w j f hj b hb'
  rw [Nat.add_zero] at this
  exact this

theorem written_mono (it : Item E) (okit : ItemOk it) (off : Nat) (b1 b2 : List (BitVec 8)) (w : Written b1 it off)
    (h : ∀ i, i < (off + it.size) * 8 → bufBit b2 i = bufBit b1 i) : Written b2 it off := by
  intro j f hj b hb
  rw [← w j f hj b hb]
  refine h _ ?_
  have hfm : f ∈ it.frames := List.mem_iff_getElem?.2 ⟨j, hj⟩
  have hbits := segmentBits_eq it.frames f.frameBitSize (fun x hx => okit.bits x hx f hfm)
  have hjl : j < it.frames.length := by
    by_contra hn; rw [List.getElem?_eq_none (by omega)] at hj; simp at hj
  have hm : (j + 1) * f.frameBitSize ≤ it.frames.length * f.frameBitSize := Nat.mul_le_mul_right _ hjl
  rw [Nat.add_mul, Nat.one_mul] at hm
  have hsz : it.size = (it.frames.length * f.frameBitSize + 7) / 8 := by unfold Item.size segmentSize; rw [hbits]
  omega

/-- Where the samples of the items of a group are. -/
def placed : Nat → List (Item E) → List (Item E × Nat)
  | _, [] => []
  | off, it :: g => (it, off) :: placed (off + it.size) g

theorem placed_mem (off : Nat) (g : List (Item E)) (x : Item E × Nat) (hx : x ∈ placed off g) :
    x.1 ∈ g ∧ x.2 + x.1.size ≤ off + dataSum g := by
  induction g generalizing off with
  | nil => simp [placed] at hx
  | cons it g ih =>
    have hds : dataSum (it :: g) = it.size + dataSum g := by simp [dataSum]
    rw [placed] at hx
    rcases List.mem_cons.1 hx with hx | hx
    · rw [hx]; exact ⟨List.mem_cons_self, by dsimp only; omega⟩
    · have := ih _ hx; exact ⟨List.mem_cons_of_mem _ this.1, by omega⟩

/-- Offset of the samples of chunk `k`. -/
def baseOf (max : Nat) (k : Nat) (g : List (Item E)) : Nat := k * max + (chunkHeaderSize + g.length * segHeaderSize)

theorem chunkAt_mid (pre post : List Chunk) (ch : Chunk) (h : ∀ c ∈ pre, c.offset ≠ ch.offset) :
    chunkAt (pre ++ ch :: post) ch.offset = some pre.length := by
  unfold chunkAt
  induction pre with
  | nil => simp [List.findIdx?_cons]
  | cons c pre ih =>
    have h1 : (c.offset == ch.offset) = false := by simpa using h c List.mem_cons_self
    rw [List.cons_append, List.findIdx?_cons, h1]
    simp only [Bool.false_eq_true, if_false]
    rw [ih (fun x hx => h x (List.mem_cons_of_mem _ hx))]
    rfl

/-- One write: whatever moves the state to segment `a.length` of the chunk `ch`. -/
theorem writeStep_spec (pre post : List Chunk) (ch : Chunk) (a : List SegHeader) (g : List (Item E)) (it : Item E)
    (rel : Nat) (st : WriteState) (hpre : ∀ c ∈ pre, c.offset ≠ ch.offset)
    (hch : ch.segs = a ++ segsAt rel (it :: g)) (hchunks : st.chunks = pre ++ ch :: post)
    (hmove : (st.chunkAddress = ch.offset ∧ st.chunkSegmentIndex = a.length) ∨
      (a = [] ∧ ∃ pre0 prev, pre = pre0 ++ [prev] ∧ st.chunkAddress = prev.offset ∧
        (∀ c ∈ pre0, c.offset ≠ prev.offset) ∧ prev.segs.length ≤ st.chunkSegmentIndex ∧ prev.offset + prev.size = ch.offset))
    (ok : ItemOk it) (base : Nat) (hbase : base = ch.offset + (chunkHeaderSize + ch.segs.length * segHeaderSize))
    (hbuf : base + rel + it.size ≤ st.buf.length) :
    ∃ buf, writeStep st it = some ⟨ch.offset, a.length + 1,
        pre ++ { ch with segs := a ++ segsAt (base + rel) [it] ++ segsAt (rel + it.size) g } :: post, buf⟩ ∧
      buf.length = st.buf.length ∧
      (∀ i, (i < (base + rel) * 8 ∨ (base + rel + it.size) * 8 ≤ i) → bufBit buf i = bufBit st.buf i) ∧
      Written buf it (base + rel) := by
  obtain ⟨buf, e, l, u, w⟩ := writeItem_spec it ok (base + rel) st.buf hbuf
  refine ⟨buf, ?_, l, u, w⟩
  have hat := chunkAt_mid pre post ch hpre
  have hget : (pre ++ ch :: post)[pre.length]? = some ch := by simp
  have hseg : ch.segs[a.length]? = some ⟨it.hash, indicesOf it, rel, it.clipHeaderOffset, it.segmentHeaderOffset⟩ := by
    rw [hch, segsAt]; simp
  have hlen : a.length < ch.segs.length := by rw [hch, segsAt]; simp
  have hset : ch.segs.set a.length ⟨it.hash, indicesOf it, base + rel, it.clipHeaderOffset, it.segmentHeaderOffset⟩
      = a ++ segsAt (base + rel) [it] ++ segsAt (rel + it.size) g := by
    rw [hch, segsAt, segsAt, segsAt]; simp
  -- the address and the index resolve to segment `a.length` of `ch`
  have hres : ∃ i0 ch0, chunkAt st.chunks st.chunkAddress = some i0 ∧ st.chunks[i0]? = some ch0 ∧
      (if st.chunkSegmentIndex ≥ ch0.segs.length then st.chunkAddress + ch0.size else st.chunkAddress) = ch.offset ∧
      (if st.chunkSegmentIndex ≥ ch0.segs.length then 0 else st.chunkSegmentIndex) = a.length := by
    rcases hmove with ⟨h1, h2⟩ | ⟨h1, pre0, prev, h2, h3, h4, h5, h6⟩
    · refine ⟨pre.length, ch, by rw [hchunks, h1]; exact hat, by rw [hchunks]; exact hget, ?_, ?_⟩
      · rw [if_neg (by omega)]; exact h1
      · rw [if_neg (by omega)]; exact h2
    · have hc0 : st.chunks = pre0 ++ prev :: (ch :: post) := by rw [hchunks, h2]; simp
      refine ⟨pre0.length, prev, by rw [hc0, h3]; exact chunkAt_mid _ _ _ h4, by rw [hc0]; simp, ?_, ?_⟩
      · rw [if_pos h5, h3]; exact h6
      · rw [if_pos h5, h1]; rfl
  obtain ⟨i0, ch0, r1, r2, r3, r4⟩ := hres
  unfold writeStep
  rw [r1, Option.bind_eq_bind, Option.bind_some, r2, Option.bind_eq_bind, Option.bind_some]
  dsimp only
  rw [r3, r4, hchunks, hat, Option.bind_some, hget, Option.bind_some, hseg]
  simp only [Option.bind_eq_bind, Option.bind_some]
  rw [← hbase, e, Option.bind_some, hset]
  simp

/-- Writing the segments of a chunk. -/
theorem writeGroup_spec (max k : Nat) (pre post : List Chunk) (size : Nat) (pos g : List (Item E)) (rest : List (Item E))
    (hpre : ∀ c ∈ pre, c.offset ≠ k * max) (buf : List (BitVec 8)) (ok : ∀ it ∈ g, ItemOk it)
    (hbuf : baseOf max k (pos ++ g) + dataSum pos + dataSum g ≤ buf.length) :
    ∃ buf', bulkPass2 (g ++ rest) ⟨k * max, pos.length,
          pre ++ ⟨k * max, k, size, segsAt (baseOf max k (pos ++ g)) pos ++ segsAt (dataSum pos) g⟩ :: post, buf⟩ =
        bulkPass2 rest ⟨k * max, (pos ++ g).length,
          pre ++ ⟨k * max, k, size, segsAt (baseOf max k (pos ++ g)) (pos ++ g)⟩ :: post, buf'⟩ ∧
      buf'.length = buf.length ∧
      (∀ i, (i < (baseOf max k (pos ++ g) + dataSum pos) * 8 ∨
        (baseOf max k (pos ++ g) + dataSum pos + dataSum g) * 8 ≤ i) → bufBit buf' i = bufBit buf i) ∧
      ∀ x ∈ placed (baseOf max k (pos ++ g) + dataSum pos) g, Written buf' x.1 x.2 := by
  induction g generalizing pos buf with
  | nil =>
    refine ⟨buf, ?_, rfl, fun i _ => rfl, fun x hx => by simp [placed] at hx⟩
    simp [segsAt]
  | cons it g ih =>
    have hbl : baseOf max k (pos ++ it :: g) = k * max + (chunkHeaderSize +
        (segsAt (baseOf max k (pos ++ it :: g)) pos ++ segsAt (dataSum pos) (it :: g)).length * segHeaderSize) := by
      rw [List.length_append, segsAt_length, segsAt_length, ← List.length_append]; rfl
    have hds : dataSum (it :: g) = it.size + dataSum g := by simp [dataSum]
    obtain ⟨b1, e1, l1, u1, w1⟩ := writeStep_spec pre post
      ⟨k * max, k, size, segsAt (baseOf max k (pos ++ it :: g)) pos ++ segsAt (dataSum pos) (it :: g)⟩
      (segsAt (baseOf max k (pos ++ it :: g)) pos) g it (dataSum pos)
      ⟨k * max, pos.length, pre ++ ⟨k * max, k, size,
        segsAt (baseOf max k (pos ++ it :: g)) pos ++ segsAt (dataSum pos) (it :: g)⟩ :: post, buf⟩
      hpre rfl rfl (Or.inl ⟨rfl, by rw [segsAt_length]⟩) (ok it List.mem_cons_self) (baseOf max k (pos ++ it :: g)) hbl
      (by dsimp only; omega)
    have hassoc : (pos ++ [it]) ++ g = pos ++ it :: g := by simp
    have hd1 : dataSum (pos ++ [it]) = dataSum pos + it.size := by rw [dataSum_append]; simp [dataSum]
    obtain ⟨b2, e2, l2, u2, w2⟩ := ih (pos ++ [it]) b1 (fun x hx => ok x (List.mem_cons_of_mem _ hx))
      (by rw [hassoc, hd1, l1]; dsimp only; omega)
    rw [hassoc, hd1] at e2 u2 w2
    refine ⟨b2, ?_, by rw [l2, l1], ?_, ?_⟩
    · rw [List.cons_append, bulkPass2, e1, Option.bind_eq_bind, Option.bind_some, ← e2]
      congr 1
      dsimp only
      rw [segsAt_append _ pos [it], segsAt_length]
      simp
    · intro i hi
      rw [hds] at hi
      rw [u2 i (by omega), u1 i (by omega)]
    · intro x hx
      rw [placed] at hx
      rcases List.mem_cons.1 hx with hx | hx
      · rw [hx]
        exact written_mono it (ok it List.mem_cons_self) _ _ _ w1 (fun i hi => u2 i (Or.inl (by omega)))
      · rw [← Nat.add_assoc] at w2
        exact w2 x hx

/-- All the placements, the first group being chunk `k`. -/
def allPlaced (max : Nat) : Nat → List (List (Item E)) → List (Item E × Nat)
  | _, [] => []
  | k, g :: gs => placed (baseOf max k g) g ++ allPlaced max (k + 1) gs

theorem endOf_le (max : Nat) (k : Nat) (g : List (Item E)) (gs : List (List (Item E)))
    (hcost : ∀ x ∈ g :: gs, cost x ≤ max) : k * max + cost g ≤ endOf max k (g :: gs) := by
  induction gs generalizing k g with
  | nil => show _ ≤ k * max + (cost g + simdPadding); omega
  | cons g2 gs ih =>
    rw [endOf_cons _ _ _ _ (by simp)]
    have := ih (k+1) g2 (fun x hx => hcost x (List.mem_cons_of_mem _ hx))
    have h1 := hcost g List.mem_cons_self
    rw [Nat.add_mul, Nat.one_mul] at this
    omega

theorem mkChunks_offsets (max : Nat) (base : Nat → List (Item E) → Nat) (k : Nat) (gs : List (List (Item E))) :
    ∀ c ∈ mkChunks max base k gs, k * max ≤ c.offset := by
  induction gs generalizing k with
  | nil => intro c hc; simp [mkChunks] at hc
  | cons g gs ih =>
    intro c hc
    by_cases h : gs = []
    · subst h; simp [mkChunks] at hc; rw [hc]
    · rw [mkChunks_cons _ _ _ _ _ h] at hc
      rcases List.mem_cons.1 hc with hc | hc
      · rw [hc]
      · have := ih (k+1) c hc; rw [Nat.add_mul, Nat.one_mul] at this; omega

theorem mkChunks_head (max : Nat) (base : Nat → List (Item E) → Nat) (k : Nat) (g : List (Item E)) (gs : List (List (Item E))) :
    ∃ size, (∀ base', mkChunks max base' k (g :: gs) = ⟨k * max, k, size, segsAt (base' k g) g⟩ :: mkChunks max base' (k + 1) gs) ∧
      (gs ≠ [] → size = max) ∧ (gs = [] → size = cost g + simdPadding) := by
  by_cases h : gs = []
  · subst h; exact ⟨cost g + simdPadding, fun _ => rfl, fun h => absurd rfl h, fun _ => rfl⟩
  · exact ⟨max, fun _ => mkChunks_cons _ _ _ _ _ h, fun _ => rfl, fun h' => absurd h' h⟩

/-- Writing a whole chunk, from the start of it or from the end of the previous one. -/
theorem startGroup_spec (max k : Nat) (pre post : List Chunk) (size : Nat) (g rest : List (Item E)) (addr idx : Nat)
    (hpre : ∀ c ∈ pre, c.offset < k * max) (buf : List (BitVec 8)) (ok : ∀ it ∈ g, ItemOk it)
    (hst : (addr = k * max ∧ idx = 0) ∨ (g ≠ [] ∧ ∃ pre0 prev, pre = pre0 ++ [prev] ∧ addr = prev.offset ∧
      (∀ c ∈ pre0, c.offset ≠ prev.offset) ∧ prev.segs.length ≤ idx ∧ prev.offset + prev.size = k * max))
    (hbuf : baseOf max k g + dataSum g ≤ buf.length) :
    ∃ buf', bulkPass2 (g ++ rest) ⟨addr, idx, pre ++ ⟨k * max, k, size, segsAt 0 g⟩ :: post, buf⟩ =
        bulkPass2 rest ⟨k * max, g.length, pre ++ ⟨k * max, k, size, segsAt (baseOf max k g) g⟩ :: post, buf'⟩ ∧
      buf'.length = buf.length ∧
      (∀ i, (i < baseOf max k g * 8 ∨ (baseOf max k g + dataSum g) * 8 ≤ i) → bufBit buf' i = bufBit buf i) ∧
      ∀ x ∈ placed (baseOf max k g) g, Written buf' x.1 x.2 := by
  have hpre' : ∀ c ∈ pre, c.offset ≠ k * max := fun c hc => by have := hpre c hc; omega
  have hd0 : dataSum ([] : List (Item E)) = 0 := rfl
  rcases hst with ⟨h1, h2⟩ | ⟨hg, pre0, prev, h1, h2, h3, h4, h5⟩
  · obtain ⟨b, e, l, u, w⟩ := writeGroup_spec max k pre post size [] g rest hpre' buf ok
      (by rw [hd0]; simpa using hbuf)
    rw [hd0] at e u w
    subst h1; subst h2
    exact ⟨b, by simpa [segsAt] using e, l, by simpa using u, by simpa using w⟩
  · cases g with
    | nil => exact absurd rfl hg
    | cons it g =>
      have hds : dataSum (it :: g) = it.size + dataSum g := by simp [dataSum]
      rw [hds] at hbuf
      have hbl : baseOf max k (it :: g) = k * max + (chunkHeaderSize + (segsAt 0 (it :: g)).length * segHeaderSize) := by
        rw [segsAt_length]; rfl
      obtain ⟨b1, e1, l1, u1, w1⟩ := writeStep_spec pre post ⟨k * max, k, size, segsAt 0 (it :: g)⟩ [] g it 0
        ⟨addr, idx, pre ++ ⟨k * max, k, size, segsAt 0 (it :: g)⟩ :: post, buf⟩ hpre' rfl rfl
        (Or.inr ⟨rfl, pre0, prev, h1, h2, h3, h4, h5⟩) (ok it List.mem_cons_self) (baseOf max k (it :: g)) hbl
        (by show _ ≤ buf.length; omega)
      have hd1 : dataSum [it] = it.size := by simp [dataSum]
      obtain ⟨b2, e2, l2, u2, w2⟩ := writeGroup_spec max k pre post size [it] g rest hpre' b1
        (fun x hx => ok x (List.mem_cons_of_mem _ hx)) (by rw [hd1, l1]; show baseOf max k (it :: g) + _ + _ ≤ buf.length; omega)
      rw [hd1] at e2 u2 w2
      change bulkPass2 (g ++ rest) ⟨k * max, 1, pre ++ ⟨k * max, k, size,
        segsAt (baseOf max k (it :: g)) [it] ++ segsAt it.size g⟩ :: post, b1⟩ = _ at e2
      change ∀ i, (i < (baseOf max k (it :: g) + it.size) * 8 ∨ (baseOf max k (it :: g) + it.size + dataSum g) * 8 ≤ i) → _ at u2
      change ∀ x ∈ placed (baseOf max k (it :: g) + it.size) g, _ at w2
      refine ⟨b2, ?_, by rw [l2, l1], ?_, ?_⟩
      · rw [List.cons_append, bulkPass2, e1, Option.bind_eq_bind, Option.bind_some]
        rw [Nat.add_zero, Nat.zero_add, List.nil_append]
        exact e2
      · intro i hi
        rw [hds] at hi
        rw [u2 i (by omega), u1 i (by omega)]
      · intro x hx
        rw [placed] at hx
        rcases List.mem_cons.1 hx with hx | hx
        · rw [hx]
          rw [Nat.add_zero] at w1
          exact written_mono it (ok it List.mem_cons_self) _ _ _ w1 (fun i hi => u2 i (Or.inl hi))
        · exact w2 x hx

/-- The second pass, from chunk `k` on. The state either is at the start of chunk `k` or at the end of
the previous one. -/
theorem pass2_spec (max : Nat) (hmax : 0 < max) (k : Nat) (g : List (Item E)) (gs : List (List (Item E))) (pre : List Chunk)
    (addr idx : Nat) (buf : List (BitVec 8))
    (hgs : ∀ x ∈ gs, x ≠ [])
    (hcost : ∀ x ∈ g :: gs, cost x ≤ max) (ok : ∀ x ∈ g :: gs, ∀ it ∈ x, ItemOk it)
    (hpre : ∀ c ∈ pre, c.offset < k * max)
    (hst : (addr = k * max ∧ idx = 0) ∨ (g ≠ [] ∧ ∃ pre0 prev, pre = pre0 ++ [prev] ∧ addr = prev.offset ∧
      (∀ c ∈ pre0, c.offset ≠ prev.offset) ∧ prev.segs.length ≤ idx ∧ prev.offset + prev.size = k * max))
    (hbuf : endOf max k (g :: gs) ≤ buf.length) :
    ∃ a i b, bulkPass2 (g :: gs).flatten ⟨addr, idx, pre ++ mkChunks max (fun _ _ => 0) k (g :: gs), buf⟩ =
        some ⟨a, i, pre ++ mkChunks max (baseOf max) k (g :: gs), b⟩ ∧ b.length = buf.length ∧
      (∀ j, j < baseOf max k g * 8 → bufBit b j = bufBit buf j) ∧
      ∀ x ∈ allPlaced max k (g :: gs), Written b x.1 x.2 := by
  induction gs generalizing k g pre addr idx buf with
  | nil =>
    have hle := endOf_le max k g [] hcost
    have hcg : baseOf max k g + dataSum g = k * max + cost g := by unfold baseOf cost; omega
    obtain ⟨b, e, l, u, w⟩ := startGroup_spec max k pre [] (cost g + simdPadding) g [] addr idx hpre buf
      (ok g List.mem_cons_self) hst (by omega)
    refine ⟨k * max, g.length, b, ?_, l, fun j hj => u j (Or.inl hj), ?_⟩
    · have : ([g] : List (List (Item E))).flatten = g ++ [] := by simp
      rw [this]
      exact e
    · intro x hx
      rw [allPlaced, allPlaced, List.append_nil] at hx
      exact w x hx
  | cons g2 gs ih =>
    have hcg : baseOf max k g + dataSum g = k * max + cost g := by unfold baseOf cost; omega
    have hc1 := hcost g List.mem_cons_self
    have hle := endOf_le max k g (g2 :: gs) hcost
    have hb2 : baseOf max (k+1) g2 ≥ (k + 1) * max := by unfold baseOf; omega
    rw [Nat.add_mul, Nat.one_mul] at hb2
    obtain ⟨b, e, l, u, w⟩ := startGroup_spec max k pre (mkChunks max (fun _ _ => 0) (k+1) (g2 :: gs)) max g (g2 :: gs).flatten
      addr idx hpre buf (ok g List.mem_cons_self) hst (by omega)
    have hpre2 : ∀ c ∈ pre ++ [⟨k * max, k, max, segsAt (baseOf max k g) g⟩], c.offset < (k+1) * max := by
      intro c hc
      rw [Nat.add_mul, Nat.one_mul]
      rcases List.mem_append.1 hc with hc | hc
      · have := hpre c hc; omega
      · rw [List.mem_singleton] at hc; rw [hc]; show k * max < _; omega
    obtain ⟨a, i, b2, e2, l2, u2, w2⟩ := ih (k+1) g2 (pre ++ [⟨k * max, k, max, segsAt (baseOf max k g) g⟩]) (k * max) g.length b
      (fun x hx => hgs x (List.mem_cons_of_mem _ hx)) (fun x hx => hcost x (List.mem_cons_of_mem _ hx))
      (fun x hx => ok x (List.mem_cons_of_mem _ hx)) hpre2
      (Or.inr ⟨hgs g2 List.mem_cons_self, pre, ⟨k * max, k, max, segsAt (baseOf max k g) g⟩, rfl, rfl,
        fun c hc => by have := hpre c hc; show c.offset ≠ k * max; omega,
        by show (segsAt _ g).length ≤ _; rw [segsAt_length],
        by show k * max + max = _; rw [Nat.add_mul, Nat.one_mul]⟩)
      (by rw [l]; rw [endOf_cons _ _ _ _ (by simp)] at hbuf; exact hbuf)
    refine ⟨a, i, b2, ?_, by rw [l2, l], ?_, ?_⟩
    · rw [List.flatten_cons, mkChunks_cons max _ k g (g2 :: gs) (by simp), mkChunks_cons max _ k g (g2 :: gs) (by simp), e]
      simpa using e2
    · intro j hj
      rw [u2 j (by omega), u j (Or.inl hj)]
    · intro x hx
      rw [allPlaced] at hx
      rcases List.mem_append.1 hx with hx | hx
      · have hw := w x hx
        refine written_mono x.1 ?_ _ _ _ hw (fun i hi => u2 i ?_)
        · exact ok g List.mem_cons_self _ (placed_mem _ _ _ hx).1
        · have := (placed_mem _ _ _ hx).2; omega
      · exact w2 x hx

end Acl.Chunks
