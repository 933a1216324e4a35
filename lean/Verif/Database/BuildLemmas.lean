import Verif.Database.Build
import Verif.Database.RoundTrip
import Verif.Props.C22
import Verif.Props.C47
/-
What build_database reads of its clips and what it writes.
-/
namespace Acl.DbBuild
open Acl.Headers Acl.Tiers Acl.Chunks Acl.Runtime Acl.Rewrite Acl.Transform Acl.Meta Acl.C43 Acl.C21 Acl.C22 Acl.C23

theorem each_some {α β : Type} {f : α → Option β} (g : α → β) (l : List α) (h : ∀ a ∈ l, f a = some (g a)) : each f l = some (l.map g) := by
  induction l with
  | nil => rfl
  | cons a l ih => rw [each, h a List.mem_cons_self, Option.bind_some, ih fun x hx => h x (List.mem_cons_of_mem _ hx)]; rfl

theorem each_map {α β γ : Type} (f : β → Option γ) (g : α → β) (l : List α) : each f (l.map g) = each (fun a => f (g a)) l := by
  induction l with
  | nil => rfl
  | cons a l ih => rw [List.map_cons, each, each, ih]

/-- A clip given to build_database and where it comes from. -/
structure Input where
  c : ClipSource
  e : Meta.Extra
  s : Meta.Settings
  src : Meta.Source
  f : ClipFlags
  m : List (BitVec 8)

/-- The numbers of samples of the segments. -/
def Input.sizes (x : Input) : List Nat := x.c.segments.map (·.numSamples)

variable {E : Type} [LinearOrder E] [OrderTop E] [Zero E]

/-- A clip build_database can use: it was compressed with contributing error, without stripping key frames; the contributing error
is the removal order of its key frames (C43). -/
structure InputOk (value : BitVec 32 → E) (metrics : List (SegmentMetric E)) (x : Input) : Prop where
  compressed : Compressed x.c x.e x.s x.src x.f x.m
  transform : x.src.isTransform = true
  error : (x.s.contributingError || x.e.databaseSupport) = true
  whole : x.c.stripped = false
  sizes : SizesOk x.sizes
  metricsLen : metrics.length = x.sizes.length
  order : IsClipOrder metrics x.sizes (x.src.errors.map (keyframeOf value))

theorem sum_sizes (c : ClipSource) : (c.segments.map (·.numSamples)).sum = c.numSamples := rfl

theorem InputOk.input {value : BitVec 32 → E} {metrics : List (SegmentMetric E)} {x : Input} (h : InputOk value metrics x) :
    DbInput x.c x.e x.s x.src x.f x.m where
  compressed := h.compressed
  transform := h.transform
  error := h.error
  errors := by
    have := h.order.keyframes.length_eq
    rw [List.length_map, List.length_map, List.length_range] at this
    exact this
  whole := h.whole
  short := by
    intro t ht
    have hm : t.numSamples ∈ x.sizes := List.mem_map.2 ⟨t, ht, rfl⟩
    rcases h.sizes with hs | hs
    · exact (hs _ hm).2
    · rw [hs] at hm
      simp at hm
      omega

section
variable {c : ClipSource} {e : Meta.Extra} {s : Meta.Settings} {src : Meta.Source} {f : ClipFlags} {m : List (BitVec 8)}

theorem errors_read (h : DbInput c e s src f m) (i : Nat) (x : KeyframeError) (hx : src.errors[i]? = some x) :
    Meta.getContributingError m i = some (some x) := by
  obtain ⟨y, hy, w⟩ := h.compressed.written
  have hr := w.result
  unfold Clip.compress at hr
  cases hw : Clip.writeClip y with
  | none => rw [hw] at hr; simp at hr
  | some d =>
    rw [hw] at hr
    simp only [Option.bind_eq_bind, Option.bind_some] at hr
    obtain ⟨buf, h1, h2⟩ := C29.C29_contributing_error e s src (c.header f) (d.drop Clip.base) w.valid (by
      intro buf hb
      rw [hr] at hb
      cases hb
      exact w.small) h.transform
    rw [hr, Option.some.injEq] at h1
    subst h1
    rw [h2 i x hx, h.error, if_pos rfl]

theorem tierClip_ok (h : DbInput c e s src f m) (value : BitVec 32 → E) :
    ∃ starts, tierClip value m = some ⟨c.numSamples, c.segments.length, starts, (List.range c.segments.length).map (frameWidth c.bones),
        src.errors.map (keyframeOf value)⟩ ∧
      (c.segments.length ≠ 1 → starts = Segmenting.segmentStartIndices (c.segments.map (·.numSamples))) := by
  obtain ⟨starts, h1, h2⟩ := h.compressed.seekClip
  obtain ⟨headersAt, _, _, _, hsec⟩ := h.sections
  refine ⟨starts, ?_, h2⟩
  unfold tierClip
  rw [h1, Option.bind_some]
  dsimp only
  rw [each_some (frameWidth c.bones) (List.range c.segments.length), Option.bind_some, each_some (fun i => keyframeOf value (src.errors.getD i ⟨0, 0, 0, 0, 0⟩))
    (List.range c.numSamples), Option.map_some, ← h.errors]
  · congr 2
    apply List.ext_getElem?
    intro i
    by_cases hi : i < src.errors.length
    · rw [List.getElem?_map, List.getElem?_range hi, List.getElem?_map, List.getElem?_eq_getElem hi, Option.map_some, Option.map_some,
        List.getD_eq_getElem?_getD, List.getElem?_eq_getElem hi]
      rfl
    · rw [List.getElem?_eq_none (by rw [List.length_map, List.length_range]; omega), List.getElem?_eq_none (by rw [List.length_map]; omega)]
  · intro i hi
    rw [List.mem_range, ← h.errors] at hi
    have := List.getElem?_eq_getElem hi
    rw [errors_read h i _ this, Option.bind_some, List.getD_eq_getElem?_getD, this]
    rfl
  · intro g hg
    rw [List.mem_range] at hg
    have ht := List.getElem?_eq_getElem hg
    obtain ⟨x, hx, w⟩ := h.compressed.written
    have hlt : g < x.segments.length := by rw [hx.length]; exact hg
    have hy := List.getElem?_eq_getElem hlt
    have is := hx.segments _ _ _ ht hy
    obtain ⟨_, _, _, _, -, -, -, -, -, -, -, -, hseg⟩ := C32.C32_contents w
    obtain ⟨p, fmt, rng, anim, a1, a2, a3, -⟩ := hseg g _ hy
    rw [a1, Option.bind_some, a3, Option.map_some, is.pose, BitVec.toNat_ofNat]
    congr 1
    apply Nat.mod_eq_of_lt
    have ok := h.compressed.clip.segments g _ ht
    have hsm := ok.small
    have hpos := numStored_pos ok
    have := Nat.mul_le_mul_left (frameWidth c.bones g) hpos
    omega

theorem header_fields {m : List (BitVec 8)} {h : Header} (hh : Meta.loadTracksHeader m = some h) :
    load32 m 8 = some h.tag ∧ load16 m 12 = some h.version ∧ m[14]? = some h.algorithm := by
  unfold Meta.loadTracksHeader at hh
  simp only [Option.bind_eq_bind, Option.bind_eq_some_iff] at hh
  obtain ⟨a, ha, b, hb, d, hd, e, he, g, hg, i, hi, j, hj, k, hk, hx⟩ := hh
  rw [Option.some.injEq] at hx
  subst hx
  exact ⟨ha, hb, hd⟩

theorem misc_flags (c : ClipSource) (f : ClipFlags) (b : Bool) :
    getHasDatabase (setHasMetadata (c.misc f) b) = false ∧ getHasStrippedKeyframes (setHasMetadata (c.misc f) b) = c.stripped ∧
    getHasMetadata (setHasMetadata (c.misc f) b) = b := by
  unfold ClipSource.misc
  generalize c.hasScale = x1
  generalize f.defaultScaleOne = x2
  generalize f.trivialDefaults = x3
  generalize c.stripped = x4
  generalize f.wrapOptimized = x5
  cases c.rotationFormat <;> cases c.translationFormat <;> cases c.scaleFormat <;> revert x1 x2 x3 x4 x5 b <;> decide +kernel

theorem accepts_ok (h : DbInput c e s src f m) : accepts m = some true := by
  obtain ⟨b, hb⟩ := h.compressed.header
  obtain ⟨f1, f2, f3⟩ := header_fields hb
  obtain ⟨m1, m2, m3⟩ := misc_flags c f b
  have hpos : 0 < src.errors.length := by
    have h1 := segments_pos h.compressed.clip
    have h2 := segments_le h.compressed.clip
    rw [h.errors]; omega
  have he := errors_read h 0 _ (List.getElem?_eq_getElem hpos)
  unfold Meta.getContributingError at he
  rw [hb] at he
  simp only [Option.bind_eq_bind, Option.bind_some, m3] at he
  have hbt : b = true := by
    cases b with
    | true => rfl
    | false => simp at he
  subst hbt
  simp only [Bool.not_true, Bool.false_eq_true, if_false, pure_bind] at he
  unfold accepts
  have hv : tracksIsValid m true false = some .ok := by
    unfold tracksIsValid
    simp only [Bool.not_true, Bool.false_eq_true, if_false, Option.bind_eq_bind, f1, f2, f3, Option.bind_some]
    rfl
  rw [hv, Option.bind_some, if_neg (by simp), hb, Option.bind_some, m1, if_neg (by simp), m2, h.whole, if_neg (by simp), m3, if_neg (by simp)]
  cases hx : Meta.metadataField m 4 with
  | none => rw [hx] at he; simp at he
  | some o =>
    rw [hx] at he
    rw [Option.map_some]
    cases hv : ptrOffsetIsValid o with
    | true => rfl
    | false => simp [hv] at he

end

end Acl.DbBuild
