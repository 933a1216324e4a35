import Verif.Props.C29
/-!
C30: the table of track names round trips for every list of names.
-/
namespace Acl.C30
open Acl.Meta Acl.C29

/-- A list of tracks with these names, all of them output. -/
def named (isTransform : Bool) (t : Track) (names : List Bytes) : Source where
  isTransform := isTransform
  listName := []
  tracks := names.map fun n => { t with name := n }
  mapping := List.range names.length
  errors := []

/-- **Round trip**: whatever the names (empty ones, repeated ones), `get_track_name(i)` is the i-th name, and past the
end it is empty. -/
theorem C30_round_trip (x : Extra) (s : Settings) (isTransform : Bool) (t : Track) (names : List Bytes) (h : Header) (data : Bytes)
    (hn : ∀ n ∈ names, 0#8 ∉ n) (hc : names.length < 2 ^ 32) (hs : s.trackNames = true)
    (hf : Fits x s (named isTransform t names) h data) :
    ∃ buf, compress x s (named isTransform t names) h data = some buf ∧
      ∀ i : Nat, getTrackName buf i = some (.str (names.getD i [])) := by
  have hv : Valid (named isTransform t names) := by
    refine ⟨?_, ?_, by simp [named], ?_⟩
    · intro i hi
      simpa [named] using hi
    · simpa [named] using hc
    · intro tr htr
      simp only [named, List.mem_map] at htr
      obtain ⟨n, hn', rfl⟩ := htr
      exact hn n hn'
  obtain ⟨buf, hb, h1, h2⟩ := C29_track_name x s _ h data hv hf
  refine ⟨buf, hb, fun i => ?_⟩
  by_cases hi : i < names.length
  · have := h1 i { t with name := names[i] } (by
      unfold outputTrack named
      simp [List.getElem?_range hi, hi])
    rw [this, hs, if_pos rfl]
    rw [List.getD_eq_getElem?_getD, List.getElem?_eq_getElem hi]; rfl
  · rw [h2 i (by simp [named]; omega), List.getD_eq_getElem?_getD, List.getElem?_eq_none (by omega)]; rfl

/-- Names of tracks that are stripped or reordered follow their track: the name of output track `i` is the name of the
track it is mapped to. -/
theorem C30_follows_mapping (x : Extra) (s : Settings) (src : Source) (h : Header) (data : Bytes) (hv : Valid src)
    (hf : Fits x s src h data) (hs : s.trackNames = true) :
    ∃ buf, compress x s src h data = some buf ∧
      ∀ (i k : Nat) (t : Track), src.mapping[i]? = some k → src.tracks[k]? = some t → getTrackName buf i = some (.str t.name) := by
  obtain ⟨buf, hb, h1, -⟩ := C29_track_name x s src h data hv hf
  refine ⟨buf, hb, fun i k t hi hk => ?_⟩
  rw [h1 i t (by unfold outputTrack; rw [hi]; exact hk), hs, if_pos rfl]

/-- Example: three names, one empty, two equal, read back from the bytes. -/
example : (compress ⟨false, false⟩ ⟨false, true, false, false, false⟩
      (named false (exTrack [] 0 0) [[97#8], [], [97#8], [98#8, 99#8]]) exHeader [1#8, 2#8]).map
        (fun buf => [getTrackName buf 0, getTrackName buf 1, getTrackName buf 3, getTrackName buf 4, getName buf]) =
    some [some (.str [97#8]), some (.str []), some (.str [98#8, 99#8]), some (.str []), some .null] := by decide +kernel

end Acl.C30
