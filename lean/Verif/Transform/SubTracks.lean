import Verif.Core.Bits
/-
Model of the packed sub-track types table: its writer and the loops that walk it.
/repo/includes/acl/compression/impl/write_sub_track_types.h
/repo/includes/acl/decompression/impl/decompression.transform.h
-/
namespace Acl.Transform

/-- The three kinds of sub-tracks of a transform track. -/
inductive Kind where | rotation | translation | scale
  deriving DecidableEq, Repr

/-- transform_streams: the flags the writer looks at, for one kind of sub-track. -/
structure StreamFlags where
  isDefault : Bool
  isConstant : Bool
  deriving DecidableEq, Repr

/-- write_sub_track_types.h:69-75 (105-111, 143-149). -/
def packedType (f : StreamFlags) : BitVec 32 :=
  if f.isDefault then 0 else if f.isConstant then 1 else 2

/-- write_sub_track_types.h:51-53: entries written so far, `packed_entry_size`, `packed_entry`. -/
structure PackState where
  entries : List (BitVec 32)
  size : Nat
  entry : BitVec 32

/-- write_sub_track_types.h:58-80: one iteration of the loop over the output bones. -/
def packStep (st : PackState) (outputIndex : Nat) (f : StreamFlags) : PackState :=
  let st := if st.size = 16 then ⟨st.entries ++ [st.entry], 0, 0⟩ else st
  let packedIndex := outputIndex % 16
  ⟨st.entries, st.size + 1, st.entry ||| (packedType f <<< ((15 - packedIndex) * 2))⟩

/-- write_sub_track_types.h:56-80: the loop over the output bones. -/
def packLoop : PackState → Nat → List StreamFlags → PackState
  | st, _, [] => st
  | st, i, f :: fs => packLoop (packStep st i f) (i + 1) fs

/-- write_sub_track_types.h:82-88: flush the partial entry. -/
def packFlush (st : PackState) : PackState :=
  if st.size ≠ 0 then ⟨st.entries ++ [st.entry], 0, 0⟩ else st

/-- write_sub_track_types.h:43-160 `write_packed_sub_track_types`: the flags of the output bones (already
looked up through output_bone_mapping) of the three kinds; scales only when the clip has scale. -/
def writePackedSubTrackTypes (hasScale : Bool) (rotations translations scales : List StreamFlags) :
    List (BitVec 32) :=
  let st : PackState := ⟨[], 0, 0⟩
  let st := packFlush (packLoop st 0 rotations)
  let st := packFlush (packLoop st 0 translations)
  let st := if hasScale then packFlush (packLoop st 0 scales) else st
  st.entries

/-- decompression.transform.h:1552 `num_sub_track_entries`. -/
def numSubTrackEntries (numTracks : Nat) : Nat := (numTracks + 16 - 1) / 16

/-- decompression.transform.h:1806-1818: the type of one sub-track. `base` is the first entry of the kind.
`none`: out of bounds. -/
def subTrackType (types : List (BitVec 32)) (base trackIndex : Nat) : Option (BitVec 32) :=
  match types[base + trackIndex / 16]? with
  | none => none
  | some e => some ((e >>> ((15 - trackIndex % 16) * 2)) &&& 0x3#32)

/-- decompression.transform.h:1806-1820: the types of the three sub-tracks of a track (rotation, translation,
scale); without scale the rotation entry is loaded and masked out. -/
def subTrackTypes (types : List (BitVec 32)) (hasScale : Bool) (numTracks trackIndex : Nat) :
    Option (BitVec 32 × BitVec 32 × BitVec 32) :=
  let n := numSubTrackEntries numTracks
  match subTrackType types 0 trackIndex, subTrackType types n trackIndex,
      subTrackType types (if hasScale then n + n else 0) trackIndex with
  | some r, some t, some s => some (r, t, (if hasScale then 0xFFFFFFFF#32 else 0#32) &&& s)
  | _, _, _ => none

/-- decompression.transform.h:1552-1560: mask that strips the padding of the last entry. A shift by 32 would
be undefined but `(16 - num_padded) * 2` is at most 30 when there is padding. -/
def paddingMask (numTracks : Nat) : BitVec 32 :=
  let numPadded := numSubTrackEntries numTracks * 16 - numTracks
  if numPadded ≠ 0 then ~~~(0xFFFFFFFF#32 >>> ((16 - numPadded) * 2)) else 0xFFFFFFFF#32

/-- decompression.transform.h:603-607 (and the translation and scale copies): default sub-tracks of an entry. -/
def selectDefault (lastEntry : Nat) (padding : BitVec 32) (entryIndex : Nat) (e : BitVec 32) : BitVec 32 :=
  let e := (~~~e - 0x55555555#32) &&& 0xAAAAAAAA#32
  e &&& (if entryIndex = lastEntry then padding else 0xFFFFFFFF#32)

/-- decompression.transform.h:692 (and copies): constant sub-tracks of an entry. -/
def selectConstant (e : BitVec 32) : BitVec 32 := andNot (~~~0x55555555#32) e

/-- decompression.transform.h:769 (and copies): animated sub-tracks of an entry. -/
def selectAnimated (e : BitVec 32) : BitVec 32 := andNot (~~~0xAAAAAAAA#32) e

/-- The masks of the four lanes of a group: decompression.transform.h:627,641,655,669 (default, animated). -/
def highLanes : List (BitVec 32) := [0x80000000#32, 0x20000000#32, 0x08000000#32, 0x02000000#32]
/-- decompression.transform.h:715,724,733,742 (constant). -/
def lowLanes : List (BitVec 32) := [0x40000000#32, 0x10000000#32, 0x04000000#32, 0x01000000#32]

/-- The four `if` statements of a group: `onTrack` runs for the lanes whose bit is set. -/
def visitLanes {σ : Type} (onTrack : σ → Nat → Option σ) (group : BitVec 32) :
    List (BitVec 32) → Nat → σ → Option σ
  | [], _, s => some s
  | mask :: masks, track, s =>
    if group &&& mask ≠ 0 then
      match onTrack s track with
      | none => none
      | some s => visitLanes onTrack group masks (track + 1) s
    else visitLanes onTrack group masks (track + 1) s

/-- decompression.transform.h:614-683 (and the other eight copies): the `while (packed_entry != 0)` loop over
the groups of an entry. `fuel` counts iterations: shifting by 8 four times clears the entry, so four
iterations are all there can be. `groupMask` is 0xAA000000 or 0x55000000. -/
def visitGroups {σ : Type} (groupMask : BitVec 32) (lanes : List (BitVec 32)) (onGroup : σ → Option σ)
    (onTrack : σ → Nat → Option σ) : Nat → BitVec 32 → Nat → σ → Option σ
  | 0, _, _, s => some s
  | fuel + 1, entry, track, s =>
    if entry = 0 then some s
    else if entry &&& groupMask = 0 then
      visitGroups groupMask lanes onGroup onTrack fuel (entry <<< 8) (track + 4) s
    else
      match onGroup s with
      | none => none
      | some s =>
        match visitLanes onTrack entry lanes track s with
        | none => none
        | some s => visitGroups groupMask lanes onGroup onTrack fuel (entry <<< 8) (track + 4) s

/-- decompression.transform.h:590-684 (and copies): the loop over the entries of a kind, `count` of them left
starting at `entryIndex`; `base` is the first entry of the kind in the table. -/
def visitEntries {σ : Type} (types : List (BitVec 32)) (base : Nat) (select : Nat → BitVec 32 → BitVec 32)
    (groupMask : BitVec 32) (lanes : List (BitVec 32)) (onEntry onGroup : σ → Option σ)
    (onTrack : σ → Nat → Option σ) : Nat → Nat → σ → Option σ
  | 0, _, s => some s
  | count + 1, entryIndex, s =>
    match types[base + entryIndex]? with
    | none => none
    | some e =>
      match onEntry s with
      | none => none
      | some s =>
        match visitGroups groupMask lanes onGroup onTrack 4 (select entryIndex e) (entryIndex * 16) s with
        | none => none
        | some s => visitEntries types base select groupMask lanes onEntry onGroup onTrack count (entryIndex + 1) s

/-- decompression.transform.h:1865-1890: number of sub-tracks of a class (mask 0x55555555 constant, 0xAAAAAAAA
animated) before `trackIndex`. `scaleMask` is the 0 or ~0 mask of the scale entries. The entry of the
track itself is stripped from that track on (`num_padded_sub_tracks` is never 0). -/
def countBefore (types : List (BitVec 32)) (base trackIndex : Nat) (scaleMask classMask : BitVec 32) :
    Nat → Nat → BitVec 32 → Option (BitVec 32)
  | 0, _, acc => some acc
  | count + 1, entryIndex, acc =>
    let lastEntry := trackIndex / 16
    let numPadded := (lastEntry + 1) * 16 - trackIndex
    let padding : BitVec 32 := if numPadded ≠ 0 then 0xFFFFFFFF#32 >>> ((16 - numPadded) * 2) else 0#32
    match types[base + entryIndex]? with
    | none => none
    | some e =>
      let e := scaleMask &&& andNot (if entryIndex = lastEntry then padding else 0#32) e
      countBefore types base trackIndex scaleMask classMask count (entryIndex + 1)
        (acc + countSetBits32 (e &&& classMask))

end Acl.Transform
