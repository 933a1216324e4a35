import Mathlib.Order.Lattice
import Mathlib.Logic.Function.Basic
import Verif.Core.BitRates
import Verif.Transform.Hierarchy
/-
The search for the bit rates of the animated sub-tracks of a segment.
/repo/includes/acl/compression/impl/quantize.transform.h:671-868 (the errors at given bit rates), 870-995
(calculate_local_space_bit_rates), 997-1049 (increase_bone_bit_rate), 1051-1096 (calculate_bone_permutation_error), 1111-1142
(initialize_bone_bit_rates), 1174-1498 (find_optimal_bit_rates)
/repo/includes/acl/compression/impl/transform_bit_rate_permutations.h (the tables)

The error of a bone at a sample, for given bit rates, is a parameter: in local space it depends on the rates of the bone, in
object space on those of all bones. Errors are in a linear order (no NaN). The bones of the chain of a bone are those of C59.
The arrays of bit rates are functions of the bone (the model does not check indices: the chains of C59 only hold bones of the
clip). Loops whose end does not follow from their shape take a number of iterations, `none` when it is used up.
-/
namespace Acl.Search
open Acl

/-- quantize.transform.h / transform_bit_rates (track_stream.h): 255 when the sub-track is not variable -/
structure Rates where
  rotation : Nat
  translation : Nat
  scale : Nat
  deriving DecidableEq, Repr

/-- The bit rates of all bones -/
abbrev BitRates := Nat → Rates

/-- What the search depends on -/
structure Setup (E : Type) where
  numSamples : Nat
  /-- bone, its rates, sample -/
  localError : Nat → Rates → Nat → E
  /-- the rates of all bones, bone, sample -/
  objectError : BitRates → Nat → Nat → E
  /-- `shell_metadata_per_transform[bone].precision` -/
  precision : Nat → E
  /-- 0.0F -/
  zero : E
  /-- 1.0E10F -/
  huge : E
  hasScale : Bool
  /-- compression_level8: medium is 2, high 3, highest 4 -/
  level : Nat
  /-- the rotation format is quatf_full -/
  fullRotations : Bool

/-- How the sub-tracks of a bone are stored (initialize_bone_bit_rates): variable, and normalized over the segment -/
structure Kinds where
  rotation : Bool × Bool
  translation : Bool × Bool
  scale : Bool × Bool

/-- quantize.transform.h:1121-1140, one sub-track -/
def initialRate (k : Bool × Bool) : Nat :=
  if k.1 then (if k.2 then 0 else kLowestBitRate) else kInvalidBitRate

/-- quantize.transform.h:1111-1142 -/
def initialRates (k : Kinds) : Rates :=
  { rotation := initialRate k.rotation, translation := initialRate k.translation, scale := initialRate k.scale }

/-- quantize.transform.h:724-769, 817-867: the largest error over the samples; a scan may stop at the first that is too high -/
def scan {E : Type} [LinearOrder E] (error : Nat → E) (threshold : E) (untilTooHigh : Bool) : List Nat → E → E
  | [], m => m
  | s :: rest, m =>
    if untilTooHigh ∧ threshold ≤ error s then max m (error s)
    else scan error threshold untilTooHigh rest (max m (error s))

/-- quantize.transform.h:673-769 `calculate_max_error_at_bit_rate_local` -/
def localMax {E : Type} [LinearOrder E] (S : Setup E) (bone : Nat) (r : Rates) : E :=
  scan (S.localError bone r) (S.precision bone) true (List.range S.numSamples) S.zero

/-- quantize.transform.h:771-868 `calculate_max_error_at_bit_rate_object` -/
def objectMax {E : Type} [LinearOrder E] (S : Setup E) (st : BitRates) (bone : Nat) (untilTooHigh : Bool) : E :=
  scan (S.objectError st bone) (S.precision bone) untilTooHigh (List.range S.numSamples) S.zero

/-! ### Local space -/

/-- The bit rates of `dofs` sub-tracks, in lexicographic order (calc_local_bit_rates.py:20-34) -/
def tuples : Nat → List (List Nat)
  | 0 => [[]]
  | n + 1 => (List.range kNumBitRates).flatMap fun d => (tuples n).map (d :: ·)

/-- get_num_bits_at_bit_rate -/
def numBits (rate : Nat) : Nat := (getNumBitsAtBitRate rate).getD 0

/-- transform_bit_rate_permutations.h: the tables hold every combination, sorted by size and then lexicographically, as they
are generated by tools/calc_local_bit_rates.py:36-39. (That this is the content of the header is checked by
tools/check_tables.py.) -/
def table (dofs : Nat) : List (List Nat) :=
  (List.range (32 * dofs + 1)).flatMap fun size => (tuples dofs).filter fun t => (t.map numBits).sum = size

/-- quantize.transform.h:929-947, one sub-track: a variable one takes the next bit rate of the permutation -/
def consume (rate : Nat) (row : List Nat) : Option (Nat × Nat × List Nat) :=
  if rate = kInvalidBitRate then some (rate, 0, row)
  else match row with
    | [] => none
    | d :: row => some (d, numBits d, row)

/-- quantize.transform.h:929-947: the desired bit rates and their size in bits (per component) -/
def desired (r : Rates) (row : List Nat) : Option (Rates × Nat) := do
  let (rotation, s0, row) ← consume r.rotation row
  let (translation, s1, row) ← consume r.translation row
  let (scale, s2, _) ← consume r.scale row
  some ({ rotation := rotation, translation := translation, scale := scale }, s0 + s1 + s2)

/-- quantize.transform.h:951-956: without a segment range, no sub-track can be stored on 0 bits -/
def skipped (initial r : Rates) : Bool :=
  (initial.rotation == kLowestBitRate && r.rotation == 0) ||
    ((initial.translation == kLowestBitRate && r.translation == 0) ||
      (initial.scale == kLowestBitRate && r.scale == 0))

/-- quantize.transform.h:910-913 -/
structure LocalBest (E : Type) where
  rates : Rates
  error : E
  prevSize : Nat
  goodEnough : Bool

/-- quantize.transform.h:974-979 -/
def LocalBest.update {E : Type} [LinearOrder E] (b : LocalBest E) (precision : E) (r : Rates) (size : Nat) (error : E) :
    LocalBest E :=
  if error < b.error then { rates := r, error := error, prevSize := size, goodEnough := error < precision }
  else { b with prevSize := size }

/-- quantize.transform.h:921-980 -/
def localLoop {E : Type} [LinearOrder E] (S : Setup E) (bone : Nat) (initial : Rates) :
    List (List Nat) → LocalBest E → Option (LocalBest E)
  | [], best => some best
  | row :: rows, best => do
    let (r, size) ← desired initial row
    if skipped initial r then localLoop S bone initial rows best
    else if best.goodEnough ∧ size ≠ best.prevSize then some best
    else localLoop S bone initial rows (best.update (S.precision bone) r size (localMax S bone r))

/-- quantize.transform.h:916-918 -/
def numDofs (r : Rates) : Nat :=
  (if r.rotation ≠ kInvalidBitRate then 1 else 0) + (if r.translation ≠ kInvalidBitRate then 1 else 0) +
    (if r.scale ≠ kInvalidBitRate then 1 else 0)

/-- quantize.transform.h:894-986, one bone -/
def localRates {E : Type} [LinearOrder E] (S : Setup E) (bone : Nat) (initial : Rates) : Option Rates :=
  if numDofs initial = 0 then some initial
  else (localLoop S bone initial (table (numDofs initial))
    { rates := initial, error := S.huge, prevSize := 2 ^ 32 - 1, goodEnough := false }).map (·.rates)

/-! ### Object space -/

/-- quantize.transform.h:989-993 -/
def incrementAndClamp (rate increment : Nat) : Nat :=
  if kHighestBitRate ≤ rate then rate else min (rate + increment) kHighestBitRate

/-- quantize.transform.h:1003-1007, 1009-1012, 1013-1016 and the breaks: the increments tried for a sub-track, from `i` on,
up to the first that reaches the highest bit rate -/
def increments (rate : Nat) : Nat → Nat → List Nat
  | 0, _ => []
  | n + 1, i => i :: if kHighestBitRate ≤ incrementAndClamp rate i then [] else increments rate n (i + 1)

/-- quantize.transform.h:1003-1028: the rates tried when a bone is raised by `num` -/
def candidates (hasScale : Bool) (r : Rates) (num : Nat) : List Rates :=
  (increments r.rotation (num + 1) 0).flatMap fun i =>
    (increments r.translation (num + 1) 0).flatMap fun j =>
      ((increments r.scale ((if hasScale then num else 0) + 1) 0).filter fun k => i + j + k = num).map fun k =>
        { rotation := incrementAndClamp r.rotation i, translation := incrementAndClamp r.translation j,
          scale := incrementAndClamp r.scale k }

/-- quantize.transform.h:1025-1034 -/
def keepBest {E : Type} [LinearOrder E] (S : Setup E) (st : BitRates) (bone : Nat) (best : Rates × E) (r : Rates) : Rates × E :=
  if objectMax S (Function.update st bone r) bone true < best.2 then
    (r, objectMax S (Function.update st bone r) bone true)
  else best

/-- quantize.transform.h:995-1049 `increase_bone_bit_rate`; the error it returns is not used -/
def increaseBone {E : Type} [LinearOrder E] (S : Setup E) (st : BitRates) (bone num : Nat) (oldError : E) : Rates :=
  ((candidates S.hasScale (st bone) num).foldl (keepBest S st bone) (st bone, oldError)).1

/-- quantize.transform.h:1063-1077: the bones of the chain raised as the permutation says, each on its own; and whether any
rate has changed -/
def applyPermutation {E : Type} [LinearOrder E] (S : Setup E) (st : BitRates) (oldError : E) :
    List (Nat × Nat) → BitRates × Bool → BitRates × Bool
  | [], x => x
  | (bone, num) :: rest, (perm, valid) =>
    if num ≠ 0 then
      applyPermutation S st oldError rest (Function.update perm bone (increaseBone S st bone num oldError),
        valid || increaseBone S st bone num oldError ≠ perm bone)
    else applyPermutation S st oldError rest (perm, valid)

/-- quantize.transform.h:1056-1093: the permutations, up to the first that is good enough. `best` is the smallest error and the
rates that have it. -/
def tryPermutations {E : Type} [LinearOrder E] (S : Setup E) (st : BitRates) (chain : List Nat) (bone : Nat) (oldError : E) :
    List (List Nat) → E × BitRates → E × BitRates
  | [], best => best
  | p :: rest, best =>
    let perm := applyPermutation S st oldError (chain.zip p) (st, false)
    if perm.2 then
      if objectMax S perm.1 bone true < best.1 then
        if objectMax S perm.1 bone true < S.precision bone then (objectMax S perm.1 bone true, perm.1)
        else tryPermutations S st chain bone oldError rest (objectMax S perm.1 bone true, perm.1)
      else tryPermutations S st chain bone oldError rest best
    else tryPermutations S st chain bone oldError rest best

/-- The lists of `n` increments up to 3, in lexicographic order -/
def words : Nat → List (List Nat)
  | 0 => [[]]
  | n + 1 => (List.range 4).flatMap fun d => (words n).map (d :: ·)

/-- Lexicographic order -/
def lexLe : List Nat → List Nat → Bool
  | [], _ => true
  | _ :: _, [] => false
  | a :: l, b :: m => decide (a < b) || (decide (a = b) && lexLe l m)

/-- quantize.transform.h:1056, 1094: `do { ... } while (std::next_permutation(...))` visits the permutations of the start that
do not precede it lexicographically, in that order (the C++ standard library) -/
def permutationsFrom (start : List Nat) : List (List Nat) :=
  (words start.length).filter fun p => p.isPerm start && lexLe start p

/-- quantize.transform.h:1244-1345: the permutations the search starts from, for a chain of `n` bones -/
def attempts (level n : Nat) : List (List Nat) :=
  let pad (l : List Nat) : List Nat := List.replicate (n - l.length) 0 ++ l
  [pad [1]] ++
    (if 3 ≤ level then pad [2] :: (if 1 < n then [pad [1, 1]] else []) else []) ++
    (if 4 ≤ level then pad [3] ::
      (if 1 < n then pad [2, 1] :: (if 2 < n then [pad [1, 1, 1]] else []) else []) else [])

/-- quantize.transform.h:1237-1350: the result of the attempts of an iteration -/
structure Tried (E : Type) where
  /-- an attempt was good enough: the loop ends -/
  found : Bool
  /-- the result of the last attempt -/
  error : E
  bestError : E
  bestRates : BitRates

/-- quantize.transform.h:1237-1350; `permRates` is the buffer `best_permutation_bit_rates`, whatever it holds -/
def tryAttempts {E : Type} [LinearOrder E] (S : Setup E) (st : BitRates) (chain : List Nat) (bone : Nat) (original : E) :
    List (List Nat) → Tried E → BitRates → Tried E
  | [], t, _ => t
  | a :: rest, t, permRates =>
    let r := tryPermutations S st chain bone original (permutationsFrom a) (original, permRates)
    if r.1 < t.bestError then
      if r.1 < S.precision bone then { found := true, error := r.1, bestError := r.1, bestRates := r.2 }
      else tryAttempts S st chain bone original rest { found := false, error := r.1, bestError := r.1, bestRates := r.2 } r.2
    else tryAttempts S st chain bone original rest { t with error := r.1 } r.2

/-- quantize.transform.h:1230-1373: raise the rates by steps as long as it helps; the error, the rates and the content of
`best_bit_rates` when the loop ends -/
def climb {E : Type} [LinearOrder E] (S : Setup E) (chain : List Nat) (bone : Nat) (permRates : BitRates) :
    Nat → E → BitRates → BitRates → Option (E × BitRates × BitRates)
  | 0, _, _, _ => none
  | fuel + 1, error, st, bestRates =>
    if S.precision bone ≤ error then
      let t := tryAttempts S st chain bone error (attempts S.level chain.length)
        { found := false, error := error, bestError := error, bestRates := bestRates } permRates
      if t.found then some (t.error, st, t.bestRates)
      else if error ≤ t.bestError then some (t.error, st, t.bestRates)
      else climb S chain bone permRates fuel t.bestError t.bestRates t.bestRates
    else some (error, st, bestRates)

/-- quantize.transform.h:1428: `std::min_element` picks the first of the smallest -/
def smallest (r : Rates) : Nat := min r.rotation (min r.translation r.scale)

/-- quantize.transform.h:1439-1442 -/
def raiseOnce (r : Rates) : Rates :=
  if r.rotation = r.translation ∧ r.translation < kHighestBitRate ∧ kHighestBitRate ≤ r.scale then
    { r with translation := r.translation + 1 }
  else if r.rotation = smallest r then { r with rotation := r.rotation + 1 }
  else if r.translation = smallest r then { r with translation := r.translation + 1 }
  else { r with scale := r.scale + 1 }

/-- quantize.transform.h:1424-1463: the best rates, their error, and whether the highest were reached. `link` is the bone of the
chain that is raised. -/
def raiseBone {E : Type} [LinearOrder E] (S : Setup E) (bone link : Nat) :
    Nat → BitRates → E → Rates × E → Option (Rates × E × Bool)
  | 0, _, _, _ => none
  | fuel + 1, st, error, best =>
    if S.precision bone ≤ error then
      if kHighestBitRate ≤ smallest (st link) then some (best.1, best.2, true)
      else
        let st := Function.update st link (raiseOnce (st link))
        raiseBone S bone link fuel st (objectMax S st bone false)
          (if objectMax S st bone false < best.2 then (st link, objectMax S st bone false) else best)
    else some (best.1, best.2, false)

/-- quantize.transform.h:1408-1470: the bones of a chain, from child to parent -/
def raiseChain {E : Type} [LinearOrder E] (S : Setup E) (bone fuel : Nat) :
    List Nat → BitRates → E → Nat → Option (BitRates × E × Nat)
  | [], st, error, numMaxed => some (st, error, numMaxed)
  | link :: rest, st, error, numMaxed => do
    let (r, e, maxed) ← raiseBone S bone link fuel st error (st link, error)
    let numMaxed := if maxed then numMaxed + 1 else numMaxed
    if e < S.precision bone then some (Function.update st link r, e, numMaxed)
    else raiseChain S bone fuel rest (Function.update st link r) e numMaxed

/-- quantize.transform.h:1402-1476 -/
def raiseAll {E : Type} [LinearOrder E] (S : Setup E) (chain : List Nat) (bone fuel : Nat) :
    Nat → BitRates → E → Option (BitRates × E)
  | 0, _, _ => none
  | rounds + 1, st, error =>
    if S.precision bone ≤ error then do
      let (st, error, numMaxed) ← raiseChain S bone fuel chain.reverse st error 0
      if numMaxed = chain.length then some (st, error)
      else raiseAll S chain bone fuel rounds st error
    else some (st, error)

/-- quantize.transform.h:1491-1493 -/
def maxedOut (r : Rates) : Rates :=
  { rotation := max r.rotation kHighestBitRate, translation := max r.translation kHighestBitRate,
    scale := max r.scale kHighestBitRate }

/-- quantize.transform.h:1486-1499 -/
def maxOut {E : Type} [LinearOrder E] (S : Setup E) (bone : Nat) : List Nat → BitRates → BitRates
  | [], st => st
  | link :: rest, st =>
    let st := Function.update st link (maxedOut (st link))
    if objectMax S st bone false < S.precision bone then st else maxOut S bone rest st

/-- quantize.transform.h:1401-1500: what follows the climb -/
def finishBone {E : Type} [LinearOrder E] (S : Setup E) (fuel : Nat) (chain : List Nat) (bone : Nat) (st : BitRates) :
    Option BitRates := do
  let (st, error) ← raiseAll S chain bone fuel fuel st (objectMax S st bone false)
  if S.precision bone ≤ error ∧ S.fullRotations then some (maxOut S bone chain.reverse st) else some st

/-- quantize.transform.h:1217-1500: one bone. The state is the rates and the content of `best_bit_rates`. -/
def optimizeBone {E : Type} [LinearOrder E] (S : Setup E) (fuel : Nat) (permRates : BitRates) (chain : List Nat) (bone : Nat)
    (st bestRates : BitRates) : Option (BitRates × BitRates) :=
  if objectMax S st bone true < S.precision bone then some (st, bestRates)
  else do
    let (error, climbed, bestRates) ← climb S chain bone permRates fuel (objectMax S st bone true) st bestRates
    let final ← finishBone S fuel chain bone (if error < objectMax S st bone true then bestRates else climbed)
    some (final, bestRates)

/-- quantize.transform.h:1215-1500: the bones, parents first -/
def optimizeBones {E : Type} [LinearOrder E] (S : Setup E) (fuel : Nat) (permRates : BitRates)
    (chain : Nat → Option (List Nat)) : List Nat → BitRates → BitRates → Option BitRates
  | [], st, _ => some st
  | bone :: rest, st, bestRates => do
    let links ← chain bone
    let (st, bestRates) ← optimizeBone S fuel permRates links bone st bestRates
    optimizeBones S fuel permRates chain rest st bestRates

/-- quantize.transform.h:1174-1515 `find_optimal_bit_rates`; `permRates` is the initial content of
`best_permutation_bit_rates` (which is not initialized). The buffer is handed to every iteration with that content: what it
holds is never used (tryAttempts_irrelevant). -/
def findOptimalBitRates {E : Type} [LinearOrder E] (S : Setup E) (fuel : Nat) (permRates : BitRates) (parents : List Nat)
    (kinds : Nat → Kinds) : Option BitRates := do
  let l ← (List.range parents.length).mapM fun b => localRates S b (initialRates (kinds b))
  let st : BitRates := fun b => l.getD b { rotation := 0, translation := 0, scale := 0 }
  let chains ← Hierarchy.build parents fuel
  optimizeBones S fuel permRates (Hierarchy.boneChain chains) (Hierarchy.sortParentFirst parents) st st

end Acl.Search
