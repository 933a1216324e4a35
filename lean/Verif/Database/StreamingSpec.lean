import Verif.Database.Streaming
/-!
Specification of database streaming as a user sees it, independent of bit sets and request arrays.

The abstract state is, per tier, the set of loaded chunks and the request in flight, if any.
-/
namespace Acl.Streaming.Spec

/-- A request in flight. -/
structure Pending where
  action : Action
  first : Nat
  count : Nat
  id : Nat
  deriving DecidableEq, Repr

/-- Chunk `i` belongs to the request. -/
def Pending.covers (p : Pending) (i : Nat) : Bool := decide (p.first ≤ i) && decide (i < p.first + p.count)

structure AState where
  loaded : Tier → Nat → Bool
  pending : Tier → Option Pending

/-- Nothing loaded, nothing in flight. -/
def AState.empty : AState := ⟨fun _ _ => false, fun _ => none⟩

/-- A request with its outcome changes exactly the chunks it covers. -/
def applyRequest (L : Nat → Bool) (p : Pending) (success : Bool) : Nat → Bool := fun i =>
  if p.covers i then
    match p.action with
    | .streamIn => success || L i
    | .streamOut => false
  else L i

/-- The completion of request `id` of streamer `k`: only the tier whose request in flight has that
identifier is affected; without such a tier nothing changes. -/
def afterFinish (cfg : Cfg) (a : AState) (k id : Nat) (success : Bool) : AState where
  loaded t := match a.pending t with
    | some p => if cfg.streamerOf t = k ∧ p.id = id then applyRequest (a.loaded t) p success else a.loaded t
    | none => a.loaded t
  pending t := match a.pending t with
    | some p => if cfg.streamerOf t = k ∧ p.id = id then none else some p
    | none => none

/-- What a stream request may do. -/
inductive StreamStep (cfg : Cfg) (a : AState) (act : Action) (t : Tier) (n : Nat) :
    AState → Result → Option Dispatch → Prop
  /-- the highest tier is never streamed -/
  | invalid : t = .highest → StreamStep cfg a act t n a .invalidDatabaseTier none
  /-- a request is in flight: refused, no effect -/
  | busy : t ≠ .highest → a.pending t ≠ none → StreamStep cfg a act t n a .streamingInProgress none
  /-- the streamer has no free request: refused, no effect -/
  | noFree : t ≠ .highest → a.pending t = none → StreamStep cfg a act t n a .noFreeStreamingRequests none
  /-- nothing to do: no effect -/
  | done : t ≠ .highest → a.pending t = none → StreamStep cfg a act t n a .done none
  /-- one contiguous, non empty, in range block of chunks is requested -/
  | dispatched (first count id : Nat) (flag : Bool) :
      t ≠ .highest → a.pending t = none →
      1 ≤ count → first + count ≤ cfg.numChunks t → (1 ≤ n → count ≤ n) →
      (act = .streamIn → a.loaded t first = false) →
      (act = .streamOut → ∀ i, first ≤ i → i < first + count → a.loaded t i = true) →
      StreamStep cfg a act t n
        { a with pending := fun u => if u = t then some ⟨act, first, count, id⟩ else a.pending u }
        .dispatched (some ⟨act, t, first, count, id, flag⟩)

inductive Step (cfg : Cfg) (a : AState) : Op → AState → Option (Result × Option Dispatch) → Prop
  | streamIn {t n a' r d} : StreamStep cfg a .streamIn t n a' r d → Step cfg a (.streamIn t n) a' (some (r, d))
  | streamOut {t n a' r d} : StreamStep cfg a .streamOut t n a' r d → Step cfg a (.streamOut t n) a' (some (r, d))
  | complete {k id} : Step cfg a (.complete k id) (afterFinish cfg a k id true) none
  | cancel {k id} : Step cfg a (.cancel k id) (afterFinish cfg a k id false) none

/-- Freshly constructed streamers: at least one request, all free (database_streamer.h:57-67, the uint32_t
count fits). -/
def FreshRequests (requests : Nat → List Request) : Prop :=
  ∀ k, 0 < (requests k).length ∧ (requests k).length < 2 ^ 32 ∧ ∀ r ∈ requests k, r.tier = .highest

/-- Chunk counts fit comfortably in uint32_t (a chunk is at least 4 KB of a bulk data of at most 4 GB). -/
def SmallChunks (cfg : Cfg) : Prop := ∀ t, cfg.numChunks t ≤ 2 ^ 31

/-- Request identifiers are 64 bit values. -/
def OpOk : Op → Prop
  | .complete _ id => id < 2 ^ 64
  | .cancel _ id => id < 2 ^ 64
  | _ => True

/-- A history of the specification, with the requests sent to the streamers. -/
inductive Run (cfg : Cfg) : AState → List Op → AState → List Dispatch → Prop
  | nil (a) : Run cfg a [] a []
  | cons {a op a' out ops a'' ds} : Step cfg a op a' out → Run cfg a' ops a'' ds →
      Run cfg a (op :: ops) a'' ((match out with | some (_, some d) => [d] | _ => []) ++ ds)

end Acl.Streaming.Spec
