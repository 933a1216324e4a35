import Verif.Database.StreamContext
import Verif.Database.BuildSpec
import Verif.Props.C24
/-
Specification of C54: what a streamer has to do, and what the decoder gets.
-/
namespace Acl.DbStream
open Acl.Streaming Acl.Streaming.Spec Acl.Runtime Acl.DbBuild Acl.Transform Acl.Seek.Spec

/-- What a streamer knows of a tier: the bytes of its bulk data that are to be kept, and the request in flight. -/
structure Ledger where
  keep : Nat → Nat → Bool
  inFlight : Nat → Option Sent

/-- Nothing to keep, nothing in flight. -/
def Ledger.empty : Ledger := ⟨fun _ _ => false, fun _ => none⟩

/-- Byte `q` of the bulk data is in the range of the request. -/
def Sent.has (m : Sent) (q : Nat) : Bool := decide (m.offset ≤ q) && decide (q < m.offset + m.size)

/-- Request `id` of streamer `k` is the one in flight for tier `t`. -/
def Ledger.finds (L : Ledger) (cfg : Cfg) (k id t : Nat) : Option Sent :=
  (L.inFlight t).bind fun m => if cfg.streamerOf (tierOf t) = k ∧ m.id = id then some m else none

/-- The ledger after an operation which sent `sent`. Bytes are to be kept from when they have been streamed in until they are
asked to be streamed out. -/
def Ledger.step (L : Ledger) (cfg : Cfg) (op : DbOp) (sent : Option Sent) : Ledger :=
  match op, sent with
  | .call _, some m =>
    { keep := fun t q => if t = tierIndex m.tier ∧ m.action = .streamOut ∧ m.has q = true then false else L.keep t q
      inFlight := fun t => if t = tierIndex m.tier then some m else L.inFlight t }
  | .call (.complete k id), none =>
    { keep := fun t q => match L.finds cfg k id t with
        | some m => if m.action = .streamIn ∧ m.has q = true then true else L.keep t q
        | none => L.keep t q
      inFlight := fun t => if (L.finds cfg k id t).isSome then none else L.inFlight t }
  | .call (.cancel k id), none => { L with inFlight := fun t => if (L.finds cfg k id t).isSome then none else L.inFlight t }
  | _, _ => L

/-- What a streamer promises: when it completes a request to stream in, the bytes of the request are in memory; as long as
bytes are to be kept, they are not changed, and the bulk data is allocated whole; it never cancels a request to stream out. -/
def Promise (bulk : Nat → List (BitVec 8)) (cfg : Cfg) (s : DbState) (L : Ledger) : DbOp → Prop
  | .write t memory => t < 2 → ∀ q, L.keep t q = true → memory[q]? = (bulk t)[q]? ∧ (bulk t).length ≤ memory.length
  | .call (.complete k id) => ∀ t, t < 2 → ∀ m, L.finds cfg k id t = some m → m.action = .streamIn →
      (bulk t).length ≤ (s.memory t).length ∧ ∀ q, m.has q = true → (s.memory t)[q]? = (bulk t)[q]?
  | .call (.cancel k id) => ∀ t, t < 2 → ∀ m, L.finds cfg k id t = some m → m.action = .streamIn
  | .call _ => True

/-- A history in which the streamers do what they promise. -/
def Honors (checks : Bool) (db : List (BitVec 8)) (bulk : Nat → List (BitVec 8)) (cfg : Cfg) : DbState → Ledger → List DbOp → Prop
  | _, _, [] => True
  | s, L, op :: ops => Promise bulk cfg s L op ∧
      ∀ s' sent, dbStep checks db cfg s op = some (s', sent) → Honors checks db bulk cfg s' (L.step cfg op sent) ops

/-- The calls of a history. -/
def calls (ops : List DbOp) : List Streaming.Op := ops.filterMap fun op => match op with | .call o => some o | .write _ _ => none

/-- The chunks a decoder can use: those which are loaded and not being streamed out. -/
def usable (a : AState) (t i : Nat) : Bool :=
  a.loaded (tierOf t) i && !(match a.pending (tierOf t) with | some p => p.action == .streamOut && p.covers i | none => false)

/-- With these runtime headers and this bulk data the clips `outs` decode as the clips `xs`, from the nearest key frames that can
be used (see `Decodes`). -/
def Samples (xs : List Input) (outs : List (List (BitVec 8))) (place : Place) (loaded : Nat → Nat → Bool) (headers : List (BitVec 8))
    (medium low : Option (List (BitVec 8))) : Prop :=
  ∀ (k : Nat) x m', xs[k]? = some x → outs[k]? = some m' →
  ∀ (α : Type) (remapAlpha : α → Nat → Nat → Nat → α) (wrapping : Bool) (kf0 kf1 : Nat), KeyFramePair wrapping x.c.numSamples kf0 kf1 →
  ∀ (alpha : α) (perTrack : Bool) (rounding : Transform.Rounding),
  ∃ ctx n0 n1, seekDbContext remapAlpha m' headers medium low wrapping kf0 kf1 alpha perTrack rounding = some (ctx, remapAlpha alpha kf0 n0 n1) ∧
    NearestBefore place loaded k kf0 n0 ∧ NearestAfter place loaded k kf1 n1 ∧
    ∀ w : Writer, (perTrack = true → ∀ t, t < x.c.bones.length → w.rounding rounding t ≠ .perTrack) →
      C49.Reads x.c ctx w perTrack rounding n0 n1

end Acl.DbStream
