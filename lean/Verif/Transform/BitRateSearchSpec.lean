import Verif.Transform.BitRateSearch
/-
What the bit rates of a segment must satisfy, independently of how they are searched.
-/
namespace Acl.Search
open Acl

/-- The number of bits per component: 0 to 23 bits, then raw floats. -/
def bitsOf (rate : Nat) : Nat := if rate ≤ 23 then rate else if rate = 24 then 32 else 0

/-- The bits of a sample of a bone, per component -/
def bitSize (r : Rates) : Nat := bitsOf r.rotation + bitsOf r.translation + bitsOf r.scale

/-- A legal bit rate of a sub-track: 255 when it is not variable; otherwise up to 24, and 0 only with a segment range -/
def AllowedRate (k : Bool × Bool) (rate : Nat) : Prop :=
  (k.1 = false ∧ rate = 255) ∨ (k.1 = true ∧ rate ≤ 24 ∧ (rate = 0 → k.2 = true))

/-- Legal bit rates of a bone -/
def Allowed (k : Kinds) (r : Rates) : Prop :=
  AllowedRate k.rotation r.rotation ∧ AllowedRate k.translation r.translation ∧ AllowedRate k.scale r.scale

/-- The error of every sample is below the precision of the bone. (The search also wants 0 to be.) -/
def MeetsLocal {E : Type} [LinearOrder E] (S : Setup E) (bone : Nat) (r : Rates) : Prop :=
  S.zero < S.precision bone ∧ ∀ s, s < S.numSamples → S.localError bone r s < S.precision bone

/-- The same in object space -/
def Meets {E : Type} [LinearOrder E] (S : Setup E) (st : BitRates) (bone : Nat) : Prop :=
  S.zero < S.precision bone ∧ ∀ s, s < S.numSamples → S.objectError st bone s < S.precision bone

/-- `e` is the largest of the errors of the samples, 0 included -/
def Worst {E : Type} [LinearOrder E] (zero : E) (numSamples : Nat) (error : Nat → E) (e : E) : Prop :=
  zero ≤ e ∧ (∀ s, s < numSamples → error s ≤ e) ∧ (e = zero ∨ ∃ s, s < numSamples ∧ e = error s)

/-- A rate stays, or is raised to at most the highest. -/
def Raised (a b : Nat) : Prop := b = a ∨ (a < b ∧ b ≤ 24)

def RaisedRates (r r' : Rates) : Prop :=
  Raised r.rotation r'.rotation ∧ Raised r.translation r'.translation ∧ Raised r.scale r'.scale

/-- Every rate of every bone stays or is raised. -/
def RaisedAll (st st' : BitRates) : Prop := ∀ b, RaisedRates (st b) (st' b)

/-- Every sub-track of the bone has the highest bit rate or is not variable. -/
def Maxed (r : Rates) : Prop := 24 ≤ r.rotation ∧ 24 ≤ r.translation ∧ 24 ≤ r.scale

end Acl.Search
