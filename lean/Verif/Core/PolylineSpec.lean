import Verif.Props.C50
/-
What it means to sample a curve at a time, independently of how key frames are found: the polyline through the frames kept, at the time
multiplied by the sample rate.
-/
namespace Acl.Polyline

/-- The time `t` in frames, within the clip: `last` is the position of its end. -/
def framePosition (t rate : ℚ) (last : Nat) : ℚ := max 0 (min (t * rate) last)

/-- The position of the end of a clip of `count` frames: its last frame, or one further if it loops back to its first frame. -/
def lastPosition (loops : Bool) (count : Nat) : Nat := if loops then count else count - 1

/-- The value of frame `n`: past the last frame comes the first one. -/
def valueAt (count : Nat) (v : Nat → ℚ) (n : Nat) : ℚ := if n = count then v 0 else v n

/-- Frame `n` is one the curve goes through. -/
def OnCurve (kept : Nat → Prop) (count : Nat) (loops : Bool) (n : Nat) : Prop := kept n ∧ n < count ∨ loops = true ∧ n = count

/-- `y` is the value at position `p` of the polyline through the frames kept. -/
inductive Line (kept : Nat → Prop) (count : Nat) (loops : Bool) (v : Nat → ℚ) (p : ℚ) : ℚ → Prop
  | frame (n : Nat) : OnCurve kept count loops n → p = n → Line kept count loops v p (valueAt count v n)
  | between (a b : Nat) : OnCurve kept count loops a → OnCurve kept count loops b → a < b → (∀ n, a < n → n < b → ¬ kept n) →
      (a : ℚ) ≤ p → p ≤ b →
      Line kept count loops v p (((b - p) * valueAt count v a + (p - a) * valueAt count v b) / (b - a))

end Acl.Polyline
