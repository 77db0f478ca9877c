import Verif.Model.Times
/-
What is expected of the times of commands.
-/

namespace Verif

/-- Rounding to floating point numbers of 53 bits. -/
def RoundsTo53 (fl : ℚ → ℚ) : Prop := ∀ x, |fl x - x| ≤ |x| / 2 ^ 53

/-- The clock shows a time before 7 February 2106 (2^32 seconds after 1970). -/
def Before2106 (now : Nat) : Prop := now < 2 ^ 32 * 1000000

/-- Of two commands of a queue the later has the higher number, and no earlier time. -/
def InOrder (cs : List Stamped) : Prop := cs.Pairwise (fun a b => a.cid < b.cid ∧ a.stamp ≤ b.stamp)

/-- Operations that remove commands from the queue `q`. -/
def StampOp.Clears (q : Nat) : StampOp → Prop
  | .empty r => r = q
  | .load r _ => r = q
  | _ => False

/-- Operations that write the file `f`. -/
def StampOp.Writes (f : Nat) : StampOp → Prop
  | .save _ g => g = f
  | .put g _ => g = f
  | _ => False

end Verif
