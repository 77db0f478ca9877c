import Verif.Model.Visual
import Mathlib.Data.Real.Basic
/-
What happens where a property fails (C25, C31, C43, C52, C59).
-/

namespace Verif

/-- A bound that is given and not zero. -/
def nonZero : Option ℚ → Option ℚ
  | some b => if b = 0 then none else some b
  | none => none

/-- The content of a collection after it was drawn again with a matrix, if there is one: what is drawn, or
what was there before if drawing raises. -/
def redrawn {M D : Type} (draw : M → Nat → Except Err D) (m : Option M) (vp : Nat) (old : Option D) : Option D :=
  match m with
  | none => old
  | some m => match draw m vp with
    | .ok d => some d
    | .error _ => old

/-- An odd multiple of a right angle, in degrees. -/
def Upright (angle : ℝ) : Prop := ∃ k : ℤ, angle = 90 + 180 * k

end Verif
