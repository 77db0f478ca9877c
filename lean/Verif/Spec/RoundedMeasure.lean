import Verif.Model.RoundedMeasure
import Mathlib.Data.List.Forall2
/-
When two values are nearly the same.
-/

namespace Verif

/-- `y` differs from `x` by less than a part `r` of it. -/
def WithinPart {K : Type} [Field K] [LinearOrder K] (r x y : K) : Prop := |y - x| ≤ r * |x|

/-- Values of the same kind and size, whose numbers differ by less than a part `r` of them. -/
def TVal.Within (r : ℚ) : TVal → TVal → Prop
  | .num x, .num y => WithinPart r x y
  | .vec xs, .vec ys => List.Forall₂ (WithinPart r) xs ys
  | .mat k xs, .mat l ys => k = l ∧ List.Forall₂ (List.Forall₂ (WithinPart r)) xs ys
  | _, _ => False

end Verif
