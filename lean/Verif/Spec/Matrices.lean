import Verif.Model.Matrices
/-
Vocabulary of C93: matrices that cannot be multiplied with 4 × 4 matrices.
-/

namespace Verif

variable {G : Type}

/-- A Matrix (or an array of one axis) that does not hold four numbers: in particular one that holds the 16
of a 4 × 4 matrix. -/
def NotFour : MatVal → Prop
  | .flat _ d => d.length ≠ 4
  | _ => False

/-- The call uses such a matrix, given now or before. -/
def UsesNotFour (c : RCall MatVal) (s : Canvassed MatVal G) : Prop :=
  NotFour (c.proj.getD s.proj) ∨ NotFour (c.view.getD s.view) ∨ NotFour (c.model.getD s.model)

/-- No call of a history gives a model matrix. -/
def ModelLeft (hs : List (Happening MatVal)) : Prop :=
  ∀ c, .render c ∈ hs → c.model = none

end Verif
