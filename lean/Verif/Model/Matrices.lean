import Mathlib.LinearAlgebra.Matrix.Notation
import Verif.Model.Redraw
/-
The class Matrix (gsp/core/types.py:37-57) and what `render` makes of such a matrix
(gsp/visual/visual.py:110-121).
-/

namespace Verif

open Matrix

/-- What `Matrix(data)` can be given: an array of float32 or of float64 that lies in one piece (its numbers
row by row, whatever its shape), an array that does not (a transpose, a slice), a tuple or a list. -/
inductive MatrixData where
  | floats (xs : List ℚ)
  | doubles (xs : List ℚ)
  | strided (xs : List ℚ)
  | sequence (xs : List ℚ)
deriving DecidableEq

/-- Matrix.__init__ (gsp/core/types.py:42-53), `np.frombuffer(data, dtype=np.float32)`: the bytes of the
array read as float32. `halves` gives the two float32 that the eight bytes of a float64 make. A tuple or a
list has no buffer; an array that is not in one piece is refused. -/
def matrixInit (halves : ℚ → ℚ × ℚ) : MatrixData → Except Err (List ℚ)
  | .floats xs => .ok xs
  | .doubles xs => .ok (xs.flatMap (fun x => [(halves x).1, (halves x).2]))
  | .strided _ => .error .valueError
  | .sequence _ => .error .typeError

/-- A matrix as `render` gets it or computes it: an array of shape (4,4); an array of one axis, or (with
`object`) a Matrix, which numpy takes for the array of one axis it holds (gsp/core/types.py:55-56); a number.
-/
inductive MatVal where
  | plain (m : Matrix (Fin 4) (Fin 4) ℚ)
  | flat (object : Bool) (data : List ℚ)
  | number (x : ℚ)

/-- Four numbers as a vector. -/
def fourOf (data : List ℚ) : Fin 4 → ℚ := fun i => data.getD i 0

/-- `a @ b` of numpy. `none`: it raises (the sizes do not fit, a number is given, or neither is an array).
-/
def mulVal : MatVal → MatVal → Option MatVal
  | .plain a, .plain b => some (.plain (a * b))
  | .plain a, .flat _ d =>
    if d.length = 4 then some (.flat false (List.ofFn (a *ᵥ fourOf d))) else none
  | .flat _ d, .plain b =>
    if d.length = 4 then some (.flat false (List.ofFn (fourOf d ᵥ* b))) else none
  | .flat o d, .flat o' e =>
    if o && o' then none
    else if d.length = e.length then some (.number ((List.zipWith (· * ·) d e).sum))
    else none
  | .number _, _ => none
  | _, .number _ => none

end Verif
