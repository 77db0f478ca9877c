import Verif.Model.Values
/-
Vocabulary of the measure, colormap, accessor and output properties.
-/

namespace Verif

/-- A scale along x and y, applied to a pair and to a triple (whose third component is
multiplied by `sz`). -/
def scaleRow (sx sy sz : ℚ) : List ℚ → List ℚ
  | [x, y] => [sx * x, sy * y]
  | [x, y, z] => [sx * x, sy * y, sz * z]
  | xs => xs

/-- `ys` lists, item by item, the component `i` of `rows`. -/
def IsColumn (rows : List (List ℚ)) (i : Nat) (ys : List ℚ) : Prop :=
  ys.length = rows.length ∧ ∀ (j : Nat) row, rows[j]? = some row → ys[j]? = row[i]?

/-- The position of a component by its name, in either notation. -/
def named (c : Char) : Option Nat :=
  match c with
  | 'x' => some 0 | 'y' => some 1 | 'z' => some 2 | 'w' => some 3
  | 'r' => some 0 | 'g' => some 1 | 'b' => some 2 | 'a' => some 3
  | _ => none

/-- `m` is the least element. -/
def IsMin (xs : List ℚ) (m : ℚ) : Prop := m ∈ xs ∧ ∀ x ∈ xs, m ≤ x

/-- `m` is the greatest element. -/
def IsMax (xs : List ℚ) (m : ℚ) : Prop := m ∈ xs ∧ ∀ x ∈ xs, x ≤ m

end Verif
