import Verif.Model.Values
/-
Broadcasting as numpy documents it: two lengths fit when they are equal or one of them is 1,
and an axis of length 1 is repeated.
-/

namespace Verif

/-- The common length of two axes. -/
def fitDim (m n : Nat) : Option Nat :=
  if m = n then some m else if m = 1 then some n else if n = 1 then some m else none

/-- The element at position `i` of a repeated axis. -/
def repeated {α : Type} (l : List α) (i : Nat) : Option α :=
  if l.length = 1 then l[0]? else l[i]?

/-- The element at row `i` and column `j` after broadcasting. -/
def TVal.read : TVal → Nat → Nat → Option ℚ
  | .num x, _, _ => some x
  | .vec xs, _, j => repeated xs j
  | .mat _ rows, i, j => (repeated rows i).bind (fun r => repeated r j)
  | .recs _, _, _ => none

/-- Number of rows. -/
def TVal.rows : TVal → Nat
  | .mat _ rows => rows.length
  | _ => 1

/-- Number of columns. -/
def TVal.cols : TVal → Nat
  | .vec xs => xs.length
  | .mat k _ => k
  | _ => 1

/-- Number of axes. -/
def TVal.axes : TVal → Nat
  | .num _ => 0
  | .vec _ => 1
  | _ => 2

/-- A number or an array of numbers. -/
def TVal.isArray : TVal → Bool
  | .recs _ => false
  | _ => true

end Verif
