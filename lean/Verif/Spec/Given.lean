import Verif.Model.Given
/-
Vocabulary of C90: what is given, whatever the form it is given in.
-/

namespace Verif

/-- The same values given as an array. -/
def Given.asArray : Given → Given
  | .list v => .array v
  | .tuple v => .array v
  | .scalar x => .array (.numbers [x])
  | .transform (.ok a) => .array (atleastOne a)
  | g => g

/-- What is given is a list. -/
def Given.isList : Given → Prop
  | .list _ => True
  | _ => False

/-- Values that are the same in any order. -/
def Nested.uniform : Nested → Prop
  | .numbers xs => ∀ x ∈ xs, ∀ y ∈ xs, x = y
  | .rows xs => ∀ x ∈ xs, ∀ y ∈ xs, x = y

/-- The sort of the points by depth, whatever their depths are: an order of the places of the points. -/
def SortsByDepth (order : List (List ℚ) → List Nat) : Prop :=
  ∀ ps, ∃ keys, keys.length = ps.length ∧ IsArgsort keys (order ps)

/-- `n` sizes, one for each of `n` points, or one number for all; for one point, any form of one number
will do. -/
def SizesFit (n : Nat) : Given → Prop
  | .number _ => True
  | .array v => (∃ xs, v = .numbers xs ∧ xs.length = n) ∨ n = 1 ∧ ∃ x, v = .rows [[x]]
  | .tuple v => (∃ xs, v = .numbers xs ∧ xs.length = n) ∨ n = 1 ∧ ∃ x, v = .rows [[x]]
  | .list v => n = 1 ∧ ∃ x, v = .numbers [x] ∨ v = .rows [[x]]
  | .scalar _ => n = 1
  | .transform r => ∃ a, r = .ok a ∧ (
      (∃ x, a = .other x ∧ n = 1) ∨ (∃ xs, a = .flat xs ∧ xs.length = n) ∨ (∃ x, a = .items [[x]] ∧ n = 1))
  | .none => False

/-- Positions that make points: an array (or a tuple) with a row of three numbers for each point, or
three numbers that are the one point. -/
def MakesPoints (n : Nat) (g : Given) (ps : List (List ℚ)) : Prop :=
  ∃ v, (g = .array v ∨ g = .tuple v) ∧ v.ravel = ps.flatten ∧ (∀ p ∈ ps, p.length = 3) ∧
    ps.length = n ∧ (v.len = n ∨ n = 1)

/-- The values `v` given in a form that is not a list. -/
def Given.holds (g : Given) (v : Nested) : Prop :=
  g = .array v ∨ g = .tuple v ∨ g = .transform (.ok v.attr)

end Verif
