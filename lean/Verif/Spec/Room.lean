import Verif.Model.Room
/-
Vocabulary of C91: the positions and the indices visuals can be drawn with.
-/

namespace Verif

/-- Positions of shape `n :: s` hold `k` numbers for each of `n` elements (or there is no element, or one
element for which `k` numbers are given one by one). -/
def HoldsEach (k : Nat) : List Nat → Prop
  | [] => False
  | n :: s => n = 0 ∨ s.prod = k ∨ n * s.prod = k

/-- Indices by which `n` vertices make at least one path, with as many paths as were counted when the visual
was made. -/
def IndicesDraw (n : Nat) : IndexForm → Prop
  | .int size => 0 < size ∧ size ≤ n
  | .array sizes => sizes ≠ []
  | .list ixs => ixs ≠ [] ∧ ∀ ix ∈ ixs, ∀ i ∈ ix, -(n : Int) ≤ i ∧ i < n
  | .vlist ixs => ixs.flatten ≠ [] ∧ (ixs.flatten.length = ixs.length ∨ ixs.flatten.length = 1)
  | .gspList _ => False
  | .transform _ => False

end Verif
