import Verif.Model.Visual
/-
Which colours do not depend on the order of drawing (C29).
-/

namespace Verif

/-- A colour attribute that gives each of `n` elements its colour in whatever order they are drawn: one
colour per element; a list of colours of another length if those used for `n` elements are all the
same; one colour with as many components as there are elements if its components are all the same. -/
def SaysColours (n : Nat) : Attr → Prop
  | .items xs => xs.length = n ∨ ∀ k < n, xs[k % xs.length]? = xs[0]?
  | .flat xs => xs.length ≠ n ∨ ∀ x ∈ xs, ∀ y ∈ xs, x = y
  | .other _ => True

end Verif
