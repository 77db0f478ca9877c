import Mathlib.Algebra.BigOperators.Fin
import Verif.Model.Clip
/-
What is filled for a triangle (gsp_matplotlib/visual/polygons.py:75 and 109-110).
-/

namespace Verif

/-- The triangle that Matplotlib fills covers `(x, y)`: `set_paths` is given the places of the three vertices. -/
def fillShows (ps : Fin 3 → V3) (x y : ℝ) : Prop :=
  ∃ s : Fin 3 → ℝ, (∀ i, 0 ≤ s i) ∧ ∑ i, s i = 1 ∧ x = ∑ i, s i * (ps i).x ∧ y = ∑ i, s i * (ps i).y

end Verif
