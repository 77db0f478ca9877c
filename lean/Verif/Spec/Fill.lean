import Verif.Model.Fill
import Verif.Spec.Clip
/-
The points of a triangle.
-/

namespace Verif

/-- The point `v` is in the triangle with the given vertices. -/
def InTriangle (vs : Fin 3 → V3) (v : V3) : Prop :=
  ∃ t : Fin 3 → ℝ, (∀ i, 0 ≤ t i) ∧ ∑ i, t i = 1 ∧
    v = ⟨∑ i, t i * (vs i).x, ∑ i, t i * (vs i).y, ∑ i, t i * (vs i).z⟩

end Verif
