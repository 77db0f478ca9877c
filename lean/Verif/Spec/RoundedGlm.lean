import Verif.Model.RoundedGlm
import Verif.Spec.RoundedMeasure
import Verif.Spec.Glm
/-
What is expected of rounded matrices.
-/

namespace Verif

/-- Rounding with a relative error of at most `u`. -/
def RoundsBy {K : Type} [Field K] [LinearOrder K] (u : K) (fl : K → K) : Prop := ∀ x, |fl x - x| ≤ u * |x|

/-- Every entry differs by less than a part `r` of it; entries that are 0 stay 0. -/
def EntriesWithin {K : Type} [Field K] [LinearOrder K] (r : K) (M N : Mat4 K) : Prop :=
  ∀ i j, WithinPart r (M i j) (N i j)

/-- The tangent of half an angle in degrees, up to a part `u` of it. -/
def TanWithin (u : ℝ) (tn : ℝ → ℝ) : Prop :=
  ∀ fovy, WithinPart u (Real.tan (fovy / 2 * (Real.pi / 180))) (tn fovy)

end Verif
