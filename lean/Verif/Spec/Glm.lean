import Verif.Model.Glm
import Mathlib.LinearAlgebra.Matrix.Determinant.Basic
/-
Vocabulary of the properties of matrices.
-/

namespace Verif

open Matrix

/-- Orthogonal, of determinant 1. -/
def IsRotation {K : Type} [Field K] (M : Mat4 K) : Prop := M.transpose * M = 1 ∧ M.det = 1

/-- Homogeneous coordinates. -/
def pt {K : Type} [Field K] (x y z : K) : Fin 4 → K := ![x, y, z, 1]

/-- `M` takes the point `p` to the point `q`, after the division of projections. -/
def Projects {K : Type} [Field K] (M : Mat4 K) (p q : Fin 4 → K) : Prop :=
  ∃ w : K, w ≠ 0 ∧ M *ᵥ p = w • q

/-- The eight corners of a view volume that widens with the distance, and of the cube. The near
face is at `-n`, and the far face, `f / n` times as large, at `-f`. -/
def FrustumCorners {K : Type} [Field K] (M : Mat4 K) (l r b t n f : K) : Prop :=
  (Projects M (pt l b (-n)) (pt (-1) (-1) (-1)) ∧ Projects M (pt r b (-n)) (pt 1 (-1) (-1)) ∧
   Projects M (pt l t (-n)) (pt (-1) 1 (-1)) ∧ Projects M (pt r t (-n)) (pt 1 1 (-1))) ∧
  (Projects M (pt (l * (f / n)) (b * (f / n)) (-f)) (pt (-1) (-1) 1) ∧
   Projects M (pt (r * (f / n)) (b * (f / n)) (-f)) (pt 1 (-1) 1) ∧
   Projects M (pt (l * (f / n)) (t * (f / n)) (-f)) (pt (-1) 1 1) ∧
   Projects M (pt (r * (f / n)) (t * (f / n)) (-f)) (pt 1 1 1))

/-- The eight corners of a box, and of the cube. -/
def BoxCorners {K : Type} [Field K] (M : Mat4 K) (l r b t n f : K) : Prop :=
  (Projects M (pt l b (-n)) (pt (-1) (-1) (-1)) ∧ Projects M (pt r b (-n)) (pt 1 (-1) (-1)) ∧
   Projects M (pt l t (-n)) (pt (-1) 1 (-1)) ∧ Projects M (pt r t (-n)) (pt 1 1 (-1))) ∧
  (Projects M (pt l b (-f)) (pt (-1) (-1) 1) ∧ Projects M (pt r b (-f)) (pt 1 (-1) 1) ∧
   Projects M (pt l t (-f)) (pt (-1) 1 1) ∧ Projects M (pt r t (-f)) (pt 1 1 1))

/-- The point of a ball of radius 4/5 seen at a place of the window. -/
noncomputable def onBall (x y : ℝ) : Fin 4 → ℝ := pt x y (Real.sqrt (16 / 25 - x ^ 2 - y ^ 2))

end Verif
