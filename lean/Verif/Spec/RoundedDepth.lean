import Mathlib.LinearAlgebra.Matrix.Notation
import Verif.Model.RoundedDepth
/-
What the depth of an element is, without rounding.
-/

namespace Verif

/-- The terms of a sum, in the order in which they are written. -/
def AddTree.leaves {ι : Type} : AddTree ι → List ι
  | .leaf i => [i]
  | .add a b => a.leaves ++ b.leaves

/-- How many additions a term goes through, at most. -/
def AddTree.height {ι : Type} : AddTree ι → Nat
  | .leaf _ => 0
  | .add a b => max a.height b.height + 1

/-- A sum of four products has each of them once. -/
def DotWay.Sums (way : DotWay) : Prop := way.tree.leaves.Perm [0, 1, 2, 3]

/-- All products of rows and columns are sums of the four products. -/
structure RenderWay.Sums (way : RenderWay) : Prop where
  projView : ∀ i j, (way.projView i j).Sums
  all : ∀ i j, (way.all i j).Sums
  vertex : ∀ n i, (way.vertex n i).Sums

/-- The vertex `n` in clip coordinates. -/
def RScene.clip (s : RScene) (n : Nat) : Fin 4 → ℚ := (s.proj * s.view * s.model).mulVec (s.vec4 n)

/-- The depth of the vertex `n`. -/
def RScene.depth (s : RScene) (n : Nat) : ℚ := s.clip n 2 / s.clip n 3

/-- The vertex `n` in clip coordinates, without any cancellation: all numbers are replaced by their absolute
values. -/
def RScene.clipSize (s : RScene) (n : Nat) : Fin 4 → ℚ :=
  (s.proj.map (|·|) * s.view.map (|·|) * s.model.map (|·|)).mulVec (fun i => |s.vec4 n i|)

/-- The vertex `n` lies between the near and the far plane, and not so close to the plane of the eye that more
than a factor `K` cancels. -/
structure RScene.InView (s : RScene) (K : ℚ) (n : Nat) : Prop where
  front : s.clip n 3 ≠ 0
  depth : |s.depth n| ≤ 1
  z : s.clipSize n 2 ≤ K * |s.clip n 3|
  w : s.clipSize n 3 ≤ K * |s.clip n 3|

/-- The mean depth of an element. -/
def RScene.meanDepth (s : RScene) (e : List Nat) : ℚ := (e.map s.depth).sum / e.length

/-- Of two elements whose depths differ by more than `gap`, the farther is drawn first. -/
def FartherFirstBy (gap : ℚ) (depths : List ℚ) (idx : List Nat) : Prop :=
  ∀ (k l i j : Nat) a b, idx[k]? = some i → idx[l]? = some j →
    depths[i]? = some a → depths[j]? = some b → b + gap < a → k < l

/-- How far the vertex `n` is from the plane of the eye, along the direction of view. -/
def RScene.distance (s : RScene) (n : Nat) : ℚ := -(s.view * s.model).mulVec (s.vec4 n) 2

/-- What a camera of the examples shows (examples/common/camera.py:24-73): a perspective from 1 to 100, whose
entries 101/99 and 200/99 may be rounded, 5 away from the origin, and a matrix that turns, whose entries may be
rounded; the vertices lie in the cube from -1 to 1. -/
structure RScene.OfCamera (s : RScene) : Prop where
  proj : ∃ p q a b : ℚ, s.proj = !![p, 0, 0, 0; 0, q, 0, 0; 0, 0, -a, -b; 0, 0, -1, 0] ∧
    1 ≤ a ∧ a ≤ 11 / 10 ∧ 2 ≤ b ∧ b ≤ 21 / 10
  view : s.view = !![1, 0, 0, 0; 0, 1, 0, 0; 0, 0, 1, -5; 0, 0, 0, 1]
  turn : ∀ i j : Fin 3, |s.model i.castSucc j.castSucc| ≤ 101 / 100
  affine : (∀ i : Fin 3, s.model i.castSucc 3 = 0 ∧ s.model 3 i.castSucc = 0) ∧ s.model 3 3 = 1
  cube : ∀ n, |(s.vertex n).1| ≤ 1 ∧ |(s.vertex n).2.1| ≤ 1 ∧ |(s.vertex n).2.2| ≤ 1

end Verif
