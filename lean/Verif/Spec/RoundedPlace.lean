import Verif.Model.RoundedPlace
import Verif.Spec.RoundedDepth
/-
Where vertices are to be drawn, without rounding.
-/

namespace Verif

/-- The coordinate `i` (0 for x, 1 for y) of the place of the vertex `n`; the viewport goes from -1 to 1. -/
def RScene.place (s : RScene) (n : Nat) (i : Fin 4) : ℚ := s.clip n i / s.clip n 3

/-- The vertex `n` is at most `D` from the middle along the axis `i`, and not so close to the plane of the eye
that more than a factor `K` cancels. -/
structure RScene.Seen (s : RScene) (K D : ℚ) (n : Nat) (i : Fin 4) : Prop where
  front : s.clip n 3 ≠ 0
  within : |s.place n i| ≤ D
  size : s.clipSize n i ≤ K * |s.clip n 3|
  w : s.clipSize n 3 ≤ K * |s.clip n 3|

/-- The column (or row) of pixels, with fractions, in a viewport of `width` columns. -/
def pixelOf (width x : ℚ) : ℚ := width * ((x + 1) / 2)

end Verif
