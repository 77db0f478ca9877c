import Verif.Model.Clip
/-
`frontback` of gsp_matplotlib/glm/glm.py on projected triangles, in real numbers.
-/

namespace Verif

/-- Z (glm.py:556-558), for the places of the three corners of a triangle. -/
def faceZ (a b c : V3) : ℝ :=
  (b.x - a.x) * (b.y + a.y) + (c.x - b.x) * (c.y + b.y) + (a.x - c.x) * (a.y + c.y)

/-- The first array of `frontback` tells whether the face is a front face (glm.py:559). -/
def faceFront (a b c : V3) : Prop := faceZ a b c < 0

end Verif
