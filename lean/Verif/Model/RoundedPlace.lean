import Verif.Model.RoundedDepth
/-
The places where vertices are drawn, as floats compute them (gsp/visual/visual.py:119,
gsp_matplotlib/visual/points.py:65-71, markers.py:118-124, segments.py:64-72, paths.py:79,
polygons.py:75). As in RoundedDepth, the rounding and the order of sums are parameters.
-/

namespace Verif

/-- The coordinate `i` (0 for x, 1 for y) of the vertex `n` that is handed over to Matplotlib:
`proj @ view @ model` (visual.py:119), the product with the vertex (points.py:65), and the division by the last
coordinate (glm/vec234.py:258-260). -/
def RScene.placeRounded (fl : ℚ → ℚ) (way : RenderWay) (s : RScene) (n : Nat) (i : Fin 4) : ℚ :=
  let T := mulRounded fl way.all (mulRounded fl way.projView s.proj s.view) s.model
  fl ((way.vertex n i).dot fl (T i) (s.vec4 n) / (way.vertex n 3).dot fl (T 3) (s.vec4 n))

end Verif
