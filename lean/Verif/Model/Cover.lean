import Verif.Model.Clip
/-
The order in which elements of several vertices, and pixels, are drawn, in real numbers
(gsp_matplotlib/visual/segments.py:69-70, paths.py:108-109, polygons.py:104-105, and
pixels.py:72).
-/

namespace Verif

/-- `-p[...,2].mean()` for the vertices of one element, after the projection. What has the greater key is drawn
later, over the others. -/
noncomputable def elementKey (ps : List V3) : ℝ := -((ps.map V3.z).sum / ps.length)

/-- `positions[:,2]`, by which Pixels are sorted (pixels.py:72). -/
def pixelKey (p : V3) : ℝ := p.z

end Verif
