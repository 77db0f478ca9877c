import Verif.Model.Glm
/-
What a viewport shows of points and segments (gsp_matplotlib/visual/points.py:63-71, segments.py:61-72,
gsp_matplotlib/core/viewport.py:36-37). As in Glm, the numbers are real numbers.
-/

namespace Verif

open Matrix

/-- `glm.to_vec3(glm.to_vec4(positions) @ self._transform.T)` for one of the positions (points.py:65, segments.py:64,
glm/vec234.py:258-260 and 400-403). Where the last coordinate is 0 numpy gives inf or nan, of which nothing is
drawn: this is `none`. -/
noncomputable def screenOf (T : Mat4 ℝ) (v : V3) : Option V3 :=
  let q := T *ᵥ ![v.x, v.y, v.z, 1]
  if q 3 = 0 then none else some ⟨q 0 / q 3, q 1 / q 3, q 2 / q 3⟩

/-- `1 - positions[:,2]`, by which points are sorted (points.py:69-70). -/
noncomputable def screenKey (p : V3) : ℝ := 1 - p.z

/-- The axes of a viewport go from -1 to 1 (viewport.py:36-37) until a zoom is set. Simplification: the centre of a
point decides. -/
def windowShows (p : V3) : Prop := -1 ≤ p.x ∧ p.x ≤ 1 ∧ -1 ≤ p.y ∧ p.y ≤ 1

/-- The point at `v` is in the picture: `set_offsets` is given all positions (points.py:71). -/
def pointShown (T : Mat4 ℝ) (v : V3) : Prop := ∃ p, screenOf T v = some p ∧ windowShows p

/-- The same when the axes have been given the limits `-xl` to `xl` and `-yl` to `yl`, as the zoom of a camera does
(viewport.py:127-128, examples/common/camera.py:158-159 and 179-180). -/
def pointWithin (T : Mat4 ℝ) (xl yl : ℝ) (v : V3) : Prop := ∃ p, screenOf T v = some p ∧ |p.x| ≤ xl ∧ |p.y| ≤ yl

/-- The line that Matplotlib draws for a segment goes through `(x, y)`: `set_segments` is given the places of the two
ends (segments.py:72). -/
def lineShows (a b : V3) (x y : ℝ) : Prop :=
  ∃ t : ℝ, 0 ≤ t ∧ t ≤ 1 ∧ x = a.x + t * (b.x - a.x) ∧ y = a.y + t * (b.y - a.y)

end Verif
