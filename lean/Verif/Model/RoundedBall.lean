import Verif.Model.Trackball
/-
The trackball of gsp_matplotlib/glm/trackball.py as floats compute it.

The four functions that make quaternions are parameters: what floats compute is only near what the formulas
of Model/Trackball.lean say. Simplification: the matrix is computed exactly from the quaternion.
-/

namespace Verif

/-- The functions of trackball.py as they are computed: `_rotate` (228-250), `_q_add` (100-107),
`_q_normalize` (114-116), and the quaternion of `_set_orientation` (202-210). -/
structure BallFloats where
  turn : ℝ → ℝ → ℝ → ℝ → Quat
  prod : Quat → Quat → Quat
  unit : Quat → Quat
  orient : ℝ → ℝ → Quat

/-- What changes a trackball: a drag, or angles that are set. -/
inductive BallUse where
  | drag (x y dx dy : ℝ)
  | orient (theta phi : ℝ)

/-- The quaternion and the count of a trackball (trackball.py:145-146). -/
structure BallCount where
  rotation : Quat
  count : Nat

/-- drag_to (trackball.py:152-161) and _set_orientation (199-211), which does not touch the count. -/
def BallFloats.step (F : BallFloats) (b : BallCount) : BallUse → BallCount
  | .drag x y dx dy =>
    let rotation := F.prod (F.turn x y dx dy) b.rotation
    let count := b.count + 1
    if count > 97 then ⟨F.unit rotation, 0⟩ else ⟨rotation, count⟩
  | .orient theta phi => { b with rotation := F.orient theta phi }

/-- A trackball (trackball.py:142-150) and its use. -/
def BallFloats.run (F : BallFloats) (theta phi : ℝ) (us : List BallUse) : BallCount :=
  us.foldl F.step ⟨F.orient theta phi, 0⟩

/-- The functions without rounding, but for products that come out longer by a part `δ`. -/
noncomputable def BallFloats.stretched (δ : ℝ) : BallFloats where
  turn := ballRotate
  prod p q :=
    let r := p.qAdd q
    ⟨(1 + δ) * r.x, (1 + δ) * r.y, (1 + δ) * r.z, (1 + δ) * r.w⟩
  unit := Quat.normalize
  orient theta phi := (ballInit theta phi).rotation

end Verif
