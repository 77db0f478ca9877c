import Verif.Model.Clip
/-
What a viewport ought to show.
-/

namespace Verif

open Matrix

/-- The matrix takes points to points: its last row is (0, 0, 0, 1). -/
def Affine (V : Mat4 ℝ) : Prop := V 3 0 = 0 ∧ V 3 1 = 0 ∧ V 3 2 = 0 ∧ V 3 3 = 1

/-- The point `v` as seen from the eye, which is at the origin and looks along -z; `V` is the product of view and
model. -/
def fromEye (V : Mat4 ℝ) (v : V3) : V3 :=
  let q := V *ᵥ ![v.x, v.y, v.z, 1]
  ⟨q 0, q 1, q 2⟩

/-- The point is between the near and the far plane. -/
def BetweenPlanes (n f : ℝ) (p : V3) : Prop := n ≤ -p.z ∧ -p.z ≤ f

/-- The point is in the volume that a perspective is to show. -/
def InVolume (fovy aspect n f : ℝ) (p : V3) : Prop :=
  |p.x| ≤ -p.z * (aspect * Real.tan (fovy / 2 * (Real.pi / 180))) ∧
    |p.y| ≤ -p.z * Real.tan (fovy / 2 * (Real.pi / 180)) ∧ BetweenPlanes n f p

/-- The point `p` is on the segment from `a` to `b`. -/
def OnSegment (a b p : V3) : Prop :=
  ∃ t : ℝ, 0 ≤ t ∧ t ≤ 1 ∧
    p = ⟨a.x + t * (b.x - a.x), a.y + t * (b.y - a.y), a.z + t * (b.z - a.z)⟩

/-- How far the point is in front of the plane of the eye (negative behind it), up to a factor that is the same for
all points. -/
def ahead (T : Mat4 ℝ) (v : V3) : ℝ := (T *ᵥ ![v.x, v.y, v.z, 1]) 3

end Verif
