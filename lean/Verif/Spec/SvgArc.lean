import Verif.Spec.Svg
import Verif.Model.SvgArc
/-
What an elliptical arc is.
-/

namespace Verif

open Real

/-- An ellipse: centre, rotation in degrees, and radii along its axes. -/
structure Ellipse where
  center : Pt ℝ
  rotation : ℝ
  rx : ℝ
  ry : ℝ

/-- The point of an ellipse at an angle. -/
noncomputable def Ellipse.pt (e : Ellipse) (t : ℝ) : Pt ℝ :=
  (e.center.1 + cos (toRad e.rotation) * (e.rx * cos t) - sin (toRad e.rotation) * (e.ry * sin t),
    e.center.2 + sin (toRad e.rotation) * (e.rx * cos t) + cos (toRad e.rotation) * (e.ry * sin t))

/-- The direction in which the point of an ellipse moves as the angle grows: the derivative. -/
noncomputable def Ellipse.dir (e : Ellipse) (t : ℝ) : Pt ℝ :=
  (cos (toRad e.rotation) * (e.rx * -sin t) - sin (toRad e.rotation) * (e.ry * cos t),
    sin (toRad e.rotation) * (e.rx * -sin t) + cos (toRad e.rotation) * (e.ry * cos t))

/-- An ellipse goes through a point. -/
def Ellipse.through (e : Ellipse) (p : Pt ℝ) : Prop := ∃ t, e.pt t = p

/-- The vertices of a chain of `n` cubic curves along an ellipse from the angle `t`, turning by `d`
altogether: the ends are on the ellipse at equal steps, the control points on the tangents at the
ends, at the distance given by `a`. -/
noncomputable def Ellipse.chain (e : Ellipse) (n : Nat) (t d a : ℝ) : List (Pt ℝ) :=
  e.pt t :: (List.range n).flatMap (fun i : Nat =>
    let t0 := t + i * (d / n)
    let t1 := t + (i + 1 : ℝ) * (d / n)
    [((e.pt t0).1 + a * (e.dir t0).1, (e.pt t0).2 + a * (e.dir t0).2),
      ((e.pt t1).1 - a * (e.dir t1).1, (e.pt t1).2 - a * (e.dir t1).2),
      e.pt t1])

end Verif
