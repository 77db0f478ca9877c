import Mathlib.Algebra.Order.Field.Rat
import Mathlib.Data.Rat.Defs
import Verif.Model.Py
/-
Two computations as floats make them: the normalisation of values for a colormap
(gsp/transform/colormap.py:81-84), and the zoom and the limits of a camera (examples/common/camera.py:151-182).

Every operation is followed by a rounding `fl`, which is a parameter. Simplification: no overflow and no
nan.
-/

namespace Verif

/-- matplotlib's `Normalize` with the bounds `a` and `b` (gsp/transform/colormap.py:81-84): `x - a`, divided
by `b - a`. -/
def normRounded (fl : ℚ → ℚ) (a b x : ℚ) : ℚ := fl (fl (x - a) / fl (b - a))

/-- The zoom of a camera, and the upper limits of its axes. -/
structure ZoomView where
  zoom : ℚ
  xlim : ℚ
  ylim : ℚ
deriving DecidableEq

/-- The limits from the zoom (camera.py:154-159 and 175-180). -/
def ZoomView.limits (fl : ℚ → ℚ) (c : ZoomView) : ZoomView :=
  let aspect := fl (c.ylim / c.xlim)
  { c with xlim := c.zoom, ylim := fl (c.zoom * aspect) }

/-- on_scroll (camera.py:163-180) in the axes of the camera. The numbers 0.9, 1.1 and 0.1 are the floats next
to them. -/
def ZoomView.scroll (fl : ℚ → ℚ) (c : ZoomView) (button : String) : ZoomView :=
  let zoom :=
    if button = "up" then max (fl (fl (9 / 10) * c.zoom)) (fl (1 / 10))
    else if button = "down" then min (fl (fl (11 / 10) * c.zoom)) 5
    else c.zoom
  { c with zoom := zoom }.limits fl

/-- A camera connected to axes, then scrolled. -/
def ZoomView.run (fl : ℚ → ℚ) (c : ZoomView) (buttons : List String) : ZoomView :=
  buttons.foldl (ZoomView.scroll fl) (c.limits fl)

end Verif
