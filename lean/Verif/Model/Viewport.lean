import Verif.Model.Py
import Mathlib.Algebra.Order.Field.Rat
/-
Viewports of the matplotlib backend (gsp_matplotlib/core/viewport.py).

Simplifications: numbers are rationals; the figure has one resolution, so that `size`
(viewport.py:142-152) is the part of the canvas the axes take (`get_window_extent` divided by
`figure.dpi`, times the resolution of the canvas).
-/

namespace Verif

/-- A coordinate or a size as given: absent (`None`), a Python float, a Python int, a transform
(as the function of the canvas size along its axis that it evaluates to, viewport.py:72-74), or
another number, as those of numpy. -/
inductive Extent where
  | absent
  | float (q : ℚ)
  | int (n : Int)
  | transform (f : ℚ → ℚ)
  | other (q : ℚ)

/-- The truth value in `width or canvas._width`. Transforms are objects, and true. -/
def Extent.truthy : Extent → Bool
  | .absent => false
  | .float q => q ≠ 0
  | .int n => n ≠ 0
  | .transform _ => true
  | .other q => q ≠ 0

/-- The part of a canvas of the given size along the axis (viewport.py:72-110). `None` cannot be
placed (`set_position` raises). -/
def Extent.part (size : ℚ) : Extent → Except Err ℚ
  | .absent => .error .typeError
  | .float q => .ok q
  | .int n => .ok (n / size)
  | .transform f => .ok (f size)
  | .other q => .ok q

/-- A viewport: what it was given, the position of its axes (fractions of the canvas), its zoom
and the limits of its axes (symmetric: the upper ones). -/
structure VPort where
  x : Extent
  y : Extent
  width : Extent
  height : Extent
  pos : ℚ × ℚ × ℚ × ℚ
  zoom : ℚ
  xlim : ℚ
  ylim : ℚ

/-- `_update` (viewport.py:53-131) on a canvas of `cw` × `ch` pixels. The limits are divided by the
smaller one of the width and the height: if this is 0 they are inf or nan, and `set_xlim` or `set_ylim`
raises. -/
def VPort.update (v : VPort) (cw ch : ℚ) : Except Err VPort := do
  let x ← v.x.part cw
  let y ← v.y.part ch
  let width ← v.width.part cw
  let height ← v.height.part ch
  let w := width * cw
  let h := height * ch
  if (if h < w then h else w) = 0 then throw .valueError
  let (xlim, ylim) :=
    if h < w then (v.zoom * w / h, v.zoom) else (v.zoom, v.zoom * h / w)
  return { v with pos := (x, y, width, height), xlim := xlim, ylim := ylim }

/-- The constructor (viewport.py:15-46): `canvasW` and `canvasH` are `canvas._width` and
`canvas._height`, the sizes the canvas was made with. The limits computed by `_update` are
overwritten. -/
def VPort.make (x y width height canvasW canvasH : Extent) (cw ch : ℚ) : Except Err VPort := do
  let width := if width.truthy then width else canvasW
  let height := if height.truthy then height else canvasH
  let v ← VPort.update ⟨x, y, width, height, (0, 0, 1, 1), 1, 1, 1⟩ cw ch
  return { v with xlim := 1, ylim := 1 }

/-- `size` (viewport.py:142-152): in pixels of a canvas of `cw` × `ch`. -/
def VPort.size (v : VPort) (cw ch : ℚ) : ℚ × ℚ := (v.pos.2.2.1 * cw, v.pos.2.2.2 * ch)

/-- What happens to a viewport: the canvas gets another size (viewport.py:46), or somebody sets
the zoom of the axes (examples/common/camera.py:174-176). -/
inductive VPEvent where
  | resize (cw ch : ℚ)
  | zoom (z : ℚ)

/-- One event, with the size of the canvas. -/
def VPort.step (s : VPort × ℚ × ℚ) : VPEvent → Except Err (VPort × ℚ × ℚ)
  | .resize cw ch => do
    let v ← s.1.update cw ch
    return (v, cw, ch)
  | .zoom z => .ok ({ s.1 with zoom := z }, s.2)

end Verif
