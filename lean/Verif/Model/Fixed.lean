import Verif.Model.Values
import Verif.Model.Viewport
import Verif.Model.Glm
/-
A visual whose positions are given in a unit of length (examples/segments-fixed-size.py), in a viewport
that gets other sizes and zooms.

Simplifications: one visual in one viewport; of the drawing only the places of the elements; numbers
are rationals; positions have three coordinates. Where an array would hold inf or nan the step
raises.
-/

namespace Verif

/-- The viewport, the size and resolution of its canvas, the product of matrices the visual keeps
(gsp/visual/visual.py:110-121), and the places in its collection once it was rendered, in the
coordinates of the axes. -/
structure Fixed where
  vp : VPort
  cw : ℚ
  ch : ℚ
  dpi : ℚ
  mat : Mat4 ℚ
  places : Option (List (ℚ × ℚ))

/-- What `eval_variable` passes to a measure: the variables of the visual, with "viewport" but without
"dpi", "canvas" and "size" (visual.py:77-78 and 123, measure.py:56-75). -/
def Fixed.vars (s : Fixed) : MVars :=
  { dpi := none
    viewport := some ⟨s.dpi, (s.vp.size s.cw s.ch).1, (s.vp.size s.cw s.ch).2, -s.vp.xlim, s.vp.xlim,
      -s.vp.ylim, s.vp.ylim⟩
    canvas := none, size := none, index := none, out := [] }

/-- `glm.to_vec3(glm.to_vec4(positions) @ transform.T)[:, :2]` of one position
(gsp_matplotlib/visual/segments.py:60-62 and the like). -/
def seenAt (m : Mat4 ℚ) : List ℚ → Except Err (ℚ × ℚ)
  | [x, y, z] =>
    let q := m.mulVec ![x, y, z, 1]
    if q 3 = 0 then .error .zeroDivision else .ok (q 0 / q 3, q 1 / q 3)
  | _ => .error .valueError

/-- `render` of a visual with the positions `points * unit`. -/
def Fixed.draw (u : MUnit) (points : List (List ℚ)) (s : Fixed) : Except Err Fixed :=
  match measureVal s.vars u (.mat 3 points) with
  | .error e => .error e
  | .ok (.mat 3 rows) => match rows.mapM (seenAt s.mat) with
    | .error e => .error e
    | .ok ps => .ok { s with places := some ps }
  | .ok _ => .error .valueError

/-- A call of `render` with matrices of this product, a new size of the canvas, or a camera that sets the
zoom of the viewport: when it is connected, and at each turn of the wheel before it calls the updates
connected to the wheel. A turn of the wheel of a camera that renders the visual is `zoom` and then
`render`. -/
inductive FixedEvent where
  | render (m : Mat4 ℚ)
  | resize (cw ch : ℚ)
  | zoom (zoom : ℚ)

/-- One event. On a new size the handler of the viewport runs first, then that of the visual if it was
rendered (viewport.py:45-46, segments.py:49-52; handlers run in the order they were connected). The
zoom: examples/common/camera.py:154-159 and 175-180. -/
def Fixed.step (u : MUnit) (points : List (List ℚ)) (s : Fixed) : FixedEvent → Except Err Fixed
  | .render m => Fixed.draw u points { s with mat := m }
  | .resize cw ch => match s.vp.update cw ch with
    | .error e => .error e
    | .ok vp =>
      let s := { s with vp := vp, cw := cw, ch := ch }
      match s.places with
      | none => .ok s
      | some _ => Fixed.draw u points s
  | .zoom zoom =>
    let aspect := s.vp.ylim / s.vp.xlim
    .ok { s with vp := { s.vp with zoom := zoom, xlim := zoom, ylim := zoom * aspect } }

/-- A history. -/
def Fixed.run (u : MUnit) (points : List (List ℚ)) (s : Fixed) (es : List FixedEvent) :
    Except Err Fixed := es.foldlM (Fixed.step u points) s

end Verif
