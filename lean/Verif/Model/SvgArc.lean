import Verif.Model.Svg
import Mathlib.Analysis.SpecialFunctions.Trigonometric.Inverse
/-
Elliptical arcs of SVG paths (gsp/core/svg.py:60-263), over the real numbers.

Simplifications: real numbers instead of floats; a division by zero of Python raises, and is an error
here; a square root or an arc cosine outside its domain would raise too, but the arguments are a
square, an absolute value or a clipped number, save for one arc cosine whose argument is checked.
`Path.arc` is matplotlib's (path.py), as of version 3.
-/

namespace Verif

open Real

/-- math.radians. -/
noncomputable def toRad (x : ℝ) : ℝ := x * π / 180

/-- math.degrees. -/
noncomputable def toDeg (x : ℝ) : ℝ := x * 180 / π

/-- `x % 360` on floats. -/
noncomputable def mod360 (x : ℝ) : ℝ := x - 360 * (⌊x / 360⌋ : ℤ)

/-- What endpoint_to_center returns. -/
structure Center where
  radius : Pt ℝ
  center : Pt ℝ
  theta1 : ℝ
  theta2 : ℝ

/-- Step 1 (svg.py:100-108): half of the chord, in the axes of the ellipse. -/
noncomputable def arcPrim (start : Pt ℝ) (rotation : ℝ) (stop : Pt ℝ) : Pt ℝ :=
  let dx := (start.1 - stop.1) / 2
  let dy := (start.2 - stop.2) / 2
  (cos (toRad rotation) * dx + sin (toRad rotation) * dy,
    -sin (toRad rotation) * dx + cos (toRad rotation) * dy)

/-- The correction of the radii (svg.py:110-127); a radius of zero raises ZeroDivisionError. -/
noncomputable def arcRadius (radius p : Pt ℝ) : Except Err (Pt ℝ) :=
  let rx := |radius.1|
  let ry := |radius.2|
  if rx * rx = 0 ∨ ry * ry = 0 then .error .zeroDivision
  else
    let scale := p.1 * p.1 / (rx * rx) + p.2 * p.2 / (ry * ry)
    if scale > 1 then .ok (rx * √scale, ry * √scale) else .ok (rx, ry)

/-- Step 2 (svg.py:129-136): the centre, in the axes of the ellipse, from the middle of the chord.
Equal end points raise ZeroDivisionError. -/
noncomputable def arcCprim (r p : Pt ℝ) (large sweep : ℝ) : Except Err (Pt ℝ) :=
  let t1 := r.1 * r.1 * (p.2 * p.2)
  let t2 := r.2 * r.2 * (p.1 * p.1)
  if t1 + t2 = 0 then .error .zeroDivision
  else
    let c := √|(r.1 * r.1 * (r.2 * r.2) - t1 - t2) / (t1 + t2)|
    let c := if large = sweep then -c else c
    .ok (c * r.1 * p.2 / r.2, -c * r.2 * p.1 / r.1)

/-- The angle of the beginning (svg.py:149-154); ValueError for acos outside its domain. -/
noncomputable def arcTheta (u : Pt ℝ) : Except Err ℝ :=
  let n := √(u.1 * u.1 + u.2 * u.2)
  if n = 0 then .error .zeroDivision
  else if u.1 / n < -1 ∨ 1 < u.1 / n then .error .valueError
  else
    let theta := toDeg (arccos (u.1 / n))
    let theta := if u.2 < 0 then -theta else theta
    .ok (mod360 theta)

/-- The angle turned (svg.py:156-171). -/
noncomputable def arcDelta (u v : Pt ℝ) (sweep : ℝ) : Except Err ℝ :=
  let n := √((u.1 * u.1 + u.2 * u.2) * (v.1 * v.1 + v.2 * v.2))
  if n = 0 then .error .zeroDivision
  else
    let d := (u.1 * v.1 + u.2 * v.2) / n
    let d := min (max d (-1)) 1
    let delta := toDeg (arccos d)
    let delta := if u.1 * v.2 - u.2 * v.1 < 0 then -delta else delta
    let delta := mod360 delta
    .ok (if sweep = 0 then (if delta > 0 then delta - 360 else delta) else delta)

/-- endpoint_to_center (svg.py:60-174). -/
noncomputable def endpointToCenter (start radius : Pt ℝ) (rotation large sweep : ℝ) (stop : Pt ℝ) :
    Except Err Center := do
  let p := arcPrim start rotation stop
  let r ← arcRadius radius p
  let c ← arcCprim r p large sweep
  let center := ((cos (toRad rotation) * c.1 - sin (toRad rotation) * c.2) + (start.1 + stop.1) / 2,
    (sin (toRad rotation) * c.1 + cos (toRad rotation) * c.2) + (start.2 + stop.2) / 2)
  let u := ((p.1 - c.1) / r.1, (p.2 - c.2) / r.2)
  let v := ((-p.1 - c.1) / r.1, (-p.2 - c.2) / r.2)
  let theta ← arcTheta u
  let delta ← arcDelta u v sweep
  return ⟨r, center, theta, theta + delta⟩

/-- A chain of cubic curves: its first point, and for each curve two control points and the end. -/
def chain (n : Nat) (P C D : Nat → Pt ℝ) : List (Pt ℝ) :=
  P 0 :: (List.range n).flatMap (fun i : Nat => [C i, D i, P (i + 1)])

/-- matplotlib's `Path.arc(theta1, theta2)`: an arc of the unit circle. -/
noncomputable def unitArc (theta1 theta2 : ℝ) : List (Pt ℝ) :=
  let eta2 := theta2 - 360 * (⌊(theta2 - theta1) / 360⌋ : ℤ)
  let eta2 := if theta2 ≠ theta1 ∧ eta2 ≤ theta1 then eta2 + 360 else eta2
  let e1 := toRad theta1
  let e2 := toRad eta2
  let n : Nat := 2 ^ ⌈(e2 - e1) / (π / 2)⌉₊
  let deta := (e2 - e1) / n
  let t := tan (deta / 2)
  let alpha := sin deta * (√(4 + 3 * t * t) - 1) / 3
  let step : Nat → ℝ := fun i => e1 + i * deta
  chain n (fun i => (cos (step i), sin (step i)))
    (fun i => (cos (step i) + alpha * -sin (step i), sin (step i) + alpha * cos (step i)))
    (fun i => (cos (step (i + 1)) - alpha * -sin (step (i + 1)),
      sin (step (i + 1)) - alpha * cos (step (i + 1))))

/-- The transformation of the unit circle into the ellipse (svg.py:241-246): scale, translate,
rotate around the centre. -/
noncomputable def arcTransform (r c : Pt ℝ) (rotation : ℝ) (p : Pt ℝ) : Pt ℝ :=
  let q : Pt ℝ := (r.1 * p.1 + c.1 - c.1, r.2 * p.2 + c.2 - c.2)
  (cos (toRad rotation) * q.1 - sin (toRad rotation) * q.2 + c.1,
    sin (toRad rotation) * q.1 + cos (toRad rotation) * q.2 + c.2)

/-- arc_path (svg.py:177-263): the vertices. -/
noncomputable def arcPath : ArcFn ℝ := fun start radius rotation large sweep stop => do
  let e ← endpointToCenter start radius rotation large sweep stop
  let arc := if e.theta2 > e.theta1 then unitArc e.theta1 e.theta2 else unitArc e.theta2 e.theta1
  let verts := arc.map (arcTransform e.radius e.center rotation)
  return if e.theta2 > e.theta1 then verts else verts.reverse

end Verif
