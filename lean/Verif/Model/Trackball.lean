import Verif.Model.Py
import Verif.Model.Glm
import Mathlib.Analysis.SpecialFunctions.Trigonometric.Inverse
import Mathlib.Analysis.SpecialFunctions.Trigonometric.Arctan
/-
The trackball of gsp_matplotlib/glm/trackball.py and the camera of examples/common/camera.py.

Simplifications: real numbers instead of floats (the two constants of `_project` have the values of
the floats that Python makes of them); the matrix is not rounded to float32.
-/

namespace Verif

/-- A list of 4 numbers, that stands for a quaternion with its real part last. -/
structure Quat where
  x : ℝ
  y : ℝ
  z : ℝ
  w : ℝ

namespace Quat

/-- The vector part, which is what the functions on vectors see of a quaternion. -/
def vec (q : Quat) : V3 := ⟨q.x, q.y, q.z⟩

/-- _q_add (trackball.py:100-107). -/
def qAdd (q1 q2 : Quat) : Quat :=
  let t1 := V3.smul q2.w q1.vec
  let t2 := V3.smul q1.w q2.vec
  let t3 := q2.vec.cross q1.vec
  ⟨t3.x + (t1.x + t2.x), t3.y + (t1.y + t2.y), t3.z + (t1.z + t2.z),
    q1.w * q2.w - q1.vec.dot q2.vec⟩

/-- _q_dot (trackball.py:110-111). -/
def dot (q1 q2 : Quat) : ℝ := q1.x * q2.x + q1.y * q2.y + q1.z * q2.z + q1.w * q2.w

/-- _q_normalize (trackball.py:112-116), with _q_mul (108-109). -/
noncomputable def normalize (q : Quat) : Quat :=
  let l := Real.sqrt (q.dot q)
  if l = 0 then q else ⟨q.x * (1 / l), q.y * (1 / l), q.z * (1 / l), q.w * (1 / l)⟩

/-- _v_normalize (trackball.py:94-96). -/
noncomputable def vNormalize (v : V3) : V3 := if v.norm = 0 then v else V3.smul (1 / v.norm) v

/-- _q_from_axis_angle (trackball.py:117-120). -/
noncomputable def fromAxisAngle (v : V3) (phi : ℝ) : Quat :=
  let u := V3.smul (Real.sin (phi / 2)) (vNormalize v)
  ⟨u.x, u.y, u.z, Real.cos (phi / 2)⟩

/-- _q_rotmatrix (trackball.py:121-135). -/
def rotmatrix (q : Quat) : Mat4 ℝ :=
  !![1 - 2 * (q.y * q.y + q.z * q.z), 2 * (q.x * q.y - q.z * q.w), 2 * (q.z * q.x + q.y * q.w), 0;
     2 * (q.x * q.y + q.z * q.w), 1 - 2 * (q.z * q.z + q.x * q.x), 2 * (q.y * q.z - q.x * q.w), 0;
     2 * (q.z * q.x - q.y * q.w), 2 * (q.y * q.z + q.x * q.w), 1 - 2 * (q.y * q.y + q.x * q.x), 0;
     0, 0, 0, 1]

end Quat

/-- The float of line 220. -/
noncomputable def ballC : ℝ := 6369051672525773 / 2 ^ 53
/-- The float of line 223. -/
noncomputable def ballS : ℝ := 6369051672525773 / 2 ^ 52
/-- TRACKBALLSIZE (line 149). -/
noncomputable def ballSize : ℝ := 4 / 5

/-- _project (trackball.py:214-225). -/
noncomputable def ballProject (r x y : ℝ) : ℝ :=
  let d := Real.sqrt (x * x + y * y)
  if d < r * ballC then Real.sqrt (r * r - d * d)
  else
    let t := r / ballS
    t * t / d

/-- The point of the trackball under a point of the plane (lines 242 and 243). -/
noncomputable def ballPoint (x y : ℝ) : V3 := ⟨x, y, ballProject ballSize x y⟩

/-- _rotate (trackball.py:228-250). -/
noncomputable def ballRotate (x y dx dy : ℝ) : Quat :=
  if dx = 0 ∧ dy = 0 then ⟨0, 0, 0, 1⟩
  else
    let last := ballPoint x y
    let new := ballPoint (x + dx) (y + dy)
    let a := new.cross last
    let d := last.sub new
    let t := d.norm / (2 * ballSize)
    let t := if t > 1 then 1 else t
    let t := if t < -1 then -1 else t
    let phi := 2 * Real.arcsin t
    Quat.fromAxisAngle a phi

/-- The attributes of a Trackball (trackball.py:142-150). -/
structure Ball where
  rotation : Quat
  count : Nat
  model : Mat4 ℝ
  theta : ℝ
  phi : ℝ

/-- _set_orientation (trackball.py:199-211). -/
noncomputable def ballOrient (b : Ball) (theta phi : ℝ) : Ball :=
  let angle := theta * (Real.pi / 180)
  let sine := Real.sin (1 / 2 * angle)
  let xrot : Quat := ⟨1 * sine, 0, 0, Real.cos (1 / 2 * angle)⟩
  let angle := phi * (Real.pi / 180)
  let sine := Real.sin (1 / 2 * angle)
  let zrot : Quat := ⟨0, 0, sine, Real.cos (1 / 2 * angle)⟩
  let rotation := xrot.qAdd zrot
  { b with theta := theta, phi := phi, rotation := rotation, model := rotation.rotmatrix }

/-- Trackball(theta, phi) (trackball.py:142-150). -/
noncomputable def ballInit (theta phi : ℝ) : Ball :=
  ballOrient ⟨⟨0, 0, 0, 1⟩, 0, 0, 0, 0⟩ theta phi

/-- _get_orientation (trackball.py:191-197). -/
noncomputable def ballOrientation (b : Ball) : Except Err (ℝ × ℝ) :=
  let q := b.rotation
  let dx := 1 - 2 * (q.y * q.y + q.z * q.z)
  let dz := 1 - 2 * (q.z * q.z + q.w * q.w)
  if dx = 0 then .error .zeroDivision
  else
    let ax := Real.arctan (2 * (q.x * q.y + q.z * q.w) / dx) * 180 / Real.pi
    if dz = 0 then .error .zeroDivision
    else
      let az := Real.arctan (2 * (q.x * q.w + q.y * q.z) / dz) * 180 / Real.pi
      .ok (-az, ax)

/-- drag_to (trackball.py:152-161). -/
noncomputable def ballDrag (b : Ball) (x y dx dy : ℝ) : Ball :=
  let q := ballRotate x y dx dy
  let rotation := q.qAdd b.rotation
  let count := b.count + 1
  let (rotation, count) := if count > 97 then (rotation.normalize, 0) else (rotation, count)
  { b with rotation := rotation, count := count, model := rotation.rotmatrix }

/-- math.fmod(x, 360.0): the sign is that of x. -/
noncomputable def fmod360 (x : ℝ) : ℝ :=
  if 0 ≤ x then x - 360 * ⌊x / 360⌋ else -(-x - 360 * ⌊-x / 360⌋)

/-- What a program does with a trackball. -/
inductive BallOp where
  | drag (x y dx dy : ℝ)
  | setTheta (theta : ℝ)
  | setPhi (phi : ℝ)
  | getTheta
  | getPhi

/-- One use of a trackball, and the number read or the exception (trackball.py:152-188). The names
`_theta` and `_phi` are also written when the angles are read. -/
noncomputable def ballStep (b : Ball) : BallOp → Ball × Except Err (Option ℝ)
  | .drag x y dx dy => (ballDrag b x y dx dy, .ok none)
  | .setTheta theta => (ballOrient b (fmod360 theta) (fmod360 b.phi), .ok none)
  | .setPhi phi => (ballOrient b (fmod360 b.theta) (fmod360 phi), .ok none)
  | .getTheta =>
    match ballOrientation b with
    | .ok (theta, _) => ({ b with theta := theta }, .ok (some theta))
    | .error e => (b, .error e)
  | .getPhi =>
    match ballOrientation b with
    | .ok (_, phi) => ({ b with phi := phi }, .ok (some phi))
    | .error e => (b, .error e)

/-- Any use of a trackball. -/
noncomputable def ballRun (b : Ball) (ops : List BallOp) : Ball :=
  ops.foldl (fun b op => (ballStep b op).1) b

/-! ### The camera -/

/-- The attributes of a Camera that events read or change, and the limits of its axes
(camera.py:49-70 and 152-158). `ball` is `None` in the mode "ortho". -/
structure Camera where
  zoom : ℝ
  ball : Option Ball
  model : Mat4 ℝ
  view : Mat4 ℝ
  proj : Mat4 ℝ
  mouse : Option (ℝ × ℝ)
  xlim : ℝ
  ylim : ℝ

/-- zoom_min and zoom_max (camera.py:56-57). -/
noncomputable def zoomMin : ℝ := 1 / 10
noncomputable def zoomMax : ℝ := 5

/-- `set_xlim`, `set_ylim` from the zoom (camera.py:152-158 and 175-180); only the upper limits,
which are what the code reads. -/
noncomputable def camLimits (c : Camera) : Camera :=
  let aspect := c.ylim / c.xlim
  { c with xlim := c.zoom, ylim := c.zoom * aspect }

/-- Camera() and connect (camera.py:25-75 and 115-160), on axes with the given limits. -/
noncomputable def camInit (ortho : Bool) (theta phi zoom zdist scale xlim ylim : ℝ) : Camera :=
  let c : Camera :=
    if ortho then
      { zoom := zoom, ball := none, model := 1, view := 1, proj := glmOrtho (-1) 1 (-1) 1 1 100,
        mouse := none, xlim := xlim, ylim := ylim }
    else
      { zoom := zoom, ball := some (ballInit theta phi),
        model := (ballInit theta phi).model.transpose,
        view := glmTranslate 0 0 (-zdist) * glmScale scale scale scale,
        proj := glmPerspective 35 1 1 100, mouse := none, xlim := xlim, ylim := ylim }
  camLimits c

/-- An event of the window; `here` tells whether it is in the axes of the camera. -/
inductive CamEvent where
  | scroll (here : Bool) (button : String)
  | press (here : Bool) (x y : ℝ)
  | motion (here : Bool) (x y : ℝ)
  | release

/-- on_scroll, on_press, on_motion, on_release (camera.py:163-221). The calls of `update` and
`canvas_draw` are left out. The limits of the axes are set whatever the button. -/
noncomputable def camStep (c : Camera) : CamEvent → Camera
  | .scroll here button =>
    if !here then c
    else
      let zoom :=
        if button = "up" then max (9 / 10 * c.zoom) zoomMin
        else if button = "down" then min (11 / 10 * c.zoom) zoomMax
        else c.zoom
      camLimits { c with zoom := zoom }
  | .press here x y => if !here then c else { c with mouse := some (x, y) }
  | .motion here x y =>
    match c.mouse, here, c.ball with
    | some (mx, my), true, some b =>
      let b' := ballDrag b x y (x - mx) (y - my)
      { c with mouse := some (x, y), ball := some b', model := b'.model.transpose }
    | _, _, _ => c
  | .release => { c with mouse := none }

/-- All events of a session. -/
noncomputable def camRun (c : Camera) (es : List CamEvent) : Camera := es.foldl camStep c

end Verif
