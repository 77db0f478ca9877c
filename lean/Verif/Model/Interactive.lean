import Verif.Model.Trackball
import Verif.Model.Visual
/-
Examples with a camera: examples/common/launcher.py (the command matplotlib_camera) and the part of
examples/common/camera.py that draws. The camera itself is in Trackball, the visuals in Visual.

Simplifications: the function `onRender` of an example is left out. Every visual has a copy of its own
of the switch that turns tracking off. The camera is connected twice with the same function
(launcher.py:120-121); Matplotlib keeps one handler of each kind of event.
-/

namespace Verif

variable {D : Type}

/-- A visual: what depends on its kind and variables, and its state. -/
structure Actor (D : Type) where
  body : RBody (Mat4 ℝ) D
  state : RState (Mat4 ℝ) D

/-- `for _visual in visuals: _visual.render(viewport, model, view, proj)` (launcher.py:117-118). An
exception ends the loop. -/
def redraw (vp : Nat) (cam : Camera) : List (Actor D) → List (Actor D) × Except Err Unit
  | [] => ([], .ok ())
  | a :: as =>
    match render a.body a.state ⟨vp, some cam.model, some cam.view, some cam.proj⟩ with
    | (s, .error e) => ({ a with state := s } :: as, .error e)
    | (s, .ok ()) =>
      let r := redraw vp cam as
      ({ a with state := s } :: r.1, r.2)

/-- An example that runs: its camera, the viewport the camera is connected to, and its visuals. -/
structure Show (D : Type) where
  cam : Camera
  viewport : Nat
  visuals : List (Actor D)

/-- `render_func` (launcher.py:196-207), the branch of the camera (110-122) and `Camera.run`
(camera.py:78-84). Of several viewports the first is used; without any, `viewport._axes` of None raises
(camera.py:129). `cam` is the camera once connected. -/
def showStart (cam : Camera) (viewports : List Nat) (visuals : List (Actor D)) :
    Except Err (Show D) :=
  match viewports with
  | [] => .error .attributeError
  | vp :: _ => match redraw vp cam visuals with
    | (_, .error e) => .error e
    | (vs, .ok ()) => .ok ⟨cam, vp, vs⟩

/-- Whether the handler of an event comes to its call of `update` with functions to call: on_scroll and
on_motion do (camera.py:163-211), for "press" and "release" none is connected (launcher.py:120-121). -/
def CamEvent.redraws (c : Camera) : CamEvent → Bool
  | .scroll here _ => here
  | .motion here _ _ => c.mouse.isSome && here && c.ball.isSome
  | _ => false

/-- What happens while the window is open. -/
inductive ShowEvent where
  | mouse (e : CamEvent)
  | resize (canvas : Nat)

/-- One event. Matplotlib reports exceptions of handlers and goes on. -/
noncomputable def showStep (s : Show D) : ShowEvent → Show D
  | .mouse e =>
    let cam := camStep s.cam e
    if e.redraws s.cam then ⟨cam, s.viewport, (redraw s.viewport cam s.visuals).1⟩
    else ⟨cam, s.viewport, s.visuals⟩
  | .resize cv =>
    { s with visuals := s.visuals.map fun a => { a with state := resize a.body a.state cv } }

/-- All events until the window is closed. -/
noncomputable def showRun (s : Show D) (es : List ShowEvent) : Show D := es.foldl showStep s

/-! ### Zoom and size of the window -/

/-- The axes of the camera: their zoom, their limits, and the size of the viewport in pixels. -/
structure Lens where
  zoom : ℝ
  xlim : ℝ
  ylim : ℝ
  width : ℝ
  height : ℝ

/-- A new viewport (gsp_matplotlib/core/viewport.py:30-37) and `Camera.connect` with a camera of the
given zoom (camera.py:152-159). -/
noncomputable def lensInit (zoom width height : ℝ) : Lens :=
  let aspect : ℝ := 1 / 1
  ⟨zoom, zoom, zoom * aspect, width, height⟩

/-- A scroll in the axes, or a new size of the viewport. -/
inductive LensEvent where
  | scroll (button : String)
  | resize (width height : ℝ)

/-- on_scroll (camera.py:163-183) and `_update` (viewport.py:115-126). -/
noncomputable def lensStep (l : Lens) : LensEvent → Lens
  | .scroll button =>
    let zoom :=
      if button = "up" then max (9 / 10 * l.zoom) zoomMin
      else if button = "down" then min (11 / 10 * l.zoom) zoomMax
      else l.zoom
    let aspect := l.ylim / l.xlim
    { l with zoom := zoom, xlim := zoom, ylim := zoom * aspect }
  | .resize w h =>
    let lim := if w > h then (l.zoom * w / h, l.zoom) else (l.zoom, l.zoom * h / w)
    ⟨l.zoom, lim.1, lim.2, w, h⟩

/-- A history. -/
noncomputable def lensRun (l : Lens) (es : List LensEvent) : Lens := es.foldl lensStep l

end Verif
