import Verif.Model.Interactive
/-
Examples with a function `onRender` (examples/common/launcher.py:110-122 and examples/points-3d.py).

Simplifications: as in Interactive. What the example keeps in arrays is one value `E`, which its
visuals read when they are drawn; writing to an array reaches the buffer of a visual (Tracked). The
function is a list of actions.
-/

namespace Verif

variable {E D : Type}

/-- A visual that reads the arrays of the example. -/
structure Player (E D : Type) where
  body : E → RBody (Mat4 ℝ) D
  state : RState (Mat4 ℝ) D

/-- `render` of a visual, with the arrays as they are. -/
def Player.rendered (a : Player E D) (env : E) (c : RCall (Mat4 ℝ)) :
    Player E D × Except Err Unit :=
  let r := render (a.body env) a.state c
  ({ a with state := r.1 }, r.2)

/-- `for _visual in visuals: _visual.render(viewport, model, view, proj)` (launcher.py:117-118). -/
def playAll (env : E) (c : RCall (Mat4 ℝ)) :
    List (Player E D) → List (Player E D) × Except Err Unit
  | [] => ([], .ok ())
  | a :: as =>
    match a.rendered env c with
    | (a', .error e) => (a' :: as, .error e)
    | (a', .ok ()) =>
      let r := playAll env c as
      (a' :: r.1, r.2)

/-- What a function `onRender` does: it writes to the arrays of the example, as
`sizes[...] = 1/(camera.zoom**2) * _sizes`, or renders a visual with the matrices it is given, as
`points.render(viewport, model, view, proj)` (examples/points-3d.py:40-43). -/
inductive HookOp (E : Type) where
  | assign (f : Camera → E → E)
  | render (visual : Nat)

/-- An example that runs. -/
structure Play (E D : Type) where
  cam : Camera
  viewport : Nat
  env : E
  visuals : List (Player E D)

/-- What the launcher passes to `render` (launcher.py:113-118 and camera.py:100-101). -/
def Play.call (s : Play E D) : RCall (Mat4 ℝ) :=
  ⟨s.viewport, some s.cam.model, some s.cam.view, some s.cam.proj⟩

/-- One action. A name that is not bound raises. -/
def hookStep (s : Play E D) : HookOp E → Play E D × Except Err Unit
  | .assign f => ({ s with env := f s.cam s.env }, .ok ())
  | .render i => match s.visuals[i]? with
    | none => (s, .error .nameError)
    | some a =>
      let r := a.rendered s.env s.call
      ({ s with visuals := s.visuals.set i r.1 }, r.2)

/-- The function; an exception ends it. -/
def hookRun (s : Play E D) : List (HookOp E) → Play E D × Except Err Unit
  | [] => (s, .ok ())
  | o :: os => match hookStep s o with
    | (s', .error e) => (s', .error e)
    | (s', .ok ()) => hookRun s' os

/-- `update` (launcher.py:113-118): `onRender` first (`none`: the example gives none), then all
visuals. -/
def playUpdate (hook : Option (List (HookOp E))) (s : Play E D) : Play E D × Except Err Unit :=
  match hook with
  | none =>
    let r := playAll s.env s.call s.visuals
    ({ s with visuals := r.1 }, r.2)
  | some os => match hookRun s os with
    | (s', .error e) => (s', .error e)
    | (s', .ok ()) =>
      let r := playAll s'.env s'.call s'.visuals
      ({ s' with visuals := r.1 }, r.2)

/-- `render_func` (launcher.py:196-207), the branch of the camera (110-122) and `Camera.run`
(camera.py:78-84). -/
def playStart (hook : Option (List (HookOp E))) (cam : Camera) (viewports : List Nat) (env : E)
    (visuals : List (Player E D)) : Except Err (Play E D) :=
  match viewports with
  | [] => .error .attributeError
  | vp :: _ => match playUpdate hook ⟨cam, vp, env, visuals⟩ with
    | (_, .error e) => .error e
    | (s, .ok ()) => .ok s

/-- One event. Matplotlib reports exceptions of handlers and goes on. -/
noncomputable def playStep (hook : Option (List (HookOp E))) (s : Play E D) : ShowEvent → Play E D
  | .mouse e =>
    let s' := { s with cam := camStep s.cam e }
    if e.redraws s.cam then (playUpdate hook s').1 else s'
  | .resize cv =>
    { s with visuals := s.visuals.map fun a =>
        { a with state := resize (a.body s.env) a.state cv } }

/-- All events until the window is closed. -/
noncomputable def playRun (hook : Option (List (HookOp E))) (s : Play E D) (es : List ShowEvent) :
    Play E D := es.foldl (playStep hook) s

/-- `Camera(mode=args.camera_mode)` connected to a new viewport (launcher.py:111 and 120-121,
camera.py:25 and 115-160, gsp_matplotlib/core/viewport.py:36-37). -/
noncomputable def launcherCamera (ortho : Bool) : Camera := camInit ortho 0 0 1 5 1 1 1

/-! ### examples/points-3d.py -/

/-- The arrays `sizes` and `linewidths` (points-3d.py:28-34). -/
structure PointArrays where
  sizes : List ℝ
  widths : List ℝ

/-- `update` of points-3d.py:40-43, with `_sizes` and `_linewidths` (28-32), and the visual it
renders. -/
noncomputable def pointsHook (baseSizes : List ℝ) (baseWidth : ℝ) (visual : Nat) :
    List (HookOp PointArrays) :=
  [.assign (fun cam a => { a with sizes := baseSizes.map (fun s => 1 / cam.zoom ^ 2 * s) }),
   .assign (fun cam a => { a with widths := a.widths.map (fun _ => 1 / cam.zoom * baseWidth) }),
   .render visual]

end Verif
