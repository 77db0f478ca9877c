import Verif.Model.Hook
/-
Examples that save an image (examples/common/launcher.py, the command matplotlib_image), with what
pyplot keeps of their canvases.

Simplifications: canvases, viewports and visuals are numbered in the order they are made. The name of
the file and the check of its directory are left out. `plt.savefig` writes what the axes of the figure
hold. Nothing changes the size of a canvas before the image is saved.
-/

namespace Verif

variable {D : Type}

/-- What an example does before it calls `render` of the launcher: `Canvas(...)`, `Viewport(canvas,
...)`, a visual, and `visual.render(...)`. -/
inductive ScriptOp (D : Type) where
  | canvas
  | viewport (canvas : Nat)
  | visual (body : RBody (Mat4 ℝ) D)
  | render (visual : Nat) (call : RCall (Mat4 ℝ))

/-- How many canvases there are, the canvas of each viewport, and the visuals. -/
structure Script (D : Type) where
  canvases : Nat
  places : List Nat
  visuals : List (Actor D)

/-- Before the first statement. -/
def scriptInit : Script D := ⟨0, [], []⟩

/-- One statement: gsp_matplotlib/core/canvas.py:30 (`plt.figure` makes the new figure the current one),
gsp_matplotlib/core/viewport.py:29 (`add_axes` of the figure of the canvas; the current figure stays),
gsp/visual/visual.py:22-28 and `render` of the visual. A name that is not bound raises. -/
def scriptStep (s : Script D) : ScriptOp D → Except Err (Script D)
  | .canvas => .ok { s with canvases := s.canvases + 1 }
  | .viewport c =>
    if c < s.canvases then .ok { s with places := s.places ++ [c] } else .error .nameError
  | .visual b => .ok { s with visuals := s.visuals ++ [⟨b, rinit 1 (some 0)⟩] }
  | .render i c =>
    if s.places.length ≤ c.viewport then .error .nameError
    else match s.visuals[i]? with
      | none => .error .nameError
      | some a => match Verif.render a.body a.state c with
        | (_, .error e) => .error e
        | (st, .ok ()) => .ok { s with visuals := s.visuals.set i { a with state := st } }

/-- The statements one after the other; an exception ends the example. -/
def scriptRun (s : Script D) (ops : List (ScriptOp D)) : Except Err (Script D) :=
  ops.foldlM scriptStep s

/-- An image: the canvas it is of (`none`: a figure without axes that was made for it), and which
drawing of which visual it shows in which viewport. -/
structure Photo (D : Type) where
  canvas : Option Nat
  shows : Nat → Nat → D → Prop

/-- `plt.savefig(filename)`: the current figure, which is the one made last; without any, a new one. -/
def savefig (s : Script D) : Photo D where
  canvas := if s.canvases = 0 then none else some (s.canvases - 1)
  shows i v d := s.canvases ≠ 0 ∧ s.places[v]? = some (s.canvases - 1) ∧
    ∃ a, s.visuals[i]? = some a ∧ dget a.state.collections v = some (some d)

/-- `render(canvas, viewports, visuals)` of the launcher with the command matplotlib_image
(launcher.py:102-109 and 196-207): none of the arguments is used. -/
def imageMode (s : Script D) (_canvas : Nat) (_viewports _visuals : List Nat) : Photo D := savefig s

/-- The same with the command matplotlib_camera, for the visuals with these numbers (launcher.py:110-122
and 196-207). -/
noncomputable def cameraMode (ortho : Bool) (s : Script D) (viewports visuals : List Nat) :
    Except Err (Show D) :=
  showStart (launcherCamera ortho) viewports (visuals.filterMap (fun i => s.visuals[i]?))

end Verif
