import Verif.Model.Hook
/-! # What an example with a function `onRender` should show -/

namespace Verif

variable {E D : Type}

/-- A visual that can be drawn whatever the arrays hold, with the product of matrices. -/
structure Player.Drawable (a : Player E D) : Prop where
  mul : ∀ env, (a.body env).mul = fun p q => some (p * q)
  prepare : ∀ env, (a.body env).prepare = .ok ()
  draw : ∀ env m vp, ∃ d, (a.body env).draw m vp = .ok d

/-- The visual is drawn in the viewport as the camera sees it now, from what the arrays hold now. -/
def Play.Shows (s : Play E D) (a : Player E D) : Prop :=
  ∃ d, (a.body s.env).draw (s.cam.proj * s.cam.view * s.cam.model) s.viewport = .ok d ∧
    dget a.state.collections s.viewport = some (some d)

/-- What a function writes to the arrays when it is called with a camera. -/
def writes (hook : List (HookOp E)) (cam : Camera) (env : E) : E :=
  hook.foldl (fun env o => match o with
    | .assign f => f cam env
    | .render _ => env) env

/-- The cameras with which the function is called in a history of events: the one after each event
that the camera handles by drawing again. -/
noncomputable def calledWith (cam : Camera) : List ShowEvent → List Camera
  | [] => []
  | .mouse e :: es =>
    (if e.redraws cam then [camStep cam e] else []) ++ calledWith (camStep cam e) es
  | .resize _ :: es => calledWith cam es

/-- The camera after a history. -/
noncomputable def cameraAfter (cam : Camera) (es : List ShowEvent) : Camera :=
  es.foldl (fun cam e => match e with
    | .mouse e => camStep cam e
    | .resize _ => cam) cam

/-- The widths of the points, from the widths of one. -/
def sameWidths (n : Nat) (w : ℝ) : List ℝ := List.replicate n w

/-- How many units of the scene the diameter of a point covers, in a viewport of the given width whose
limits are `-xlim` and `xlim`. Matplotlib's sizes are areas, in the unit of `width` here. -/
noncomputable def covered (width xlim size : ℝ) : ℝ := Real.sqrt size / (width / (2 * xlim))

end Verif
