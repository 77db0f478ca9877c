import Verif.Model.Interactive
/-! # What an example with a camera should show -/

namespace Verif

variable {D : Type}

/-- A visual that can always be drawn, with the product of matrices. -/
structure Actor.Drawable (a : Actor D) : Prop where
  mul : a.body.mul = fun p q => some (p * q)
  prepare : a.body.prepare = .ok ()
  draw : ∀ m vp, ∃ d, a.body.draw m vp = .ok d

/-- The visual is drawn in the viewport as the camera sees it. -/
def SeenBy (cam : Camera) (vp : Nat) (a : Actor D) : Prop :=
  ∃ d, a.body.draw (cam.proj * cam.view * cam.model) vp = .ok d ∧
    dget a.state.collections vp = some (some d)

/-- The limits that show the square from -zoom to zoom, undistorted, in a window of this size. -/
noncomputable def fitting (zoom width height : ℝ) : ℝ × ℝ :=
  (zoom * max 1 (width / height), zoom * max 1 (height / width))

/-- The sizes of a history are positive. -/
def PositiveSizes (es : List LensEvent) : Prop :=
  ∀ e ∈ es, ∀ w h, e = .resize w h → 0 < w ∧ 0 < h

end Verif
