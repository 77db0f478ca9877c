import Verif.Model.Fixed
import Mathlib.Data.List.Forall2
/-! # Where a point is on the canvas -/

namespace Verif

/-- The pixel of the canvas at which a point of the axes shows: the axes take the part `pos` of the
canvas, and show what lies between the limits. -/
def Fixed.pixel (s : Fixed) (p : ℚ × ℚ) : ℚ × ℚ :=
  (s.vp.pos.1 * s.cw + (p.1 + s.vp.xlim) / (2 * s.vp.xlim) * (s.vp.pos.2.2.1 * s.cw),
   s.vp.pos.2.1 * s.ch + (p.2 + s.vp.ylim) / (2 * s.vp.ylim) * (s.vp.pos.2.2.2 * s.ch))

/-- The pixel in the middle of the viewport. -/
def Fixed.middle (s : Fixed) : ℚ × ℚ :=
  (s.vp.pos.1 * s.cw + s.vp.pos.2.2.1 * s.cw / 2, s.vp.pos.2.1 * s.ch + s.vp.pos.2.2.2 * s.ch / 2)

/-- The number of pixels of a length, at a resolution in pixels per inch. -/
def MUnit.pixels (dpi : ℚ) (u : MUnit) (x : ℚ) : ℚ :=
  match u with
  | .pixel => x
  | .inch => x * dpi
  | .point => x / 72 * dpi
  | .millimeter => x / (254 / 10) * dpi
  | .centimeter => 10 * x / (254 / 10) * dpi
  | .meter => 1000 * x / (254 / 10) * dpi
  | .kilometer => 1000000 * x / (254 / 10) * dpi

/-- The matrix enlarges the plane of the screen by this factor: 1 without a camera and with the camera
of the mode ortho. -/
def Enlarges (c : ℚ) (m : Mat4 ℚ) : Prop :=
  ∀ x y, m.mulVec ![x, y, 0, 1] 3 ≠ 0 ∧
    m.mulVec ![x, y, 0, 1] 0 / m.mulVec ![x, y, 0, 1] 3 = c * x ∧
    m.mulVec ![x, y, 0, 1] 1 / m.mulVec ![x, y, 0, 1] 3 = c * y

/-- The matrices of an event enlarge by this factor, and zooms are not 0. -/
def FixedEvent.Fair (c : ℚ) : FixedEvent → Prop
  | .render m => Enlarges c m
  | .resize _ _ => True
  | .zoom z => z ≠ 0

/-- Every point shows at its distance from the middle of the viewport, in pixels, times `c` across and
times `d` upwards. -/
def Fixed.Shows (s : Fixed) (c d : ℚ) (u : MUnit) (points : List (List ℚ)) : Prop :=
  ∀ ps, s.places = some ps →
    List.Forall₂ (fun r p => ∃ x y z, r = [x, y, z] ∧ s.pixel p =
      (s.middle.1 + c * u.pixels s.dpi x, s.middle.2 + d * u.pixels s.dpi y)) points ps

/-- The same factor across and upwards. -/
def Fixed.Keeps (s : Fixed) (c : ℚ) (u : MUnit) (points : List (List ℚ)) : Prop := s.Shows c c u points

end Verif
