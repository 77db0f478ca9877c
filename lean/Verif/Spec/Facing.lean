import Verif.Model.Facing
import Verif.Spec.Glm
import Mathlib.Data.List.Forall2
/-
What markers with an axis should look like.
-/

namespace Verif

open Matrix

/-- The value for marker `i`: the one value, or the item of the array. -/
def PerMarker.at {α : Type} : PerMarker α → Nat → Option α
  | .one x, _ => some x
  | .many xs, i => xs[i]?

/-- `drawn` is the flat outline `o`, turned by `angle` in its plane, then turned in space so that it faces
the direction `d`, and seen from the front. -/
def FacesDirection (d : V3) (angle : ℝ) (o drawn : Outline) : Prop :=
  ∃ R : Mat4 ℝ, IsRotation R ∧ (R *ᵥ pt 0 0 1 = pt (d.x / d.norm) (d.y / d.norm) (d.z / d.norm)) ∧
    List.Forall₂ (fun p q => ∃ z : ℝ, R *ᵥ pt (Real.cos (radians angle) * p.1 - Real.sin (radians angle) * p.2)
      (Real.sin (radians angle) * p.1 + Real.cos (radians angle) * p.2) 0 = pt q.1 q.2 z) o drawn

end Verif
