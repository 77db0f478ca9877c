import Verif.Model.Cover
import Verif.Spec.Clip
/-
What covers what.
-/

namespace Verif

/-- The vertices `vs` are at the places `ps` in the viewport. -/
def PlacedAt (T : Mat4 ℝ) (vs ps : List V3) : Prop := List.Forall₂ (fun v p => screenOf T v = some p) vs ps

/-- How far a point is from the plane of the eye, along the direction of view. -/
def eyeDistance (V : Mat4 ℝ) (v : V3) : ℝ := -(fromEye V v).z

/-- The points `u` and `v` are seen at the same place, and `v` is nearer. -/
def Hides (T V : Mat4 ℝ) (v u : V3) : Prop :=
  eyeDistance V v < eyeDistance V u ∧
    ∃ p q, screenOf T u = some p ∧ screenOf T v = some q ∧ p.x = q.x ∧ p.y = q.y

end Verif
