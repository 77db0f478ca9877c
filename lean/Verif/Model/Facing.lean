import Verif.Model.Glm
import Verif.Model.Py
/-
The outlines of markers (gsp_matplotlib/visual/markers.py:32-65 and 113-117).

Simplifications: real numbers instead of floats; the small number of `normalize` is 0; an outline that
consists of nan is `none`, as matplotlib draws nothing for it. The outline of a type stands for the path of
`Marker.path` as scaled by `MarkerStyle` (lines 50-53).
-/

namespace Verif

open Matrix

/-- An attribute of markers: one value, or an array with values for the single markers. -/
inductive PerMarker (α : Type) where
  | one (x : α)
  | many (xs : List α)

/-- A flat outline. -/
abbrev Outline := List (ℝ × ℝ)

/-- Lines 41-44 and 49: the item of the array if there is one, else the whole. An array is no key of the
dictionary of `Marker.path`. -/
def pickType (types : PerMarker Nat) (i : Nat) : Except Err Nat :=
  match types with
  | .one t => .ok t
  | .many ts => match ts[i]? with
    | some t => .ok t
    | none => .error .typeError

/-- Lines 45-48 and 51: the same; `rotate_deg` takes an array of one number for that number, and refuses
other arrays. -/
def pickAngle (angles : PerMarker ℝ) (i : Nat) : Except Err ℝ :=
  match angles with
  | .one a => .ok a
  | .many as => match as[i]? with
    | some a => .ok a
    | none => match as with
      | [a] => .ok a
      | _ => .error .typeError

/-- `Affine2D().rotate_deg(angle)` (lines 51-53). -/
noncomputable def turn (angle : ℝ) (p : ℝ × ℝ) : ℝ × ℝ :=
  (Real.cos (radians angle) * p.1 - Real.sin (radians angle) * p.2,
    Real.sin (radians angle) * p.1 + Real.cos (radians angle) * p.2)

/-- Lines 55-63: the vertices `(x, y, 0, 1)` times the transposed matrix; the division of line 62 is not
used, and the first two columns are kept. -/
noncomputable def lean (position : V3) (path : Outline) : Option Outline :=
  (glmAlign 0 position ⟨0, 0, 1⟩).map (fun M =>
    path.map (fun p => ((M *ᵥ ![p.1, p.2, 0, 1]) 0, (M *ᵥ ![p.1, p.2, 0, 1]) 1)))

/-- The body of the loop (lines 41-65). Only whether there is an axis is looked at, not its value. -/
noncomputable def oneMarker (outline : Nat → Option Outline) (axis : Option (PerMarker V3))
    (types : PerMarker Nat) (angles : PerMarker ℝ) (i : Nat) (position : V3) :
    Except Err (Option Outline) := do
  let t ← pickType types i
  let angle ← pickAngle angles i
  match outline t with
  | none => .error .keyError
  | some o =>
    let path := o.map (turn angle)
    match axis with
    | none => .ok (some path)
    | some _ => .ok (lean position path)

/-- `generate_markers` (lines 32-65): the first exception ends it. -/
noncomputable def generateMarkers (outline : Nat → Option Outline) (axis : Option (PerMarker V3))
    (types : PerMarker Nat) (angles : PerMarker ℝ) (positions : List V3) :
    Except Err (List (Option Outline)) :=
  positions.zipIdx.mapM (fun p => oneMarker outline axis types angles p.2 p.1)

/-- `glm.to_vec3(glm.to_vec4(positions) @ model.T)` for one position (line 116). Where numpy
has inf or nan, since the last coordinate is 0, this has 0. -/
noncomputable def placed (model : Mat4 ℝ) (p : V3) : V3 :=
  let q := model *ᵥ p.point
  ⟨q 0 / q 3, q 1 / q 3, q 2 / q 3⟩

/-- The outlines of `render` (lines 116-117), before they are sorted. -/
noncomputable def renderedMarkers (outline : Nat → Option Outline) (axis : Option (PerMarker V3))
    (types : PerMarker Nat) (angles : PerMarker ℝ) (model : Mat4 ℝ) (positions : List V3) :
    Except Err (List (Option Outline)) :=
  generateMarkers outline axis types angles (positions.map (placed model))

end Verif
