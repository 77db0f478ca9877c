import Verif.Spec.Convex
import Verif.Model.Shapes
/-
Meshes whose faces are seen counter-clockwise from outside.
-/

namespace Verif

/-- The corners of every face, seen from outside, run counter-clockwise: no vertex of the mesh is on the outer side of
the face, and one is on its inner side. Three corners tell the plane of a face. -/
def FacesOutward (verts : List V3) (faces : List (List Nat)) : Prop :=
  ∀ i j k rest, (i :: j :: k :: rest) ∈ faces → ∀ a b c, verts[i]? = some a → verts[j]? = some b →
    verts[k]? = some c → (∀ v ∈ verts, NotOutside ![a, b, c] v) ∧
      ∃ v ∈ verts, ((b.sub a).cross (c.sub a)).dot (v.sub a) < 0

/-- The triangles of a mesh. -/
def meshTris (verts : List V3) (faces : List (List Nat)) : List (Fin 3 → V3) :=
  faces.filterMap (fun f =>
    match f with
    | [i, j, k] =>
      match verts[i]?, verts[j]?, verts[k]? with
      | some a, some b, some c => some ![a, b, c]
      | _, _, _ => none
    | _ => none)

/-- The point in the middle of a triangle. -/
noncomputable def centreOf (G : Fin 3 → V3) : V3 :=
  ⟨((G 0).x + (G 1).x + (G 2).x) / 3, ((G 0).y + (G 1).y + (G 2).y) / 3, ((G 0).z + (G 1).z + (G 2).z) / 3⟩

end Verif
