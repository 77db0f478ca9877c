import Verif.Spec.FrontFace
import Verif.Spec.Fill
import Verif.Spec.Cover
/-
Convex meshes.
-/

namespace Verif

/-- The point `p` is not on the outer side of the plane of the face `G`. -/
def NotOutside (G : Fin 3 → V3) (p : V3) : Prop :=
  (((G 1).sub (G 0)).cross ((G 2).sub (G 0))).dot (p.sub (G 0)) ≤ 0

/-- A mesh is convex if none of its corners is on the outer side of any of its faces. -/
def ConvexMesh (faces : List (Fin 3 → V3)) : Prop := ∀ G ∈ faces, ∀ F ∈ faces, ∀ i, NotOutside G (F i)

/-- The point `p` is in the solid that a convex mesh bounds: on the outer side of no face. -/
def InSolid (faces : List (Fin 3 → V3)) (p : V3) : Prop := ∀ G ∈ faces, NotOutside G p

/-- A convex mesh is closed if its faces cover the surface of the solid: each point of the solid that is on the plane
of a face is in a face with the same outer side. -/
def ClosedMesh (faces : List (Fin 3 → V3)) : Prop :=
  ∀ G ∈ faces, ∀ p, InSolid faces p → (((G 1).sub (G 0)).cross ((G 2).sub (G 0))).dot (p.sub (G 0)) = 0 →
    ∃ H ∈ faces, InTriangle H p ∧ ∀ q, NotOutside H q ↔ NotOutside G q

end Verif
