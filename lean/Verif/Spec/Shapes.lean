import Verif.Model.Glm
/-
What meshes and triangles should be.
-/

namespace Verif

/-- The corner points of a face, `none` for an index that is not one of a vertex. -/
def facePoints (verts : List V3) (f : Nat × Nat × Nat) : Option V3 × Option V3 × Option V3 :=
  (verts[f.1]?, verts[f.2.1]?, verts[f.2.2]?)

/-- The three sides of a triangle, each with its direction. -/
def sides {α : Type} (t : α × α × α) : List (α × α) := [(t.1, t.2.1), (t.2.1, t.2.2), (t.2.2, t.1)]

open Classical in
/-- A closed surface: every side is run through as often in one direction as in the other, so that
no side is a border. -/
def ClosedSurface {α : Type} (ts : List (α × α × α)) : Prop :=
  ∀ p q : α, (ts.flatMap sides).count (p, q) = (ts.flatMap sides).count (q, p)

/-- The sides of a face with any number of corners. -/
def polySides (f : List Nat) : List (Nat × Nat) := f.zip (f.rotate 1)

/-- Every side of a face is a side of exactly two faces (in whatever direction). -/
def TwoFacesPerSide (fs : List (List Nat)) : Prop :=
  ∀ s ∈ fs.flatMap polySides,
    (fs.flatMap polySides).countP (fun t => t = s ∨ t = (s.2, s.1)) = 2

instance (fs : List (List Nat)) : Decidable (TwoFacesPerSide fs) := by
  unfold TwoFacesPerSide; infer_instance

/-- The volume spanned by three points, positive when they turn counterclockwise seen from
outside. -/
def volume (a b c : V3) : ℝ :=
  a.x * (b.y * c.z - b.z * c.y) - a.y * (b.x * c.z - b.z * c.x) + a.z * (b.x * c.y - b.y * c.x)

/-- Twice the area of a triangle in the plane, positive when its corners turn counterclockwise. -/
def area2 (a b c : ℚ × ℚ) : ℚ := (b.1 - a.1) * (c.2 - a.2) - (c.1 - a.1) * (b.2 - a.2)

end Verif
