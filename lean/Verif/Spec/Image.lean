import Verif.Model.Image
import Verif.Spec.Visual
/-! # What the image of an example should show -/

namespace Verif

variable {D : Type}

/-- The calls of `render` of the visual with this number. -/
def callsTo (i : Nat) (ops : List (ScriptOp D)) : List (RCall (Mat4 ℝ)) :=
  ops.filterMap (fun o => match o with
    | .render j c => if j = i then some c else none
    | _ => none)

/-- What the visuals of an example are made from, in order. -/
def bodiesOf (ops : List (ScriptOp D)) : List (RBody (Mat4 ℝ) D) :=
  ops.filterMap (fun o => match o with
    | .visual b => some b
    | _ => none)

/-- The canvas of each viewport, in order. -/
def placesOf (ops : List (ScriptOp D)) : List Nat :=
  ops.filterMap (fun o => match o with
    | .viewport c => some c
    | _ => none)

/-- How many canvases an example makes. -/
def canvasesOf (ops : List (ScriptOp D)) : Nat :=
  ops.countP (fun o => match o with
    | .canvas => true
    | _ => false)

/-- The calls up to the last one into a viewport. -/
def upToLast (v : Nat) (cs : List (RCall (Mat4 ℝ))) : List (RCall (Mat4 ℝ)) :=
  (cs.reverse.dropWhile (fun c => c.viewport ≠ v)).reverse

/-- The product of the matrices last given, the identity for those never given. -/
def productOf (cs : List (RCall (Mat4 ℝ))) : Mat4 ℝ :=
  lastGiven 1 (cs.map (·.proj)) * lastGiven 1 (cs.map (·.view)) * lastGiven 1 (cs.map (·.model))

/-- Visuals multiply matrices. -/
def Multiplies (ops : List (ScriptOp D)) : Prop :=
  ∀ b ∈ bodiesOf ops, b.mul = fun p q => some (p * q)

/-- Where a point of the scene is on the picture. -/
noncomputable def placeOn (m : Mat4 ℝ) (p : V3) : ℝ × ℝ :=
  let q := m.mulVec p.point
  (q 0 / q 3, q 1 / q 3)

/-- The depth by which elements are sorted: the greater ones are painted first (C30). -/
noncomputable def depthOn (m : Mat4 ℝ) (p : V3) : ℝ :=
  let q := m.mulVec p.point
  q 2 / q 3

end Verif
