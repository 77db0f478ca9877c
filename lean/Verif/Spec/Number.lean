import Verif.Spec.Listing
import Verif.Model.Api
/-
Sessions in which canvases are given by their numbers.
-/

namespace Verif

/-- The canvas given when a viewport is created: the first argument, or the one named so. -/
def canvasOf : Act → Option Val
  | .create "Viewport" (v :: _) _ => some v
  | .create "Viewport" [] kwargs => dget kwargs "canvas"
  | _ => none

/-- The same action with `v` given for the canvas. -/
def giveCanvas (v : Val) : Act → Act
  | .create cls (_ :: args) kwargs => .create cls (v :: args) kwargs
  | .create cls [] kwargs =>
    .create cls [] (kwargs.map (fun p => if p.1 = "canvas" then (p.1, v) else p))
  | a => a

/-- No argument is named twice, as in every Python call. -/
def Act.namedOnce : Act → Prop
  | .create _ _ kwargs => (dkeys kwargs).Nodup
  | .call _ _ _ kwargs => (dkeys kwargs).Nodup

/-- The second action is the first one, or the first one with an object given for the canvas
replaced by the number of the object: an integer, `canvas.id`, or another value that Python takes
for an integer. -/
def ByNumber (w : World) (a a' : Act) : Prop :=
  a' = a ∨ a.namedOnce ∧ ∃ r o v, canvasOf a = some (.obj r) ∧ w.heap[r]? = some o ∧ intValue v = some o.id ∧
    a' = giveCanvas v a

/-- All actions of a session. -/
def ByNumbers (P : Prog) : World → List Act → List Act → Prop
  | _, [], [] => True
  | w, a :: as, a' :: as' => ByNumber w a a' ∧ ByNumbers P (step P w a.op).1 as as'
  | _, _, _ => False

end Verif
