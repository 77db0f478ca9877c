import Verif.Spec.Deliver
import Verif.Spec.Number
/-
Sessions in which objects are given by what leads to them: canvases by their numbers, buffers by the
arrays they follow.
-/

namespace Verif

/-- For parameter `k`, the value `x'` may be given for `x`: they are the same, or the parameter has
no default, `x` is an object and `x'` leads to it: `x'` is the number of a canvas, or an array whose
buffer is `x`. -/
def LeadsTo (A : ArrayInfo) (w : World) (sg : Sig) (k : String) (x x' : Val) : Prop :=
  x' = x ∨ dget sg.defaults k = none ∧ ∃ r o anns, x = .obj r ∧ w.heap[r]? = some o ∧
    dget sg.annots k = some anns ∧
    (anns = ["Canvas"] ∧ intValue x' = some o.id ∨
     "Buffer" ∈ anns ∧ ∃ p, x' = .inst "tracked" p ∧ A.buffer p = some o.id)

/-- Arguments that may be given for others: as many by position, and the same names in the same
order. -/
def ArgsStand (R : String → Val → Val → Prop) (sg : Sig) (args args' : List Val)
    (kwargs kwargs' : Dict String Val) : Prop :=
  args'.length = args.length ∧
  List.Forall₂ (fun p p' => p'.1 = p.1 ∧ R p.1 p.2 p'.2) (sg.params.zip args) (sg.params.zip args') ∧
  List.Forall₂ (fun p p' => p'.1 = p.1 ∧ R p.1 p.2 p'.2) kwargs kwargs'

/-- The second action is the first one, or the first one with some objects replaced by what leads to
them. -/
def ByHandle (A : ArrayInfo) (P : Prog) (w : World) : Act → Act → Prop
  | .create cls args kwargs, .create cls' args' kwargs' => cls' = cls ∧
    (args' = args ∧ kwargs' = kwargs ∨ (dkeys kwargs).Nodup ∧ ∃ sg, P.sig cls "__init__" = some sg ∧
      ArgsStand (LeadsTo A w sg) sg args args' kwargs kwargs')
  | .call r f args kwargs, .call r' f' args' kwargs' => r' = r ∧ f' = f ∧
    (args' = args ∧ kwargs' = kwargs ∨ (dkeys kwargs).Nodup ∧ ∃ o sg, w.heap[r]? = some o ∧
      P.sig o.cls f = some sg ∧ ArgsStand (LeadsTo A w sg) sg args args' kwargs kwargs')
  | _, _ => False

/-- All actions of a session. -/
def ByHandles (A : ArrayInfo) (P : Prog) : World → List Act → List Act → Prop
  | _, [], [] => True
  | w, a :: as, a' :: as' => ByHandle A P w a a' ∧ ByHandles A P (step P w a.op).1 as as'
  | _, _, _ => False

end Verif
