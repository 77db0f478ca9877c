import Verif.Spec.Json
/-
Vocabulary of "define before use".
-/

namespace Verif

/-- The command creates the object `n`. -/
def Creates (c : Cmd) (n : Int) : Prop :=
  (∃ path, meaning c.cls c.meth = .create path) ∧ cmdId c = some n

/-- The command uses the object `n`: as an argument (such parameters have the suffix
`(id)`), or as the object of a method call. -/
def Uses (c : Cmd) (n : Int) : Prop :=
  (∃ p ∈ c.params, endsWithId p.1 = true ∧ idOf p.2 = some n) ∨
  ((∃ cls f, meaning c.cls c.meth = .call cls f) ∧ cmdId c = some n)

/-- In a list of commands, every object is created before it is used. -/
def DefinesFirst (cs : List Cmd) : Prop :=
  ∀ pre c post n, cs = pre ++ c :: post → Uses c n → ∃ c' ∈ pre, Creates c' n

/-- The arguments mention live objects only. -/
def LiveArgs (w : World) (args : List Val) (kwargs : Dict String Val) : Prop :=
  (∀ x, Val.obj x ∈ args → x < w.heap.length) ∧
  (∀ p ∈ kwargs, ∀ x, p.2 = .obj x → x < w.heap.length)

/-- All arguments of a session mention objects that exist at that moment. -/
def LiveSession (P : Prog) : World → List Act → Prop
  | _, [] => True
  | w, a :: as =>
    (match a with
      | .create _ args kwargs => LiveArgs w args kwargs
      | .call _ _ args kwargs => LiveArgs w args kwargs) ∧
    LiveSession P (step P w a.op).1 as

/-- Signatures as Python has them, without objects as default values, and constructors
recorded under a name that denotes a class. -/
structure ProgOK (P : Prog) : Prop where
  wf : ∀ cls f sg, P.sig cls f = some sg → sg.WF
  defaults : ∀ cls f sg, P.sig cls f = some sg → ∀ p ∈ sg.defaults, p.2.isObj = false
  ctor : ∀ cls, ∃ path, meaning cls ((P.override cls "__init__").getD "__init__") = .create path

end Verif
