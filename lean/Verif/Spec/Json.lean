import Verif.Model.Json
import Verif.Spec.Scene
/-
Vocabulary of the save and load properties.
-/

namespace Verif

/-- What a command stands for: the creation of an object of a class given by its path, or
a method call on an object of a class. -/
inductive Meaning where
  | create (path : String)
  | call (cls meth : String)
deriving DecidableEq, Repr

/-- A dotted method name is the path of the class to create (gsp/io/command.py:435-451). -/
def meaning (cls meth : String) : Meaning :=
  if hasChar '.' meth then .create meth
  else if meth = "__init__" then .create cls
  else .call cls meth

/-- Names as Python gives them: no slash, and a method name is not empty. -/
def NameOK (cls meth : String) : Prop := '/' ∉ cls.toList ∧ '/' ∉ meth.toList ∧ meth.toList ≠ []

instance (cls meth : String) : Decidable (NameOK cls meth) := by
  unfold NameOK; exact inferInstance

/-- The loaded value stands for the saved one: the same, or its JSON form. Bytes become a
text that decodes to the same bytes. -/
def SameValue (ij : Codec) : Val → Val → Prop
  | .oid n, v => v = .int n
  | .tuple l, v => v = .list l
  | .bytes b, v => ∃ s : String, v = .str s ∧ b64decode s.toList = some b
  | .inst c p, v => ∃ j, ij c p = some j ∧ v = decodeVal j
  | .obj _, _ => False
  | .conv _ _, _ => False
  | v, v' => v' = v

/-- Values that JSON can hold: no delayed conversion, no raw object, bytes below 256, and
instances of classes with an encoding. -/
def Encodable (ij : Codec) : Val → Prop
  | .bytes b => ∀ x ∈ b, x < 256
  | .inst c p => (ij c p).isSome = true
  | .obj _ => False
  | .conv _ _ => False
  | _ => True

instance (ij : Codec) (v : Val) : Decidable (Encodable ij v) := by
  cases v <;> unfold Encodable <;> exact inferInstance

/-- The loaded command stands for the saved one: same meaning, same object id, same
parameter names in the same order, and values standing for the same values. -/
structure SameCommand (ij : Codec) (c c' : Cmd) : Prop where
  meaning : meaning c'.cls c'.meth = meaning c.cls c.meth
  id : cmdId c' = cmdId c
  keys : dkeys c'.params = dkeys c.params
  vals : ∀ k v, dget c.params k = some v → ∃ v', dget c'.params k = some v' ∧ SameValue ij v v'

/-- A command as recorded by a program without delayed conversions. -/
structure PlainCmd (ij : Codec) (c : Cmd) : Prop where
  name : NameOK c.cls c.meth
  keys : (dkeys c.params).Nodup
  id : ∃ n, dget c.params "id" = some (.oid n)
  vals : ∀ p ∈ c.params, Encodable ij p.2

/-- What a delayed conversion gives, when it neither builds an object nor looks one up. -/
def evaluated (P : Prog) : Val → Option Val
  | .conv f x => match P.conv f x with
    | .pure g => (g x).toOption
    | .make _ _ => none
    | .look _ => none
  | v => some v

/-- The object that a delayed conversion finds in the registry. -/
def found (P : Prog) (w : World) : Val → Option Nat
  | .conv f x => match P.conv f x with
    | .look key => (key x).bind (dget w.objects)
    | _ => none
  | _ => none

/-- The parameter that a saved command carries for a recorded one: the conversion is done,
and an object is given by its id under a name with the suffix `(id)`. -/
def settle (P : Prog) (w : World) (p : String × Val) : Option (String × Val) :=
  match evaluated P p.2 with
  | none => (found P w p.2).bind fun r => w.heap[r]?.map (fun o => (p.1 ++ "(id)", .oid o.id))
  | some (.obj r) => w.heap[r]?.map (fun o => (p.1 ++ "(id)", .oid o.id))
  | some v => some (p.1, v)

/-- `c'` is `c` with all its parameters settled. -/
def Settles (P : Prog) (w : World) (c c' : Cmd) : Prop :=
  c'.cid = c.cid ∧ c'.cls = c.cls ∧ c'.meth = c.meth ∧
    c.params.mapM (settle P w) = some c'.params

/-- The queue that `queue` designates once an empty queue has been replaced. -/
def Designates (w : World) (q : Nat) (arg : Option Nat) : Prop :=
  (arg = some q ∧ commandsOf w q ≠ []) ∨ w.active = some q ∧ (arg = none ∨ arg = some q)

/-- The file is taken as JSON: the format says so, or there is none and the name ends in
".json" (a name that is only ".json" has no extension). -/
def IsJson (format : Option String) (name : String) : Prop :=
  format = some "json" ∨
    (format = none ∨ format = some "") ∧ ∃ stem : String, stem ≠ "" ∧ name = stem ++ ".json"

/-- An entry of a file that stands for a command: it has a method and parameters with an
id. -/
def JCmd.Complete (j : JCmd) : Prop :=
  j.method.isSome = true ∧ ∃ ps, j.params = some ps ∧ "id" ∈ ps.map Prod.fst

end Verif
