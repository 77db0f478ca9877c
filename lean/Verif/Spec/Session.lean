import Verif.Model.Session
/-
Vocabulary of the session properties, and a small concrete program used in examples.
-/

namespace Verif

/-- The commands held by queue number `q`. -/
def commandsOf (w : World) (q : Nat) : List Cmd :=
  match w.queues[q]? with
  | some u => u.commands
  | none => []

/-- All commands of the session, queue after queue. -/
def allCommands (w : World) : List Cmd := w.queues.flatMap Queue.commands

/-- The number of the queue that `CommandQueue("active")` returns: the active queue, or
the queue about to be created when there is none. -/
def activeIx (w : World) : Nat := w.active.getD w.queues.length

/-- The active queue accepts commands (a queue about to be created does). -/
def activeWritable (w : World) : Bool :=
  match w.queues[activeIx w]? with
  | some u => !u.readonly
  | none => true

/-- Operations that can give an object an id other than the minted one. -/
def Op.assignsId : Op → Bool
  | .setId _ _ => true
  | .run _ => true
  | _ => false

/-- Operations that can take an object out of the registry or keep it out. -/
def Op.hidesObjects : Op → Bool
  | .setId _ _ => true
  | .run _ => true
  | .resetObjects => true
  | .objRecord _ => true
  | _ => false

/-- The active queue is one of the queues. -/
def World.ActiveValid (w : World) : Prop := ∀ q, w.active = some q → q < w.queues.length

/-- Every registry entry is an object that carries that id. -/
def RegistryCoherent (w : World) : Prop :=
  ∀ k r, dget w.objects k = some r → ∃ o, w.heap[r]? = some o ∧ o.id = k

/-! ### Instrumented calls -/

/-- What Python guarantees of a signature (parameter names are distinct identifiers, only
parameters have defaults or annotations), plus: no parameter is called `id`. -/
structure Sig.WF (sg : Sig) : Prop where
  nodup : sg.params.Nodup
  ident : ∀ k ∈ sg.params, endsWithId k = false
  noId : "id" ∉ sg.params
  defaultsNodup : (dkeys sg.defaults).Nodup
  defaultsParams : ∀ k ∈ dkeys sg.defaults, k ∈ sg.params
  annots : ∀ k ∈ dkeys sg.annots, k ∈ sg.params ∨ k = "return"

/-- The value explicitly given for parameter `k`, by position or by name. -/
def givenArg (sg : Sig) (args : List Val) (kwargs : Dict String Val) (k : String) :
    Option Val :=
  (dget (sg.params.zip args) k).or (dget kwargs k)

/-- The value that the body sees for parameter `k`. -/
def seenArg (sg : Sig) (args : List Val) (kwargs : Dict String Val) (k : String) : Option Val :=
  (givenArg sg args kwargs k).or (dget sg.defaults k)

/-- A value is acceptable for a list of declared types: it is an instance of one of them,
it is `None`, or some converter leads from one of its classes to one of them. -/
def Acceptable (P : Prog) (w : World) (v : Val) (anns : List String) : Prop :=
  (∃ ann ∈ anns, matchesType P (paramType P (typeName w v)) ann = true) ∨
  (anns ≠ [] ∧ paramType P (typeName w v) = "NoneType") ∨
  (∃ ann ∈ anns, ∃ base ∈ P.mro (typeName w v), ∃ f,
    getConverterType P w.converters base ann = some f)

/-- A value is taken as it is: it has one of the declared types or is `None`, and no
converter interferes. -/
def TakenAsIs (P : Prog) (w : World) (v : Val) (anns : List String) : Prop :=
  ((∃ ann ∈ anns, matchesType P (paramType P (typeName w v)) ann = true) ∨
    (anns ≠ [] ∧ paramType P (typeName w v) = "NoneType")) ∧
  (∀ ann ∈ anns, ∀ base ∈ P.mro (typeName w v),
    getConverterType P w.converters base ann = none)

/-! ### Replay -/

/-- The reference `v` of world `w` as seen in world `w2`, through ids. -/
def relink (w w2 : World) : Val → Val
  | .obj x => match w.heap[x]? with
    | some o => match dget w2.objects o.id with
      | some y => .obj y
      | none => .obj x
    | none => .obj x
  | v => v

/-- Arguments that a replay can repeat: no object for an optional parameter, plain values
that are no identifiers and are taken as they are. -/
structure PlainArgs (P : Prog) (w : World) (sg : Sig) (args : List Val)
    (kwargs : Dict String Val) : Prop where
  optional : ∀ k v, givenArg sg args kwargs k = some v → v.isObj = true →
    dget sg.defaults k = none
  plain : ∀ k v, seenArg sg args kwargs k = some v → v.isObj = false →
    (∀ n, v ≠ .oid n) ∧ (∀ f x, v ≠ .conv f x) ∧
    ∀ anns, dget sg.annots k = some anns → TakenAsIs P w v anns

/-! ### A concrete program, for examples only -/

/-- Signatures of the example classes: `Foo(value: int)`, `Foo.set_value(value: int,
unit: str = "px")`, `Foo.set_next(next: Foo = None)`, `Foo.attach(other: Foo)`,
`Canvas(width: int, height: int)` (recorded as "core.Canvas"). -/
def demoSig (cls func : String) : Option Sig :=
  if cls = "Foo" then
    if func = "__init__" then some ⟨["value"], [], [("value", ["int"])]⟩
    else if func = "set_value" then
      some ⟨["value", "unit"], [("unit", .str "px")], [("value", ["int"]), ("unit", ["str"])]⟩
    else if func = "set_next" then some ⟨["next"], [("next", .none)], [("next", ["Foo"])]⟩
    else if func = "attach" then some ⟨["other"], [], [("other", ["Foo"])]⟩
    else none
  else if cls = "Canvas" then
    if func = "__init__" then
      some ⟨["width", "height"], [], [("width", ["int"]), ("height", ["int"])]⟩
    else none
  else none

/-- The example program. Converter 0 turns a float into an int, converter 1 builds a `Foo`. -/
def demo : Prog where
  sig := demoSig
  override := fun c f => if c = "Canvas" ∧ f = "__init__" then some "core.Canvas" else none
  mro := fun c => if c = "Foo" ∨ c = "Canvas" then [c, "Object", "object"]
    else if c = "OID" then ["OID", "int", "object"] else [c, "object"]
  metaBases := fun _ => ["object"]
  raises := fun _ f b => if f = "set_value" ∧ dget b "value" = some (.int (-1))
    then some .valueError else none
  conv := fun f _ => if f = 1 then .make "Foo" (fun v => [("value", v)])
    else .pure (fun v => match v with | .float n => .ok (.int n) | _ => .error .typeError)
  resolve := fun p => if p = "Foo" ∨ p = "Canvas" then some p
    else if p = "core.Canvas" then some "Canvas" else none

end Verif
