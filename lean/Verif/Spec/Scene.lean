import Verif.Spec.Session
/-
Vocabulary of the replay of whole sessions.
-/

namespace Verif

/-- What a user program does to build a scene. -/
inductive Act where
  | create (cls : String) (args : List Val) (kwargs : Dict String Val)
  | call (r : Nat) (func : String) (args : List Val) (kwargs : Dict String Val)
deriving DecidableEq, Repr

/-- The same, as an operation on the session. -/
def Act.op : Act → Op
  | .create cls args kwargs => .create cls args kwargs false
  | .call r f args kwargs => .call r f args kwargs false

/-- The arguments fit the signature, are plain (see `PlainArgs`), and mention live objects. -/
structure CleanArgs (P : Prog) (w : World) (sg : Sig) (args : List Val)
    (kwargs bound : Dict String Val) : Prop where
  wf : sg.WF
  nodup : (dkeys kwargs).Nodup
  bind : bindArgs sg args kwargs = .ok bound
  plain : PlainArgs P w sg args kwargs
  live : ∀ k x, seenArg sg args kwargs k = some (.obj x) → x < w.heap.length

/-- An action that succeeds and whose command can be replayed. `nm` is what happens to the
class and method names between recording and replay, `t` what happens to the values. -/
def Clean (P : Prog) (nm : String × String → String × String) (t : Val → Val) (w : World) :
    Act → Prop
  | .create cls args kwargs =>
    ∃ sg bound, P.sig cls "__init__" = some sg ∧ CleanArgs P w sg args kwargs bound ∧
      (∀ k v, seenArg sg args kwargs k = some v → v.isObj = false → t v = v) ∧
      P.raises (Obj.mk (1 + (w.oidCounter : Int)) cls [] (1 + (w.oidCounter : Int)))
        "__init__" bound = none ∧
      (nm (cls, (P.override cls "__init__").getD "__init__")).2 = "__init__" ∧
      P.resolve (nm (cls, (P.override cls "__init__").getD "__init__")).1 = some cls
  | .call r f args kwargs =>
    ∃ o sg bound, w.heap[r]? = some o ∧ P.sig o.cls f = some sg ∧
      CleanArgs P w sg args kwargs bound ∧
      (∀ k v, seenArg sg args kwargs k = some v → v.isObj = false → t v = v) ∧
      P.raises o f bound = none ∧
      (nm (o.cls, (P.override o.cls f).getD f)).2 = f ∧
      hasChar '.' f = false ∧ f ≠ "__init__"

/-- All actions of a session are clean. -/
def CleanSession (P : Prog) (nm : String × String → String × String) (t : Val → Val) :
    World → List Act → Prop
  | _, [] => True
  | w, a :: as => Clean P nm t w a ∧ CleanSession P nm t (step P w a.op).1 as

/-- The world after the actions. -/
def runActs (P : Prog) (w : World) (as : List Act) : World :=
  as.foldl (fun w a => (step P w a.op).1) w

/-- Every action returned normally. -/
def Succeeds (P : Prog) : World → List Act → Prop
  | _, [] => True
  | w, a :: as => (step P w a.op).2 = .ok () ∧ Succeeds P (step P w a.op).1 as

instance (P : Prog) : ∀ w as, Decidable (Succeeds P w as)
  | _, [] => .isTrue trivial
  | w, a :: as =>
    have := instDecidableSucceeds P (step P w a.op).1 as
    inferInstanceAs (Decidable (_ ∧ _))

/-- A command after transport. -/
def Cmd.sent (nm : String × String → String × String) (t : Val → Val) (c : Cmd) : Cmd :=
  { c with cls := (nm (c.cls, c.meth)).1, meth := (nm (c.cls, c.meth)).2,
           params := c.params.map (fun p => (p.1, t p.2)) }

/-- References moved by `base`. -/
def shiftVal (base : Nat) : Val → Val
  | .obj x => .obj (base + x)
  | v => v

/-- Bound arguments with references moved by `base`. -/
def shiftArgs (base : Nat) (b : Dict String Val) : Dict String Val :=
  b.map (fun p => (p.1, shiftVal base p.2))

/-- The calls received, with references moved by `base`. -/
def shiftLog (base : Nat) (l : List (String × Dict String Val)) :
    List (String × Dict String Val) := l.map (fun e => (e.1, shiftArgs base e.2))

/-- The copy of an object in a process whose references are shifted by `base` and whose
id counter is ahead by `d`; same id, same class, same calls. -/
def shiftObj (base d : Nat) (o : Obj) : Obj :=
  { id := o.id, cls := o.cls, log := shiftLog base o.log, born := o.born + d }

/-- The bodies of the program raise or not whatever the numeric values of references and
identifiers. -/
def NoPeek (P : Prog) (base d : Nat) : Prop :=
  ∀ o f b, P.raises (shiftObj base d o) f (shiftArgs base b) = P.raises o f b ∧
    P.raises { shiftObj base d o with id := o.id + d } f (shiftArgs base b) = P.raises o f b

/-- The id recorded in a command. -/
def cmdId (c : Cmd) : Option Int := (dget c.params "id").bind idOf

/-- The command holds no delayed conversion. -/
def NoConv (c : Cmd) : Prop := ∀ p ∈ c.params, ∀ f v, p.2 ≠ .conv f v

/-- A process in which the converters `cs` have been registered. -/
def World.start (cs : Dict (String × String) Nat) : World :=
  { World.fresh with converters := cs }

end Verif
