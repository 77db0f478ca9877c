import Verif.Spec.Deliver
import Verif.Spec.Json
/-
What a saved session becomes in another process.
-/

namespace Verif

/-- The value that `json` gives back for a value: identifiers are integers, tuples are
lists, bytes are texts in base64, instances are what their class is encoded as. -/
def loadedValue (ij : Codec) : Val → Val
  | .oid n => .int n
  | .tuple l => .list l
  | .bytes b => .str (String.ofList (b64encode b))
  | .inst c p => match ij c p with
    | some j => decodeVal j
    | none => .inst c p
  | v => v

/-- The value that arrives for a recorded one: delayed conversions are done when the
session is saved, not when it is run. -/
def jsonVal (P : Prog) (ij : Codec) (v : Val) : Val :=
  loadedValue ij ((evaluated P v).getD v)

/-- The names that arrive for the names of a recorded command: a dotted method name is the
path of the class. -/
def jsonNames : String × String → String × String
  | (cls, meth) => if hasChar '.' meth then (meth, "__init__") else (cls, meth)

/-- A recorded value that can be saved: its delayed conversion, if any, succeeds without
building an object, and gives something that JSON holds. -/
def Savable (P : Prog) (ij : Codec) (v : Val) : Prop :=
  ∃ y, evaluated P v = some y ∧ Encodable ij y

instance (P : Prog) (ij : Codec) (v : Val) : Decidable (Savable P ij v) :=
  match h : evaluated P v with
  | none => .isFalse (by rintro ⟨y, h', _⟩; rw [h] at h'; cases h')
  | some y => if hy : Encodable ij y then .isTrue ⟨y, h, hy⟩
    else .isFalse (by rintro ⟨z, h', hz⟩; rw [h] at h'; cases h'; exact hy hz)

/-- The recorded form of every argument of a call of `cls.f` can be saved; objects are saved
by their ids. -/
def SavableArgs (P : Prog) (ij : Codec) (cs : Dict (String × String) Nat) (cls f : String)
    (args : List Val) (kwargs : Dict String Val) : Prop :=
  ∀ sg b, P.sig cls f = some sg → bindArgs sg args kwargs = .ok b →
    ∀ k v u, dget b k = some v → recordedArg P cs sg k v = some u → u.isObj = false →
      Savable P ij u

/-- The command of an action can be saved. -/
def SavableAct (P : Prog) (ij : Codec) (cs : Dict (String × String) Nat) (w : World) : Act → Prop
  | .create cls args kwargs => NameOK cls ((P.override cls "__init__").getD "__init__") ∧
      SavableArgs P ij cs cls "__init__" args kwargs
  | .call r f args kwargs => ∀ o, w.heap[r]? = some o →
      NameOK o.cls ((P.override o.cls f).getD f) ∧ SavableArgs P ij cs o.cls f args kwargs

/-- The commands of all actions of a session can be saved. -/
def SavableSession (P : Prog) (ij : Codec) (cs : Dict (String × String) Nat) :
    World → List Act → Prop
  | _, [] => True
  | w, a :: as => SavableAct P ij cs w a ∧ SavableSession P ij cs (step P w a.op).1 as

/-- The active queue of the process, if there is one, accepts commands. -/
def World.Writable (w : World) : Prop :=
  w.active = none ∨ ∃ q u, w.active = some q ∧ w.queues[q]? = some u ∧ u.readonly = false

end Verif
