import Verif.Spec.Define
import Mathlib.Data.List.Forall2
/-
What a saved file says about commands whose conversions build objects.
-/

namespace Verif

/-- The parameter `p'` read from a file stands for the recorded parameter `p`, `w` being the process
that wrote the file and `s` the process as it was before: the value after its conversion; or,
if it is an object, its id, under a name that says so; or, if the conversion builds an object, the id of
a new object so built; or, if the conversion looks a number up, the id of the object that was registered
under that number, or of one built in the meantime. -/
inductive SavedParam (P : Prog) (ij : Codec) (s : World) (w : World) : String × Val → String × Val → Prop
  | value (k : String) (v x v' : Val) (he : evaluated P v = some x) (hx : x.isObj = false)
      (hs : SameValue ij x v') : SavedParam P ij s w (k, v) (k, v')
  | object (k : String) (v : Val) (r : Nat) (o : Obj) (he : evaluated P v = some (.obj r))
      (ho : w.heap[r]? = some o) : SavedParam P ij s w (k, v) (k ++ "(id)", .int o.id)
  | built (k : String) (f : Nat) (x : Val) (cls : String) (kw : Val → Dict String Val) (r : Nat)
      (o : Obj) (sg : Sig) (b : Dict String Val) (hf : P.conv f x = .make cls kw)
      (hs : P.sig cls "__init__" = some sg) (hb : bindArgs sg [] (kw x) = .ok b)
      (hn : s.heap.length ≤ r) (ho : w.heap[r]? = some o) (hc : o.cls = cls) (hl : o.log = [("__init__", b)]) :
      SavedParam P ij s w (k, .conv f x) (k ++ "(id)", .int o.id)
  | looked (k : String) (f : Nat) (x : Val) (key : Val → Option Int) (m : Int) (r : Nat) (o : Obj)
      (hf : P.conv f x = .look key) (hk : key x = some m)
      (hr : dget s.objects m = some r ∨ s.heap.length ≤ r) (ho : w.heap[r]? = some o) :
      SavedParam P ij s w (k, .conv f x) (k ++ "(id)", .int o.id)

/-- The command `c'` read from a file stands for the recorded command `c`: the same meaning, the same
object, and one parameter for each, in order. -/
structure SavedCommand (P : Prog) (ij : Codec) (s : World) (w : World) (c c' : Cmd) : Prop where
  meaning : meaning c'.cls c'.meth = meaning c.cls c.meth
  id : cmdId c' = cmdId c
  params : List.Forall₂ (SavedParam P ij s w) c.params c'.params

/-- A command as a session records it: proper names, the id of its object, names given once, and no
parameter given both as an object and as a value (see `save_load_overlap_fails`). Bytes are below
256. -/
structure ProperCmd (P : Prog) (c : Cmd) : Prop where
  name : NameOK c.cls c.meth
  keys : (dkeys c.params).Nodup
  apart : ∀ k ∈ dkeys c.params, k ++ "(id)" ∉ dkeys c.params
  id : ∃ n, dget c.params "id" = some (.oid n)
  bytes : ∀ p ∈ c.params, ∀ b, evaluated P p.2 = some (.bytes b) → ∀ x ∈ b, x < 256

/-- Saving the value builds an object: it is given by a conversion that calls a class. -/
def CallsClass (P : Prog) (v : Val) : Prop :=
  ∃ f x cls kw, v = .conv f x ∧ P.conv f x = .make cls kw

/-- The value is a number to be looked up, and the number is `m`. -/
def LooksUp (P : Prog) (v : Val) (m : Int) : Prop :=
  ∃ f x key, v = .conv f x ∧ P.conv f x = .look key ∧ key x = some m

/-- Numbers to be looked up are those of objects created by earlier commands. -/
def LooksBack (P : Prog) (cs : List Cmd) : Prop :=
  ∀ pre c post, cs = pre ++ c :: post → ∀ p ∈ c.params, ∀ m, LooksUp P p.2 m →
    ∃ c' ∈ pre, Creates c' m

/-- Conversions that call no class give no objects. -/
def PlainConversions (P : Prog) : Prop :=
  ∀ f x g, P.conv f x = .pure g → ∀ y, g x = .ok y → y.isObj = false

end Verif
