import Verif.Spec.Scene
import Mathlib.Data.List.Forall2
/-
What a command records for an argument, and what its replay delivers in its place.
-/

namespace Verif

/-! ### What is recorded for an argument -/

/-- The first converter registered from one of the names `srcs`, or from any type, to `dst`. -/
def registeredFrom (cs : Dict (String × String) Nat) (srcs : List String) (dst : String) :
    Option Nat :=
  (srcs.flatMap (fun s => [dget cs (s, dst), dget cs ("*", dst)])).findSome? id

/-- The class of a value that is no GSP object. -/
def className : Val → String
  | .none => "NoneType"
  | .bool _ => "bool"
  | .int _ => "int"
  | .oid _ => "OID"
  | .float _ => "float"
  | .str _ => "str"
  | .bytes _ => "bytes"
  | .list _ => "list"
  | .tuple _ => "tuple"
  | .inst c _ => c
  | .obj _ => "Object"
  | .conv _ _ => "Converter"

/-- The class that is compared with the declared types: generated classes (their names
contain a bracket) stand for their base. -/
def comparedClass (P : Prog) (c : String) : String :=
  if '[' ∈ c.toList then (P.mro c)[1]?.getD c else c

/-- A value of class `c` fits the declared type `ann`: `ann` is `c` or one of its bases,
it is `type` or `object`, or the value is `None`. -/
def fits (P : Prog) (c ann : String) : Bool :=
  ann ∈ comparedClass P c :: P.mro (comparedClass P c) ∨ ann = "type" ∨ ann = "object" ∨
    comparedClass P c = "NoneType"

/-- The converters from a class `c`, its bases included, to the declared types that come
before the first one that fits. -/
def candidates (P : Prog) (cs : Dict (String × String) Nat) (c : String) (anns : List String) :
    List Nat :=
  (anns.takeWhile (fun ann => !fits P c ann)).flatMap (fun ann =>
    (P.mro c).filterMap (fun b => registeredFrom cs (b :: P.metaBases b) ann))

/-- What is recorded for a value: its delayed conversion by the last candidate, or the
value when there is no candidate and it fits; `none` when the value is refused. -/
def recordedAs (P : Prog) (cs : Dict (String × String) Nat) (anns : List String) (v : Val) :
    Option Val :=
  match (candidates P cs (className v) anns).getLast? with
  | some f => some (.conv f v)
  | none => if anns.any (fits P (className v)) then some v else none

/-- The argument that the command keeps: the default value takes the place of an object
given for an optional parameter (gsp/io/command.py:242-246). -/
def keptArg (sg : Sig) (k : String) (v : Val) : Val :=
  if v.isObj then (dget sg.defaults k).getD v else v

/-- The form in which the argument `v` of parameter `k` is recorded. Objects are recorded
by reference, whatever their class. -/
def recordedArg (P : Prog) (cs : Dict (String × String) Nat) (sg : Sig) (k : String) (v : Val) :
    Option Val :=
  if (keptArg sg k v).isObj then some (keptArg sg k v)
  else match dget sg.annots k with
    | none => some (keptArg sg k v)
    | some anns => recordedAs P cs anns (keptArg sg k v)

/-! ### What is delivered in its place -/

/-- The bound arguments of a constructor called with keywords only. -/
def initArgs (P : Prog) (cls : String) (kwargs : Dict String Val) : Option (Dict String Val) :=
  match P.sig cls "__init__" with
  | some sg => (bindArgs sg [] kwargs).toOption
  | none => none

/-- `v'` is what the replay delivers for the recorded form `v`, when `t` is what happens to
values on their way, `ref` takes objects to their copies and `made` lists the objects built
by conversions (with class and constructor arguments). -/
inductive Delivered (P : Prog) (t : Val → Val) (ref : List Nat)
    (made : List (Nat × String × Dict String Val)) : Val → Val → Prop
  | object {x y : Nat} (h : ref[x]? = some y) : Delivered P t ref made (.obj x) (.obj y)
  | value {v : Val} (h : v.isObj = false) (h' : ∀ f x, t v ≠ .conv f x) :
      Delivered P t ref made v (t v)
  | converted {v : Val} {f : Nat} {x : Val} {g} {v' : Val} (h : v.isObj = false)
      (hv : t v = .conv f x) (hf : P.conv f x = .pure g) (hg : g x = .ok v') :
      Delivered P t ref made v v'
  | built {v : Val} {f : Nat} {x : Val} {cls kw b} {y : Nat} (h : v.isObj = false)
      (hv : t v = .conv f x) (hf : P.conv f x = .make cls kw) (hb : initArgs P cls (kw x) = some b)
      (hm : (y, cls, b) ∈ made) : Delivered P t ref made v (.obj y)

/-- The arguments `b'` of the replayed call are what is delivered for the arguments `b` of
the recorded call of `cls.f`. -/
def DeliveredArgs (P P2 : Prog) (cs : Dict (String × String) Nat) (t : Val → Val)
    (ref : List Nat) (made : List (Nat × String × Dict String Val)) (cls f : String)
    (b b' : Dict String Val) : Prop :=
  ∃ sg, P.sig cls f = some sg ∧ (∀ k, k ∈ dkeys b' ↔ k ∈ dkeys b) ∧
    ∀ k v, dget b k = some v → ∃ u v', recordedArg P cs sg k v = some u ∧
      dget b' k = some v' ∧ Delivered P2 t ref made u v'

/-- The calls received by the copy of an object. -/
def DeliveredLog (P P2 : Prog) (cs : Dict (String × String) Nat) (t : Val → Val)
    (ref : List Nat) (made : List (Nat × String × Dict String Val)) (cls : String)
    (l l' : List (String × Dict String Val)) : Prop :=
  List.Forall₂ (fun e e' => e'.1 = e.1 ∧ DeliveredArgs P P2 cs t ref made cls e.1 e.2 e'.2) l l'

/-- `o'` is the copy of `o`: same id, same class, same calls with the arguments delivered. -/
structure CopyOf (P P2 : Prog) (cs : Dict (String × String) Nat) (t : Val → Val)
    (ref : List Nat) (made : List (Nat × String × Dict String Val)) (o o' : Obj) : Prop where
  id : o'.id = o.id
  cls : o'.cls = o.cls
  log : DeliveredLog P P2 cs t ref made o.cls o.log o'.log

/-- `w2'` is `w2` plus a copy of every object of `w`, the object number `r` being copied as
number `ref[r]` and registered under the same id, plus the objects `made` by conversions. -/
structure Rebuilt (P P2 : Prog) (cs : Dict (String × String) Nat) (t : Val → Val) (w w2 w2' : World)
    (ref : List Nat) (made : List (Nat × String × Dict String Val)) : Prop where
  kept : w2'.heap.take w2.heap.length = w2.heap
  count : w2'.heap.length = w2.heap.length + w.heap.length + made.length
  new : ∀ y ∈ ref, w2.heap.length ≤ y
  order : ref.length = w.heap.length ∧ ref.Pairwise (· < ·)
  copy : ∀ (r : Nat) o, w.heap[r]? = some o → ∃ y o', ref[r]? = some y ∧
    dget w2'.objects o.id = some y ∧ w2'.heap[y]? = some o' ∧ CopyOf P P2 cs t ref made o o'
  distinct : (made.map (·.1)).Nodup
  built : ∀ m ∈ made, w2.heap.length ≤ m.1 ∧ m.1 ∉ ref ∧
    ∃ o', w2'.heap[m.1]? = some o' ∧ o'.cls = m.2.1 ∧ o'.log = [("__init__", m.2.2)]

/-! ### Which sessions can be replayed -/

/-- The value passes the type check for the declared types, if any. Types are checked only
while recording is on. -/
def Passes (P : Prog) (cs : Dict (String × String) Nat) (on : Bool) (anns : Option (List String))
    (v : Val) : Prop := on = true → ∀ l, anns = some l → recordedAs P cs l v ≠ none

/-- A conversion can build an object of class `cls` from the keywords `kw`. -/
def Builds (P : Prog) (cs : Dict (String × String) Nat) (on : Bool) (cls : String)
    (kw : Dict String Val) : Prop :=
  ∃ sg b, P.sig cls "__init__" = some sg ∧ (dkeys kw).Nodup ∧ bindArgs sg [] kw = .ok b ∧
    (∀ k v, dget b k = some v → v.isObj = false ∧ Passes P cs on (dget sg.annots k) v) ∧
    ∀ n m, P.raises (Obj.mk n cls [] m) "__init__" b = none

/-- The value that arrives can be given to a parameter with the declared types `anns`. -/
def Arrives (P : Prog) (cs : Dict (String × String) Nat) (on : Bool)
    (anns : Option (List String)) : Val → Prop
  | .obj _ => False
  | .oid _ => False
  | .conv f x =>
    match P.conv f x with
    | .pure g => ∃ v', g x = .ok v' ∧ v'.isObj = false ∧ Passes P cs on anns v'
    | .make cls kw => Builds P cs on cls (kw x)
    | .look _ => False
  | v => Passes P cs on anns v

/-- Every argument is recorded, and what arrives of it can be given to the replayed call.
`P`, `cs`, `sg` belong to the recording process, `P2`, `cs2`, `sg2` to the replaying one,
where recording is on if `on`. -/
def Sendable (P P2 : Prog) (cs cs2 : Dict (String × String) Nat) (on : Bool) (t : Val → Val)
    (sg sg2 : Sig) (b : Dict String Val) : Prop :=
  ∀ k v, dget b k = some v → ∃ u, recordedArg P cs sg k v = some u ∧
    (u.isObj = false → Arrives P2 cs2 on (dget sg2.annots k) (t u))

/-- The two signatures have the same parameter names, and the defaults of the second pass
their own type check. -/
def SigsAgree (P2 : Prog) (cs2 : Dict (String × String) Nat) (on : Bool) (sg sg2 : Sig) : Prop :=
  (∀ k, k ∈ sg2.params ↔ k ∈ sg.params) ∧
    ∀ k d, dget sg2.defaults k = some d → Passes P2 cs2 on (dget sg2.annots k) d

/-- What Python guarantees of signatures, and no default value is a GSP object. -/
def Prog.SigsWF (P : Prog) : Prop :=
  ∀ cls f sg, P.sig cls f = some sg → sg.WF ∧ ∀ p ∈ sg.defaults, p.2.isObj = false

/-- The body of the replayed call accepts whatever is delivered for the arguments `b` of the
recorded call of `f` on the object `o`. -/
def Tolerated (P P2 : Prog) (cs : Dict (String × String) Nat) (t : Val → Val) (o : Obj)
    (f : String) (b : Dict String Val) : Prop :=
  ∀ ref made o' b', o'.cls = o.cls → DeliveredLog P P2 cs t ref made o.cls o.log o'.log →
    DeliveredArgs P P2 cs t ref made o.cls f b b' → P2.raises o' f b' = none

/-- An action whose command can be replayed: its names survive and are those of the
replaying program, its arguments can be sent, and both bodies accept them. -/
def Replayable (P P2 : Prog) (cs cs2 : Dict (String × String) Nat) (on : Bool)
    (nm : String × String → String × String) (t : Val → Val) (w : World) : Act → Prop
  | .create cls args kwargs =>
    ∃ sg sg2 b, P.sig cls "__init__" = some sg ∧ P2.sig cls "__init__" = some sg2 ∧
      SigsAgree P2 cs2 on sg sg2 ∧ (dkeys kwargs).Nodup ∧ bindArgs sg args kwargs = .ok b ∧
      (∀ k x, dget b k = some (.obj x) → x < w.heap.length) ∧
      Sendable P P2 cs cs2 on t sg sg2 b ∧
      P.raises (Obj.mk (1 + (w.oidCounter : Int)) cls [] (1 + (w.oidCounter : Int)))
        "__init__" b = none ∧
      Tolerated P P2 cs t
        (Obj.mk (1 + (w.oidCounter : Int)) cls [] (1 + (w.oidCounter : Int))) "__init__" b ∧
      (nm (cls, (P.override cls "__init__").getD "__init__")).2 = "__init__" ∧
      P2.resolve (nm (cls, (P.override cls "__init__").getD "__init__")).1 = some cls
  | .call r f args kwargs =>
    ∃ o sg sg2 b, w.heap[r]? = some o ∧ P.sig o.cls f = some sg ∧ P2.sig o.cls f = some sg2 ∧
      SigsAgree P2 cs2 on sg sg2 ∧ (dkeys kwargs).Nodup ∧ bindArgs sg args kwargs = .ok b ∧
      (∀ k x, dget b k = some (.obj x) → x < w.heap.length) ∧
      Sendable P P2 cs cs2 on t sg sg2 b ∧ P.raises o f b = none ∧
      Tolerated P P2 cs t o f b ∧
      (nm (o.cls, (P.override o.cls f).getD f)).2 = f ∧ hasChar '.' f = false ∧ f ≠ "__init__"

/-- All actions of a session can be replayed. -/
def ReplayableSession (P P2 : Prog) (cs cs2 : Dict (String × String) Nat) (on : Bool)
    (nm : String × String → String × String) (t : Val → Val) : World → List Act → Prop
  | _, [] => True
  | w, a :: as => Replayable P P2 cs cs2 on nm t w a ∧
      ReplayableSession P P2 cs cs2 on nm t (step P w a.op).1 as

/-- The command `c'` is the command `c` after transport (command ids and times aside). -/
structure SentAs (nm : String × String → String × String) (t : Val → Val) (c c' : Cmd) :
    Prop where
  cls : c'.cls = (nm (c.cls, c.meth)).1
  meth : c'.meth = (nm (c.cls, c.meth)).2
  params : c'.params = c.params.map (fun p => (p.1, t p.2))

end Verif
