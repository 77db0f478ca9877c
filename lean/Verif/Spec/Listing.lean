import Verif.Spec.Define
import Verif.Model.Listing
import Mathlib.Data.List.Forall2
/-
What the printed form of a session should be, and examples of the documentation.
-/

namespace Verif

/-- What should be printed for a recorded value: the value, or what its conversion gives (the
id, when that is an object). `none` when the conversion fails or builds an object. -/
def shownAs (P : Prog) (w : World) (v : Val) : Option Shown :=
  match v, (evaluated P v).or ((found P w v).map .obj) with
  | .conv _ _, some (.obj r) => w.heap[r]?.map (fun o => .objectId o.id)
  | .conv _ _, some x => some (.converted x)
  | .conv _ _, none => none
  | v, _ => some (.value v)

/-- The line of a parameter: its name in capitals, with `_ID` for the reference of an object,
its value and its declared types. The id of the object itself has the type `int`. -/
def LineOf (P : Prog) (w : World) (annots : Dict String (List String)) (p : String × Val)
    (l : Line) : Prop :=
  shownAs P w p.2 = some l.shown ∧
    (p.1 = "id" ∧ l.label = "OBJECT_ID" ∧ l.type = "int" ∨
     p.1 ≠ "id" ∧ ∃ name t, dget annots name = some t ∧ l.type = " | ".intercalate t ∧
      (p.1 = name ∧ l.label = pyUpper name ∨
       p.1 = name ++ "(id)" ∧ l.label = pyUpper (name ++ "_ID")))

/-- The block of a command: the name of its class or method, its number, and a line for each
parameter, in order, with the types declared by the function it records. -/
def EntryOf (P : Prog) (w : World) (c : Cmd) (e : Entry) : Prop :=
  e.id = c.cid ∧
  e.method = (if '.' ∈ c.meth.toList then c.meth else c.cls ++ "/" ++ c.meth) ∧
  ∃ func sg, P.sig c.cls func = some sg ∧ c.meth = (P.override c.cls func).getD func ∧
    List.Forall₂ (LineOf P w sg.annots) c.params e.lines

/-- Programs as they are written: signatures as Python has them, every parameter annotated;
the decorator is given a dotted name for a constructor, or the name of the function. -/
structure Annotated (P : Prog) : Prop where
  wf : ∀ cls f sg, P.sig cls f = some sg → sg.WF
  all : ∀ cls f sg, P.sig cls f = some sg → ∀ k ∈ sg.params, (dget sg.annots k).isSome = true
  plain : ∀ cls f sg, P.sig cls f = some sg → '.' ∉ f.toList ∧ f.toList ≠ []
  name : ∀ cls f n, P.override cls f = some n → n = f ∨ f = "__init__" ∧ '.' ∈ n.toList

/-! ### Examples of the documentation -/

/-- An action of an example that refers to its own objects by their order of creation,
when there were already `base` objects. -/
def Act.shift (base : Nat) : Act → Act
  | .create cls args kwargs => .create cls (args.map (shiftVal base)) (shiftArgs base kwargs)
  | .call r f args kwargs => .call (base + r) f (args.map (shiftVal base)) (shiftArgs base kwargs)

/-- The outcomes of the actions, in order. -/
def outcomes (P : Prog) : World → List Act → List (Except Err Unit)
  | _, [] => []
  | w, a :: as => (step P w a.op).2 :: outcomes P (step P w a.op).1 as

/-- The process in which an example runs alone: only the imports (their converters) and the
two recording switches are as in `w`. -/
def World.alone (w : World) : World :=
  { World.start w.converters with recording := w.recording, objRecord := w.objRecord }

/-- Conversions that yield values, or objects built from values alone. -/
def PlainConvs (P : Prog) : Prop :=
  ∀ f v, (∀ g, P.conv f v = .pure g → ∀ y, g v = .ok y → y.isObj = false) ∧
    (∀ cls kw, P.conv f v = .make cls kw → ∀ p ∈ kw v, p.2.isObj = false)

/-- The line `l` of a block without its indentation of `n` characters. -/
def Dedented (n : Nat) (l l' : List Char) : Prop :=
  l = ['\n'] ∧ l' = l ∨ ∃ pre, l = pre ++ l' ∧ pre.length = n ∧ ∀ c ∈ pre, c.isWhitespace = true

/-- The line ends with a newline. -/
def IsLine (l : List Char) : Prop := ∃ t, l = t ++ ['\n'] ∧ '\n' ∉ t

/-- A line that can stand in a block indented by `n`: blank, or indented by at least that much. -/
def InBlock (n : Nat) (l : List Char) : Prop :=
  IsLine l ∧ (l = ['\n'] ∨ ∃ pre t, l = pre ++ t ∧ pre.length = n ∧
    (∀ c ∈ pre, c.isWhitespace = true ∧ c ≠ '\n'))

/-- A line that ends a block indented by `n`: text with less indentation. -/
def AfterBlock (n : Nat) (l : List Char) : Prop :=
  ∃ pre c t, l = pre ++ c :: t ∧ pre.length < n ∧ c.isWhitespace = false ∧
    ∀ d ∈ pre, d.isWhitespace = true

end Verif
