import Verif.Model.Session
/-
The table of converters (gsp/io/convert.py:6, 30-142). Converter functions are numbered.
-/

namespace Verif

abbrev ConvTable := Dict (String × String) Nat

/-- The body of the loop of `register` (lines 54-60); a single source type (lines 61-67)
is the list of one element. Pairs registered before the raise stay. -/
def registerLoop : ConvTable → List String → String → Nat → ConvTable × Except Err Unit
  | cs, [], _, _ => (cs, .ok ())
  | cs, s :: ss, dst, f =>
    if dhas cs (s, dst) then (cs, .error .typeError)
    else registerLoop (dset cs (s, dst) f) ss dst f

/-- `unregister` (lines 30-43). -/
def unregisterLoop (cs : ConvTable) (srcs : List String) (dst : String) : ConvTable :=
  srcs.foldl (fun cs s => if dhas cs (s, dst) then ddel cs (s, dst) else cs) cs

/-- What is looked up: a type, a string, or another value with the names of its class and
of the bases of its class. -/
inductive Src where
  | type (name : String)
  | text (s : String)
  | value (cls : String) (bases : List String)
deriving DecidableEq, Repr

/-- `value.__class__.__bases__` (line 122): the class of a type is `type`. -/
def Src.bases : Src → List String
  | .type _ => ["object"]
  | .text _ => ["object"]
  | .value _ bs => bs

/-- Lines 101-108. A string that names a registered source type stands for that type. -/
def Src.typeName (cs : ConvTable) (dst : String) : Src → String
  | .type n => n
  | .text s => if (isRegistered cs s dst).isSome then s else "str"
  | .value c _ => c

/-- `get_converter` (lines 83-128), for a destination given as a string. With a type as destination a
string is looked up as `.value "str" ["object"]` (the test of line 105 fails, since no pair has a type in
second place); everything else is the same. -/
def getConverter (cs : ConvTable) (v : Src) (dst : String) : Option Nat :=
  match isRegistered cs (v.typeName cs dst) dst with
  | some f => some f
  | none => v.bases.findSome? (fun b => isRegistered cs b dst)

/-- `convert` (lines 131-142): any failure, of the search or of the converter, becomes a
`ValueError`. -/
def convertValue (run : Nat → Except Err Val) (cs : ConvTable) (v : Src) (dst : String) :
    Except Err Val :=
  match getConverter cs v dst with
  | none => .error .valueError
  | some f => match run f with
    | .ok r => .ok r
    | .error _ => .error .valueError

/-- A history of uses of the table. -/
inductive ConvOp where
  | register (srcs : List String) (dst : String) (f : Nat)
  | unregister (srcs : List String) (dst : String)
deriving DecidableEq, Repr

def convStep (cs : ConvTable) : ConvOp → ConvTable × Except Err Unit
  | .register srcs dst f => registerLoop cs srcs dst f
  | .unregister srcs dst => (unregisterLoop cs srcs dst, .ok ())

def convRun (ops : List ConvOp) : ConvTable := ops.foldl (fun cs op => (convStep cs op).1) []

end Verif
