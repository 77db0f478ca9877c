import Verif.Model.Py
/-
Values that travel through instrumented calls, and GSP objects.
-/

namespace Verif

/-- Argument values of instrumented calls.
Simplifications: a float is an opaque numeric code (arithmetic plays no role in
recording), lists and tuples hold such codes only (colours, limits), and values of other
classes that are not GSP objects (arrays, dtypes, enums, backend handles) are
`inst cls payload` with an opaque payload. -/
inductive Val where
  | none
  | bool (b : Bool)
  | int (n : Int)
  | oid (n : Int)                       -- gsp/object.py:11-34, an `OID`
  | float (n : Int)
  | str (s : String)
  | bytes (b : List Nat)                -- `bytes` / `memoryview`
  | list (l : List Int)
  | tuple (l : List Int)
  | inst (cls : String) (payload : Nat)
  | obj (r : Nat)                       -- reference to a GSP `Object`
  | conv (f : Nat) (v : Val)            -- gsp/io/convert.py:9-27, a delayed `Converter`
deriving DecidableEq, Repr

/-- `isinstance(value, Object)`. -/
def Val.isObj : Val → Bool
  | .obj _ => true
  | _ => false

/-- A GSP object (gsp/object.py:38-93). The attributes set by constructor and method
bodies are represented by the log of the calls received, with their bound arguments:
any deterministic backend computes its attributes from that log.
`born` is a ghost field, the identifier minted by `OID()` in `Object.__init__`. -/
structure Obj where
  id : Int
  cls : String
  log : List (String × Dict String Val)
  born : Int
deriving DecidableEq, Repr

/-- A recorded command (gsp/io/command.py:328-370). The timestamp and the annotations
(only read by the console dump) are left out. -/
structure Cmd where
  cid : Nat
  cls : String
  meth : String
  params : Dict String Val
deriving DecidableEq, Repr

/-- A command queue (gsp/io/command.py:72-95). -/
structure Queue where
  name : String
  readonly : Bool
  commands : List Cmd
deriving DecidableEq, Repr

/-- The signature of an instrumented function: parameter names after `self`,
default values (gsp/io/command.py:181-188) and annotations, a union being the list of
its members (gsp/io/command.py:258-261). -/
structure Sig where
  params : List String
  defaults : Dict String Val
  annots : Dict String (List String)
deriving DecidableEq, Repr

end Verif
