import Verif.Model.Session
import Verif.Model.Base64
/-
Saving and loading command queues (gsp/io/json.py, gsp/__init__.py:57-92).
The text of a JSON file is represented by the tree that `json.load` reads from it;
Python's `json` module is trusted to read back the tree it wrote.
-/

namespace Verif

/-- JSON values as they occur in parameters. Arrays hold numbers only (see `Val`). -/
inductive JVal where
  | null
  | bool (b : Bool)
  | int (n : Int)
  | float (n : Int)
  | str (s : String)
  | arr (l : List Int)
deriving DecidableEq, Repr

/-- One element of `"commands"` (gsp/io/json.py:51-54). A hand-written file may lack
entries. The timestamp is left out. -/
structure JCmd where
  method : Option String
  id : Nat
  params : Option (Dict String JVal)
deriving DecidableEq, Repr

/-- What a file name leads to: nothing readable, text that is no JSON, a JSON document
without `"commands"`, or one with. -/
inductive File where
  | absent
  | invalid
  | noCommands
  | doc (cmds : List JCmd)
deriving DecidableEq, Repr

/-- How instances of other classes are encoded by `default` (gsp/io/json.py:19-24): dtypes
by `str`, arrays by base64, colours as tuples; `none` stands for the `TypeError` of line 27. -/
abbrev Codec := String → Nat → Option JVal

/-! ### dump -/

/-- The payload of a command before JSON encoding: method, command id, parameters. -/
structure Payload where
  method : String
  id : Nat
  params : Dict String Val
deriving DecidableEq, Repr

/-- gsp/io/json.py:36-37. -/
def callIfCallable (P : Prog) (w : World) : Val → World × Except Err Val
  | .conv f x => callConv P w f x
  | v => (w, .ok v)

/-- gsp/io/json.py:34-41. Delayed conversions are called (`Converter` is the only callable
among the modelled values). An object gets the suffix `(id)` and is replaced by its id. -/
def dumpParams (P : Prog) : World → Dict String Val → Dict String Val →
    World × Except Err (Dict String Val)
  | w, [], acc => (w, .ok acc)
  | w, (k, v) :: ps, acc =>
    match callIfCallable P w v with
    | (w', .error e) => (w', .error e)
    | (w', .ok v') =>
      match v' with
      | .obj r => match w'.heap[r]? with
        | some o => dumpParams P w' ps (dset acc (k ++ "(id)") (.oid o.id))
        | none => (w', .error .attributeError)
      | v' => dumpParams P w' ps (dset acc k v')

/-- gsp/io/json.py:44-49. -/
def methodString (cls meth : String) : String :=
  if meth.toList = [] then cls
  else if hasChar '.' meth then meth
  else cls ++ "/" ++ meth

/-- `dump_command` (gsp/io/json.py:30-58). -/
def dumpCommand (P : Prog) (w : World) (c : Cmd) : World × Except Err Payload :=
  match dumpParams P w c.params [] with
  | (w', .error e) => (w', .error e)
  | (w', .ok ps) => (w', .ok ⟨methodString c.cls c.meth, c.cid, ps⟩)

/-- `queue or CommandQueue("active")` (gsp/io/json.py:63,79,90): a queue without commands
is false. -/
def pickQueue (w : World) (q : Option Nat) : World × Nat :=
  match q with
  | some q =>
    match w.queues[q]? with
    | some u => if u.commands.length = 0 then getQueue w none else (w, q)
    | none => getQueue w none
  | none => getQueue w none

/-- The loop of `dump` (gsp/io/json.py:64-66), from index `i` on. The list is read while
conversions may append to it, so the number of rounds is bounded by `fuel`; `none` means
that the loop has not ended. -/
def dumpLoop (P : Prog) : Nat → World → Nat → Nat → List Payload →
    Option (World × Except Err (List Payload))
  | 0, _, _, _, _ => none
  | fuel + 1, w, q, i, acc =>
    match (match w.queues[q]? with | some u => u.commands[i]? | none => none) with
    | none => some (w, .ok acc)
    | some c =>
      match dumpCommand P w c with
      | (w', .error e) => some (w', .error e)
      | (w', .ok p) => dumpLoop P fuel w' q (i + 1) (acc ++ [p])

/-- `json.dumps` with `default` (gsp/io/json.py:12-27) on one value. -/
def encodeVal (ij : Codec) (w : World) : Val → Except Err JVal
  | .none => .ok .null
  | .bool b => .ok (.bool b)
  | .int n => .ok (.int n)
  | .oid n => .ok (.int n)
  | .float n => .ok (.float n)
  | .str s => .ok (.str s)
  | .bytes b => .ok (.str (String.ofList (b64encode b)))
  | .list l => .ok (.arr l)
  | .tuple l => .ok (.arr l)
  | .inst c p => match ij c p with | some j => .ok j | none => .error .typeError
  | .obj r => match w.heap[r]? with
    | some o => .ok (.int o.id)
    | none => .error .attributeError
  | .conv _ _ => .error .typeError

/-- One parameter dictionary. -/
def encodeParams (ij : Codec) (w : World) : Dict String Val → Except Err (Dict String JVal)
  | [] => .ok []
  | (k, v) :: ps =>
    match encodeVal ij w v with
    | .error e => .error e
    | .ok j => match encodeParams ij w ps with
      | .error e => .error e
      | .ok js => .ok ((k, j) :: js)

/-- All commands. -/
def encodeAll (ij : Codec) (w : World) : List Payload → Except Err (List JCmd)
  | [] => .ok []
  | p :: ps =>
    match encodeParams ij w p.params with
    | .error e => .error e
    | .ok js => match encodeAll ij w ps with
      | .error e => .error e
      | .ok l => .ok (⟨some p.method, p.id, some js⟩ :: l)

/-- `dump` without a file name (gsp/io/json.py:60-70). -/
def dumpQueue (P : Prog) (ij : Codec) (fuel : Nat) (w : World) (q : Option Nat) :
    Option (World × Except Err (List JCmd)) :=
  match dumpLoop P fuel (pickQueue w q).1 (pickQueue w q).2 0 [] with
  | none => none
  | some (w', .error e) => some (w', .error e)
  | some (w', .ok ps) => some (w', encodeAll ij w' ps)

/-- `save`, i.e. `dump` with a file name (gsp/io/json.py:60-80). Conversions run before the
file is opened; opening truncates it, so an encoding error leaves a truncated document.
(`save` evaluates `queue or ..` a second time inside `dump`, with the same result.) -/
def saveQueue (P : Prog) (ij : Codec) (fuel : Nat) (w : World) (q : Option Nat) (old : File) :
    Option (World × File × Except Err Unit) :=
  match dumpLoop P fuel (pickQueue w q).1 (pickQueue w q).2 0 [] with
  | none => none
  | some (w', .error e) => some (w', old, .error e)
  | some (w', .ok ps) =>
    match encodeAll ij w' ps with
    | .error e => some (w', .invalid, .error e)
    | .ok l => some (w', .doc l, .ok ())

/-! ### load -/

/-- What `json.load` makes of a JSON value. -/
def decodeVal : JVal → Val
  | .null => .none
  | .bool b => .bool b
  | .int n => .int n
  | .float n => .float n
  | .str s => .str s
  | .arr l => .list l

/-- gsp/io/json.py:95-98. -/
def splitMethod (method : String) : String × String :=
  match pySplit '/' method with
  | [c, m] => (c, m)
  | _ => (method, "__init__")

/-- The loop of `load` (gsp/io/json.py:93-101). `Command(...)` mints an id before it checks
that the parameters hold one (gsp/io/command.py:358-361). -/
def loadLoop (w : World) (q : Nat) : List JCmd → World × Except Err Unit
  | [] => (w, .ok ())
  | c :: cs =>
    match c.method with
    | none => (w, .error .keyError)
    | some m =>
      match c.params with
      | none => (w, .error .keyError)
      | some ps =>
        if dhas ps "id" then
          loadLoop (pushCmd w q (splitMethod m).1 (splitMethod m).2
            (ps.map (fun p => (p.1, decodeVal p.2)))) q cs
        else ({ w with cidCounter := w.cidCounter + 1 }, .error .valueError)

/-- `load` (gsp/io/json.py:83-103). `FileNotFoundError` is `other 0`, a JSON syntax error a
`ValueError`. -/
def loadQueue (w : World) (f : File) (q : Option Nat) : World × Except Err Unit :=
  match f with
  | .absent => (w, .error (.other 0))
  | .invalid => (w, .error .valueError)
  | .noCommands => (w, .error .keyError)
  | .doc cmds =>
    loadLoop (emptyQueue (pickQueue w q).1 (pickQueue w q).2) (pickQueue w q).2 cmds

/-! ### gsp.save and gsp.load -/

/-- `pathlib.Path(filename).suffix[1:]` for a file name without directories: what follows
the last dot; no suffix when the only dot begins the name, or when a dot ends it. -/
def suffixOf (name : String) : String :=
  match (splitChars '.' name.toList).reverse with
  | last :: prev :: rest =>
    if last = [] then ""
    else if prev = [] ∧ rest = [] then ""
    else String.ofList last
  | _ => ""

/-- `format or suffix` (gsp/__init__.py:67,86): an empty format is false. -/
def formatOf (format : Option String) (name : String) : String :=
  match format with
  | some f => if f = "" then suffixOf name else f
  | none => suffixOf name

/-- `gsp.save` (gsp/__init__.py:57-71). -/
def gspSave (P : Prog) (ij : Codec) (fuel : Nat) (w : World) (name : String)
    (format : Option String) (old : File) : Option (World × File × Except Err Unit) :=
  if formatOf format name = "json" then saveQueue P ij fuel w none old
  else some (w, old, .error .valueError)

/-- `gsp.load` (gsp/__init__.py:73-92). -/
def gspLoad (w : World) (name : String) (format : Option String) (f : File) :
    World × Except Err Unit :=
  let w := { w with objects := [] }
  let (w, q) := getQueue w none
  let w := emptyQueue w q
  if formatOf format name = "json" then loadQueue w f none
  else (w, .error .valueError)

end Verif
