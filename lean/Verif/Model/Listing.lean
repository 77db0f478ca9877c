import Verif.Model.Json
/-
Printing a session: gsp/io/ansi.py, gsp/io/text.py, and the examples of the documentation
(gsp/io/mkdocs.py).
-/

namespace Verif

/-- What is printed for a parameter: the value, the result of its conversion (followed by
"(converted)"), or the id of the object that the conversion built. -/
inductive Shown where
  | value (v : Val)
  | converted (v : Val)
  | objectId (n : Int)
deriving DecidableEq, Repr

/-- One line of the listing: label, value and declared type. -/
structure Line where
  label : String
  shown : Shown
  type : String
deriving DecidableEq, Repr

/-- The block printed for a command. Escape sequences, the layout and the date are left out. -/
structure Entry where
  method : String
  id : Nat
  lines : List Line
deriving DecidableEq, Repr

/-- `s.upper()`, for ASCII letters. -/
def pyUpper (s : String) : String := String.ofList (s.toList.map Char.toUpper)

/-- gsp/io/ansi.py:45-50. -/
def showValue (P : Prog) (w : World) : Val → World × Except Err Shown
  | .conv f x =>
    match callConv P w f x with
    | (w', .error e) => (w', .error e)
    | (w', .ok (.obj r)) =>
      match w'.heap[r]? with
      | some o => (w', .ok (.objectId o.id))
      | none => (w', .error .attributeError)
    | (w', .ok v) => (w', .ok (.converted v))
  | v => (w, .ok (.value v))

/-- gsp/io/ansi.py:52-69. `annots` are the annotations that the command keeps;
`None[key]` raises `TypeError`, an unknown key `KeyError`. -/
def listParam (annots : Option (Dict String (List String))) (k : String) (s : Shown) :
    Except Err Line :=
  if k = "id" then .ok ⟨"OBJECT_ID", s, "int"⟩
  else match annots with
    | none => .error .typeError
    | some a =>
      if endsWithId k then
        match dget a (dropId k) with
        | none => .error .keyError
        | some t => .ok ⟨pyUpper (dropId k ++ "_ID"), s, " | ".intercalate t⟩
      else
        match dget a k with
        | none => .error .keyError
        | some t => .ok ⟨pyUpper k, s, " | ".intercalate t⟩

/-- The loop over the parameters (gsp/io/ansi.py:42-69). -/
def listParams (P : Prog) (annots : Option (Dict String (List String))) :
    World → Dict String Val → List Line → World × Except Err (List Line)
  | w, [], acc => (w, .ok acc)
  | w, (k, v) :: ps, acc =>
    match showValue P w v with
    | (w', .error e) => (w', .error e)
    | (w', .ok s) =>
      match listParam annots k s with
      | .error e => (w', .error e)
      | .ok l => listParams P annots w' ps (acc ++ [l])

/-- `dump_command` (gsp/io/ansi.py:15-74). -/
def listCommand (P : Prog) (annots : Option (Dict String (List String))) (w : World) (c : Cmd) :
    World × Except Err Entry :=
  match listParams P annots w c.params [] with
  | (w', .error e) => (w', .error e)
  | (w', .ok ls) => (w', .ok ⟨methodString c.cls c.meth, c.cid, ls⟩)

/-- The loop of `dump` (gsp/io/ansi.py:81-83), from index `i` on; the list can grow while it
is read, see `dumpLoop`. -/
def listLoop (P : Prog) (ann : Cmd → Option (Dict String (List String))) :
    Nat → World → Nat → Nat → List Entry → Option (World × Except Err (List Entry))
  | 0, _, _, _, _ => none
  | fuel + 1, w, q, i, acc =>
    match (match w.queues[q]? with | some u => u.commands[i]? | none => none) with
    | none => some (w, .ok acc)
    | some c =>
      match listCommand P (ann c) w c with
      | (w', .error e) => some (w', .error e)
      | (w', .ok p) => listLoop P ann fuel w' q (i + 1) (acc ++ [p])

/-- `dump` (gsp/io/ansi.py:76-86) without a file name. `ann` gives the annotations kept by
each command. -/
def ansiDump (P : Prog) (ann : Cmd → Option (Dict String (List String))) (fuel : Nat) (w : World)
    (q : Option Nat) : Option (World × Except Err (List Entry)) :=
  listLoop P ann fuel (pickQueue w q).1 (pickQueue w q).2 0 []

/-- `save` (gsp/io/ansi.py:91-94): the file is opened when the whole text is there. `none` is
an absent file. -/
def ansiSave (P : Prog) (ann : Cmd → Option (Dict String (List String))) (fuel : Nat) (w : World)
    (q : Option Nat) (old : Option (List Entry)) :
    Option (World × Option (List Entry) × Except Err Unit) :=
  match ansiDump P ann fuel w q with
  | none => none
  | some (w', .error e) => some (w', old, .error e)
  | some (w', .ok l) => some (w', some l, .ok ())

/-- The function that a command calls: constructors are recorded under a dotted name
(gsp/io/command.py:298). -/
def funcOf (meth : String) : String := if hasChar '.' meth then "__init__" else meth

/-- The annotations of a recorded command (gsp/io/command.py:217, 299, 370). The model does
not store them in the command: they are those of the function recorded, found by its name. -/
def recordedAnnots (P : Prog) (c : Cmd) : Option (Dict String (List String)) :=
  (P.sig c.cls (funcOf c.meth)).map Sig.annots

/-- The annotations of a loaded command (gsp/io/json.py:100, gsp/io/command.py:331). -/
def loadedAnnots (_ : Cmd) : Option (Dict String (List String)) := none

/-! ### The text format -/

/-- The attributes of the class `CommandQueue` and of its instances
(gsp/io/command.py:72-178). -/
def queueAttributes : List String :=
  ["name", "readonly", "commands", "active", "_instances", "__init__", "__str__", "empty",
   "__len__", "__getitem__", "run", "push"]

/-- `dump` (gsp/io/text.py:62-76) up to its loop: the names of the attributes it reads. The
loop and the file come after them. -/
def textDump (w : World) (q : Option Nat) : Except Err Unit :=
  match q.bind (fun q => w.queues[q]?) with
  | some u =>
    if u.commands.length = 0 then
      if queueAttributes.contains "get_default" then .ok () else .error .attributeError
    else if queueAttributes.contains "_commands" then .ok () else .error .attributeError
  | none => if queueAttributes.contains "get_default" then .ok () else .error .attributeError

/-! ### Examples of the documentation -/

/-- `mkdocs.__enter__` (gsp/io/mkdocs.py:18-24). -/
def mkdocsEnter (w : World) : World :=
  { emptyQueue (getQueue w none).1 (getQueue w none).2 with
    objects := [], cidCounter := 0, oidCounter := 0 }

/-- What `mkdocs.__exit__` prints beside the source (gsp/io/mkdocs.py:26-78): the text, then the
JSON form, of the active queue. -/
def mkdocsDump (P : Prog) (ij : Codec) (fuel : Nat) (w : World) (ansi json : Bool) :
    Option (World × Except Err (Option (List Entry) × Option (List JCmd))) :=
  if ansi then
    match ansiDump P (recordedAnnots P) fuel w none with
    | none => none
    | some (w', .error e) => some (w', .error e)
    | some (w', .ok l) =>
      if json then
        match dumpQueue P ij fuel w' none with
        | none => none
        | some (w'', .error e) => some (w'', .error e)
        | some (w'', .ok j) => some (w'', .ok (some l, some j))
      else some (w', .ok (some l, none))
  else if json then
    match dumpQueue P ij fuel w none with
    | none => none
    | some (w'', .error e) => some (w'', .error e)
    | some (w'', .ok j) => some (w'', .ok (none, some j))
  else some (w, .ok (none, none))

/-- `len(line) - len(line.lstrip())`, for ASCII white space. -/
def indentOf (l : List Char) : Nat := l.length - (l.dropWhile Char.isWhitespace).length

/-- `len(line.strip()) == 0`. -/
def isBlank (l : List Char) : Bool := l.all Char.isWhitespace

/-- The loop of `__exit__` that reads the block (gsp/io/mkdocs.py:34-46), on the lines after
that of the `with`, which keep their newlines; `linecache.getline` gives the empty string after
the last. `none` means that the loop has not ended after `fuel` rounds. -/
def sourceLoop : Nat → Nat → List (List Char) → List (List Char) → Option (List (List Char))
  | 0, _, _, _ => none
  | fuel + 1, indent, lines, acc =>
    let l := lines.headD []
    let n := indentOf l
    if indent = 0 then
      sourceLoop fuel n lines.tail (acc ++ [if l = ['\n'] then l else l.drop n])
    else if n < indent ∧ isBlank l = false ∨ l = [] then some acc
    else sourceLoop fuel indent lines.tail (acc ++ [if l = ['\n'] then l else l.drop indent])

end Verif
