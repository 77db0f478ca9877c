import Verif.Model.Listing
import Verif.Model.JsonText
/-
Printing a command or a queue: `print(command)`, `command.dump()`, `print(queue)`
(gsp/io/command.py) and one command in the text format (gsp/io/text.py).
-/

namespace Verif

/-- The number that `%d` prints for a value; `none` is `TypeError`. Floats are opaque codes in the
model (Python truncates them; NaN and infinities, which raise other exceptions, are left out). -/
def shownNumber : Val → Option Int
  | .int n => some n
  | .oid n => some n
  | .bool b => some (if b then 1 else 0)
  | .float n => some n
  | _ => none

/-- The test of gsp/io/command.py:379-381 and 393-395. A method name `None` is the empty name. -/
def printsAsCreation (meth : String) : Bool := meth.toList = [] || hasChar '.' meth

/-- `Command.__str__` (gsp/io/command.py:373-386). -/
def cmdText (c : Cmd) : Except Err (List Char) :=
  match dget c.params "id" with
  | none => .error .keyError
  | some v =>
    match shownNumber v with
    | none => .error .typeError
    | some n =>
      if printsAsCreation c.meth then
        .ok ("Command #".toList ++ decimal c.cid ++ ": ".toList ++ c.cls.toList ++ "(id=".toList ++
          intText n ++ ")".toList)
      else
        .ok ("Command #".toList ++ decimal c.cid ++ ": ".toList ++ c.cls.toList ++ "(id=".toList ++
          intText n ++ ")/".toList ++ c.meth.toList ++ "(…)".toList)

/-- `%03d`. -/
def pad3 (n : Nat) : List Char :=
  List.replicate (3 - (decimal n).length) '0' ++ decimal n

/-- The line of a parameter in `Command.dump` (gsp/io/command.py:400-406): its name and the class
of its value; for a delayed conversion the class of the value to convert and the name of the
converter. -/
def dumpLine (w : World) (convName : Nat → List Char) (p : String × Val) : List Char :=
  "      | ".toList ++ p.1.toList ++ ": ".toList ++
    match p.2 with
    | .conv f x => (typeName w x).toList ++ " (→ ".toList ++ convName f ++ ")".toList
    | v => (typeName w v).toList

/-- `Command.dump` (gsp/io/command.py:389-406): the lines it prints. `convName` gives the names of
the converter functions. -/
def cmdDump (w : World) (convName : Nat → List Char) (c : Cmd) : Except Err (List (List Char)) :=
  match dget c.params "id" with
  | none => .error .keyError
  | some v =>
    match shownNumber v with
    | none => .error .typeError
    | some n =>
      let head :=
        if printsAsCreation c.meth then
          "#".toList ++ pad3 c.cid ++ ": Creation of ".toList ++ c.cls.toList ++ "(id=".toList ++
            intText n ++ ")".toList
        else
          "#".toList ++ pad3 c.cid ++ ": ".toList ++ c.cls.toList ++ "(id=".toList ++ intText n ++
            ") → ".toList ++ c.meth.toList ++ "(…)".toList
      .ok (head :: c.params.map (dumpLine w convName))

/-- The first line of `CommandQueue.__str__` (gsp/io/command.py:100-108). -/
def queueHead (name : String) (active readonly : Bool) (n : Nat) : List Char :=
  "CommandQueue(\"".toList ++ name.toList ++ "\", ".toList ++
    (if active then "active, ".toList else "not active, ".toList) ++
    (if readonly then "read-only) : ".toList else "read-write) : ".toList) ++
    decimal n ++ " command(s)\n".toList

/-- `CommandQueue.__str__` (gsp/io/command.py:98-111). -/
def queueText (w : World) (q : Nat) : Except Err (List Char) :=
  match w.queues[q]? with
  | none => .error .attributeError
  | some u =>
    match u.commands.mapM cmdText with
    | .error e => .error e
    | .ok ls => .ok (queueHead u.name (w.active == some q) u.readonly u.commands.length ++
        ls.flatMap (fun l => "  - ".toList ++ l ++ "\n".toList))

/-! ### One command in the text format (gsp/io/text.py) -/

/-- gsp/io/text.py:41-42: an object that a conversion builds is printed like any other value. -/
def textValue (P : Prog) (w : World) : Val → World × Except Err Shown
  | .conv f x =>
    match callConv P w f x with
    | (w', .error e) => (w', .error e)
    | (w', .ok v) => (w', .ok (.converted v))
  | v => (w, .ok (.value v))

/-- gsp/io/text.py:44-53. Declared types are printed with their modules when there are several;
the modules are left out here. -/
def textParam (annots : Option (Dict String (List String))) (k : String) (s : Shown) :
    Except Err Line :=
  if k = "id" then .ok ⟨"OBJECT_ID", s, "int"⟩
  else match annots with
    | none => .error .typeError
    | some a =>
      match dget a k with
      | none => .error .keyError
      | some t => .ok ⟨pyUpper k, s, " | ".intercalate t⟩

/-- The loop over the parameters (gsp/io/text.py:38-53). -/
def textParams (P : Prog) (annots : Option (Dict String (List String))) :
    World → Dict String Val → List Line → World × Except Err (List Line)
  | w, [], acc => (w, .ok acc)
  | w, (k, v) :: ps, acc =>
    match textValue P w v with
    | (w', .error e) => (w', .error e)
    | (w', .ok s) =>
      match textParam annots k s with
      | .error e => (w', .error e)
      | .ok l => textParams P annots w' ps (acc ++ [l])

/-- `dump_command` (gsp/io/text.py:13-58). -/
def textCommand (P : Prog) (annots : Option (Dict String (List String))) (w : World) (c : Cmd) :
    World × Except Err Entry :=
  match textParams P annots w c.params [] with
  | (w', .error e) => (w', .error e)
  | (w', .ok ls) => (w', .ok ⟨methodString c.cls c.meth, c.cid, ls⟩)

end Verif
