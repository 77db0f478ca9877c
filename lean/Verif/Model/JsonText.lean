import Verif.Model.Json
import Verif.Model.Dtype
/-
The text of JSON files: what Python's `json.dump`, `json.dumps` and `json.load` do when called by
gsp/io/json.py:60-75 and 86-87. The functions below model CPython's `json` package (json/encoder.py,
json/decoder.py, json/scanner.py and their C versions), not a file of /repo.
-/

namespace Verif

/-- Python values as `json` sees them. A float is its `repr`, which Python reads back as the same
float. `unknown` is a value `default` raises on (gsp/io/json.py:27). -/
inductive JTree where
  | null
  | bool (b : Bool)
  | int (n : Int)
  | float (s : String)
  | str (s : String)
  | arr (l : List JTree)
  | obj (d : List (String × JTree))
  | unknown

/-! ### Writing -/

/-- A hexadecimal digit, in small letters. -/
def hexChar (n : Nat) : Char := if n < 10 then Char.ofNat (48 + n) else Char.ofNat (87 + n)

/-- `'\\u{0:04x}'.format(n)`. -/
def uText (n : Nat) : List Char :=
  ['\\', 'u', hexChar (n / 4096 % 16), hexChar (n / 256 % 16), hexChar (n / 16 % 16),
    hexChar (n % 16)]

/-- The letter of a short escape (json/encoder.py, `ESCAPE_DCT`). -/
def shortEscape (c : Char) : Option Char :=
  if c = '\\' then some '\\' else if c = '"' then some '"' else if c = '\n' then some 'n'
  else if c = '\r' then some 'r' else if c = '\t' then some 't'
  else if c = Char.ofNat 12 then some 'f' else if c = Char.ofNat 8 then some 'b' else none

/-- One character of a string (`ensure_ascii` is on): characters from space to `~` are written as
they are, others as escapes, with a surrogate pair beyond 0xffff. -/
def charText (c : Char) : List Char :=
  match shortEscape c with
  | some e => ['\\', e]
  | none =>
    if 32 ≤ c.toNat ∧ c.toNat ≤ 126 then [c]
    else if c.toNat < 65536 then uText c.toNat
    else uText (55296 + (c.toNat - 65536) / 1024) ++ uText (56320 + (c.toNat - 65536) % 1024)

/-- A string. -/
def strText (s : String) : List Char := '"' :: (s.toList.flatMap charText ++ ['"'])

/-- `int.__repr__`. -/
def intText : Int → List Char
  | .ofNat n => decimal n
  | .negSucc n => '-' :: decimal (n + 1)

/-- The line break of the indented form, at depth `d`. -/
def breakText (ind : Option Nat) (d : Nat) : List Char :=
  match ind with
  | none => []
  | some k => '\n' :: List.replicate (k * d) ' '

/-- The separator of items. -/
def sepText (ind : Option Nat) (d : Nat) : List Char :=
  match ind with
  | none => [',', ' ']
  | some _ => ',' :: breakText ind d

mutual
/-- The text of a value: `json.dump` (`ind = none`) or `json.dumps(.., indent=k)`, inside `d`
brackets. (`unknown` has no text: see `writeTree`. Here it is written as `null`.) -/
def treeText (ind : Option Nat) (d : Nat) : JTree → List Char
  | .null => ['n', 'u', 'l', 'l']
  | .bool true => ['t', 'r', 'u', 'e']
  | .bool false => ['f', 'a', 'l', 's', 'e']
  | .int n => intText n
  | .float s => s.toList
  | .str s => strText s
  | .arr [] => ['[', ']']
  | .arr (v :: l) => '[' :: (breakText ind (d + 1) ++ (treeText ind (d + 1) v ++
      (itemsText ind (d + 1) l ++ (breakText ind d ++ [']']))))
  | .obj [] => ['{', '}']
  | .obj ((k, v) :: l) => '{' :: (breakText ind (d + 1) ++ (strText k ++ (':' :: ' ' ::
      (treeText ind (d + 1) v ++ (membersText ind (d + 1) l ++ (breakText ind d ++ ['}']))))))
  | .unknown => ['n', 'u', 'l', 'l']
/-- The items after the first. -/
def itemsText (ind : Option Nat) (d : Nat) : List JTree → List Char
  | [] => []
  | v :: l => sepText ind d ++ (treeText ind d v ++ itemsText ind d l)
/-- The members after the first. -/
def membersText (ind : Option Nat) (d : Nat) : List (String × JTree) → List Char
  | [] => []
  | (k, v) :: l => sepText ind d ++ (strText k ++ (':' :: ' ' ::
      (treeText ind d v ++ membersText ind d l)))
end

/-- Writing one piece after another; nothing is written after an exception. -/
def andThen (a b : List Char × Bool) : List Char × Bool :=
  if a.2 then (a.1 ++ b.1, b.2) else a

mutual
/-- What `json.dump` has written to the file when it returns (`true`) or raises (`false`): it writes
piece by piece, and what comes before a value is written before `default` is called. -/
def writeTree : JTree → List Char × Bool
  | .unknown => ([], false)
  | .arr (v :: l) => andThen (['['], true) (andThen (writeTree v) (andThen (writeItems l)
      ([']'], true)))
  | .obj ((k, v) :: l) => andThen ('{' :: (strText k ++ [':', ' ']), true) (andThen (writeTree v)
      (andThen (writeMembers l) (['}'], true)))
  | t => (treeText none 0 t, true)
/-- The items after the first. -/
def writeItems : List JTree → List Char × Bool
  | [] => ([], true)
  | v :: l => andThen ([',', ' '], true) (andThen (writeTree v) (writeItems l))
/-- The members after the first. -/
def writeMembers : List (String × JTree) → List Char × Bool
  | [] => ([], true)
  | (k, v) :: l => andThen (',' :: ' ' :: (strText k ++ [':', ' ']), true)
      (andThen (writeTree v) (writeMembers l))
end

/-! ### Reading -/

/-- The white space of JSON. -/
def isWs (c : Char) : Bool := c = ' ' || c = '\t' || c = '\n' || c = '\r'

/-- Skips white space. -/
def skipWs (s : List Char) : List Char := s.dropWhile isWs

/-- The value of a hexadecimal digit. -/
def hexVal (c : Char) : Option Nat :=
  if 48 ≤ c.toNat ∧ c.toNat ≤ 57 then some (c.toNat - 48)
  else if 97 ≤ c.toNat ∧ c.toNat ≤ 102 then some (c.toNat - 87)
  else if 65 ≤ c.toNat ∧ c.toNat ≤ 70 then some (c.toNat - 55)
  else none

/-- Four hexadecimal digits. -/
def hex4 : List Char → Option (Nat × List Char)
  | a :: b :: c :: d :: r =>
    match hexVal a, hexVal b, hexVal c, hexVal d with
    | some a, some b, some c, some d => some (4096 * a + 256 * b + 16 * c + d, r)
    | _, _, _, _ => none
  | _ => none

/-- A code unit as a character. Lean has no character for a surrogate on its own: U+FFFD stands
for it. -/
def unitChar (n : Nat) : Char :=
  if 55296 ≤ n ∧ n < 57344 then Char.ofNat 65533 else Char.ofNat n

/-- Whether `s` begins with `k`, and what follows. -/
def afterPrefix : List Char → List Char → Option (List Char)
  | [], s => some s
  | _ :: _, [] => none
  | a :: k, c :: s => if a = c then afterPrefix k s else none

/-- After `\u`: a surrogate pair is one character. -/
def scanU (s : List Char) : Option (Char × List Char) :=
  match hex4 s with
  | none => none
  | some (u, r) =>
    if 55296 ≤ u ∧ u < 56320 then
      match afterPrefix ['\\', 'u'] r with
      | none => some (unitChar u, r)
      | some r2 =>
        match hex4 r2 with
        | none => none
        | some (u2, r3) =>
          if 56320 ≤ u2 ∧ u2 < 57344 then
            some (Char.ofNat (65536 + (u - 55296) * 1024 + (u2 - 56320)), r3)
          else some (unitChar u, r)
    else some (unitChar u, r)

/-- The character of a short escape (json/decoder.py, `BACKSLASH`). -/
def shortChar (e : Char) : Option Char :=
  if e = '"' then some '"' else if e = '\\' then some '\\' else if e = '/' then some '/'
  else if e = 'b' then some (Char.ofNat 8) else if e = 'f' then some (Char.ofNat 12)
  else if e = 'n' then some '\n' else if e = 'r' then some '\r' else if e = 't' then some '\t'
  else none

/-- After a backslash. -/
def scanEscape : List Char → Option (Char × List Char)
  | [] => none
  | e :: r =>
    if e = 'u' then scanU r
    else match shortChar e with
      | some c => some (c, r)
      | none => none

/-- One character of a string; control characters are refused (`strict`). -/
def scanChar (c : Char) (r : List Char) : Option (Char × List Char) :=
  if c = '\\' then scanEscape r else if c.toNat < 32 then none else some (c, r)

/-- The rest of a string, up to its closing quote. At most `fuel` characters are read. -/
def scanStr : Nat → List Char → Option (List Char × List Char)
  | 0, _ => none
  | _ + 1, [] => none
  | fuel + 1, c :: r =>
    if c = '"' then some ([], r)
    else match scanChar c r with
      | none => none
      | some (ch, r') =>
        match scanStr fuel r' with
        | none => none
        | some (cs, r'') => some (ch :: cs, r'')

/-- `0|[1-9]\d*`. -/
def scanInt : List Char → Option (List Char × List Char)
  | [] => none
  | c :: r =>
    if c = '0' then some (['0'], r)
    else if c.isDigit then some (c :: r.takeWhile Char.isDigit, r.dropWhile Char.isDigit)
    else none

/-- `(\.\d+)?`. -/
def scanFrac : List Char → List Char × List Char
  | [] => ([], [])
  | c :: r =>
    if c = '.' ∧ r.takeWhile Char.isDigit ≠ [] then
      (c :: r.takeWhile Char.isDigit, r.dropWhile Char.isDigit)
    else ([], c :: r)

/-- `[-+]?`. -/
def scanSign : List Char → List Char × List Char
  | [] => ([], [])
  | c :: r => if c = '+' ∨ c = '-' then ([c], r) else ([], c :: r)

/-- `([eE][-+]?\d+)?`. -/
def scanExp : List Char → List Char × List Char
  | [] => ([], [])
  | c :: r =>
    if (c = 'e' ∨ c = 'E') ∧ (scanSign r).2.takeWhile Char.isDigit ≠ [] then
      (c :: ((scanSign r).1 ++ (scanSign r).2.takeWhile Char.isDigit),
        (scanSign r).2.dropWhile Char.isDigit)
    else ([], c :: r)

/-- `-?`. -/
def scanMinus : List Char → List Char × List Char
  | [] => ([], [])
  | c :: r => if c = '-' then ([c], r) else ([], c :: r)

/-- A number (json/scanner.py, `NUMBER_RE`): an `int` unless there is a fraction or an exponent. -/
def scanNum (s : List Char) : Option (JTree × List Char) :=
  match scanInt (scanMinus s).2 with
  | none => none
  | some (ds, r) =>
    if (scanFrac r).1 = [] ∧ (scanExp (scanFrac r).2).1 = [] then
      some (.int (if (scanMinus s).1 = [] then Nat.ofDigitChars 10 ds 0
        else -(Nat.ofDigitChars 10 ds 0 : Int)), (scanExp (scanFrac r).2).2)
    else some (.float (String.ofList ((scanMinus s).1 ++ (ds ++ ((scanFrac r).1 ++
      (scanExp (scanFrac r).2).1)))), (scanExp (scanFrac r).2).2)

/-- The constants. -/
def constants : List (List Char × JTree) :=
  [("null".toList, .null), ("true".toList, .bool true), ("false".toList, .bool false),
   ("NaN".toList, .float "NaN"), ("Infinity".toList, .float "Infinity"),
   ("-Infinity".toList, .float "-Infinity")]

/-- A constant or a number. -/
def scanWord (s : List Char) : Option (JTree × List Char) :=
  match constants.findSome? (fun k => (afterPrefix k.1 s).map (fun r => (k.2, r))) with
  | some x => some x
  | none => scanNum s

/-- `dict(pairs)`: the last value of a repeated name is kept. -/
def pairsDict (l : List (String × JTree)) : List (String × JTree) :=
  l.foldl (fun d p => dset d p.1 p.2) []

mutual
/-- A value (`scan_once`). `fuel` bounds the nesting and the number of items. -/
def scanTree : Nat → List Char → Option (JTree × List Char)
  | 0, _ => none
  | _ + 1, [] => none
  | fuel + 1, c :: r =>
    if c = '"' then
      match scanStr fuel r with
      | none => none
      | some (cs, r') => some (.str (String.ofList cs), r')
    else if c = '{' then
      if (skipWs r).head? = some '}' then some (.obj [], (skipWs r).tail)
      else match scanMembers fuel (skipWs r) with
        | none => none
        | some (l, r') => some (.obj (pairsDict l), r')
    else if c = '[' then
      if (skipWs r).head? = some ']' then some (.arr [], (skipWs r).tail)
      else match scanItems fuel (skipWs r) with
        | none => none
        | some (l, r') => some (.arr l, r')
    else scanWord (c :: r)
/-- Items, up to the closing bracket (`JSONArray`). -/
def scanItems : Nat → List Char → Option (List JTree × List Char)
  | 0, _ => none
  | fuel + 1, s =>
    match scanTree fuel s with
    | none => none
    | some (v, r) =>
      if (skipWs r).head? = some ']' then some ([v], (skipWs r).tail)
      else if (skipWs r).head? = some ',' then
        match scanItems fuel (skipWs (skipWs r).tail) with
        | none => none
        | some (l, r') => some (v :: l, r')
      else none
/-- Members, up to the closing brace (`JSONObject`). -/
def scanMembers : Nat → List Char → Option (List (String × JTree) × List Char)
  | 0, _ => none
  | fuel + 1, s =>
    if s.head? = some '"' then
      match scanStr fuel s.tail with
      | none => none
      | some (k, r0) =>
        if (skipWs r0).head? = some ':' then
          match scanTree fuel (skipWs (skipWs r0).tail) with
          | none => none
          | some (v, r) =>
            if (skipWs r).head? = some '}' then some ([(String.ofList k, v)], (skipWs r).tail)
            else if (skipWs r).head? = some ',' then
              match scanMembers fuel (skipWs (skipWs r).tail) with
              | none => none
              | some (l, r') => some ((String.ofList k, v) :: l, r')
            else none
        else none
    else none
end

/-- `json.loads`: white space, a value, white space, and nothing else. `none` stands for the
exception. -/
def parseText (s : List Char) : Option JTree :=
  match scanTree (s.length + 1) (skipWs s) with
  | none => none
  | some (t, r) => if skipWs r = [] then some t else none

/-! ### The documents of gsp/io/json.py -/

/-- The texts of floats: `repr`, and reading it back. -/
structure FloatRepr where
  text : Int → String
  read : String → Option Int

/-- A value of a parameter. -/
def valTree (R : FloatRepr) : JVal → JTree
  | .null => .null
  | .bool b => .bool b
  | .int n => .int n
  | .float n => .float (R.text n)
  | .str s => .str s
  | .arr l => .arr (l.map .int)

/-- One command (gsp/io/json.py:51-54). `stamp` is the `repr` of its timestamp. Entries that are
missing are not written (`JCmd`). -/
def cmdTree (R : FloatRepr) (stamp : String) (c : JCmd) : JTree :=
  .obj ((match c.method with | some m => [("method", .str m)] | none => []) ++
    [("id", .int c.id), ("timestamp", .float stamp)] ++
    (match c.params with
      | some ps => [("parameters", .obj (ps.map (fun p => (p.1, valTree R p.2))))]
      | none => []))

/-- The payload (gsp/io/json.py:67). -/
def docTree (R : FloatRepr) (cmds : List (String × JCmd)) : JTree :=
  .obj [("gsp_version", .str "1.0"), ("commands", .arr (cmds.map (fun c => cmdTree R c.1 c.2)))]

/-- The text `save` writes (gsp/io/json.py:72-73). -/
def docText (R : FloatRepr) (cmds : List (String × JCmd)) : List Char :=
  treeText none 0 (docTree R cmds)

/-- The text `dump` returns (gsp/io/json.py:69-70). -/
def dumpText (R : FloatRepr) (cmds : List (String × JCmd)) : List Char :=
  treeText (some 2) 0 (docTree R cmds)

/-- The value of a parameter as it is handed to `json.dump`: a value `encodeVal` refuses is unknown
to `json`. -/
def rawTree (R : FloatRepr) (ij : Codec) (w : World) (v : Val) : JTree :=
  match encodeVal ij w v with
  | .ok j => valTree R j
  | .error _ => .unknown

/-- One command as it is handed to `json.dump`. -/
def rawCmdTree (R : FloatRepr) (ij : Codec) (w : World) (stamp : String) (p : Payload) : JTree :=
  .obj [("method", .str p.method), ("id", .int p.id), ("timestamp", .float stamp),
    ("parameters", .obj (p.params.map (fun q => (q.1, rawTree R ij w q.2))))]

/-- The payload as it is handed to `json.dump` (gsp/io/json.py:67,73). -/
def rawDocTree (R : FloatRepr) (ij : Codec) (w : World) (ps : List (String × Payload)) : JTree :=
  .obj [("gsp_version", .str "1.0"),
    ("commands", .arr (ps.map (fun p => rawCmdTree R ij w p.1 p.2)))]

/-- The integers of an array. -/
def treeInts : List JTree → Option (List Int)
  | [] => some []
  | .int n :: l => (treeInts l).map (n :: ·)
  | _ :: _ => none

/-- A parameter read from a file; `none` for values outside `JVal`. -/
def treeVal (R : FloatRepr) : JTree → Option JVal
  | .null => some .null
  | .bool b => some (.bool b)
  | .int n => some (.int n)
  | .float s => (R.read s).map .float
  | .str s => some (.str s)
  | .arr l => (treeInts l).map .arr
  | _ => none

/-- The parameters of a command. -/
def treeParams (R : FloatRepr) : List (String × JTree) → Option (Dict String JVal)
  | [] => some []
  | (k, t) :: l =>
    match treeVal R t, treeParams R l with
    | some v, some ps => some ((k, v) :: ps)
    | _, _ => none

/-- A command read from a file: `command["method"]` and `command["parameters"]`
(gsp/io/json.py:94,99). `none` for shapes outside `JCmd`. -/
def treeCmd (R : FloatRepr) : JTree → Option JCmd
  | .obj d =>
    match (match dget d "method" with
        | none => some none | some (.str m) => some (some m) | some _ => none),
      (match dget d "id" with | some (.int n) => some n.toNat | _ => none),
      (match dget d "parameters" with
        | none => some none | some (.obj ps) => (treeParams R ps).map some | some _ => none) with
    | some m, some n, some ps => some ⟨m, n, ps⟩
    | _, _, _ => none
  | _ => none

/-- The commands. -/
def treeCmds (R : FloatRepr) : List JTree → Option (List JCmd)
  | [] => some []
  | t :: l =>
    match treeCmd R t, treeCmds R l with
    | some c, some cs => some (c :: cs)
    | _, _ => none

/-- What `load` finds in a text (gsp/io/json.py:86-87); `none` for documents of other shapes. -/
def fileOf (R : FloatRepr) (s : List Char) : Option File :=
  match parseText s with
  | none => some .invalid
  | some (.obj d) =>
    match dget d "commands" with
    | none => some .noCommands
    | some (.arr l) => (treeCmds R l).map .doc
    | some _ => none
  | some _ => none

end Verif
