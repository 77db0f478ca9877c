import Verif.Model.Py
import Mathlib.Algebra.Order.Field.Rat
import Mathlib.Data.List.Perm.Basic
/-
The scripts that check the examples (scripts/check_expected_output.py,
scripts/run_all_examples.py).

Simplifications: numbers are rationals; the images' similarity is a parameter; printing is left
out.
-/

namespace Verif

/-- What `json.loads` gives. -/
inductive Js where
  | null
  | bool (b : Bool)
  | num (q : ℚ)
  | str (s : String)
  | arr (l : List Js)
  | obj (l : List (String × Js))

/-- What `json_reordered` gives (lines 31-37): atoms, lists, and the tuples made of the items of
dictionaries. `True` and `False` are the numbers 1 and 0: neither `==` nor `<` tells them
apart. -/
inductive Reordered where
  | null
  | num (q : ℚ)
  | str (s : String)
  | list (l : List Reordered)
  | item (k : String) (v : Reordered)

mutual
/-- Equality of reordered values (Python's `==`, line 41). -/
def Reordered.beq : Reordered → Reordered → Bool
  | .null, .null => true
  | .num p, .num q => p == q
  | .str s, .str t => s == t
  | .list l, .list m => Reordered.beqs l m
  | .item k v, .item k' v' => k == k' && v.beq v'
  | _, _ => false
/-- Equality of lists. -/
def Reordered.beqs : List Reordered → List Reordered → Bool
  | [], [] => true
  | x :: xs, y :: ys => x.beq y && Reordered.beqs xs ys
  | _, _ => false
end

mutual
/-- Python's `<`. Values of different kinds, and two `None`, raise TypeError. Tuples are compared
by their first different components. -/
def Reordered.lt : Reordered → Reordered → Except Err Bool
  | .num p, .num q => .ok (p < q)
  | .str s, .str t => .ok (s < t)
  | .list l, .list m => Reordered.lts l m
  | .item k v, .item k' v' =>
    if k = k' then (if v.beq v' then .ok false else v.lt v') else .ok (k < k')
  | _, _ => .error .typeError
/-- `<` on lists: the first different elements decide, then the lengths. -/
def Reordered.lts : List Reordered → List Reordered → Except Err Bool
  | [], [] => .ok false
  | [], _ :: _ => .ok true
  | _ :: _, [] => .ok false
  | x :: xs, y :: ys => if x.beq y then Reordered.lts xs ys else x.lt y
end

/-- Python's `sorted`. -/
abbrev SortFn := List Reordered → Except Err (List Reordered)

mutual
/-- `json_reordered` (lines 31-37). -/
def jsReorder (sort : SortFn) : Js → Except Err Reordered
  | .null => .ok .null
  | .bool b => .ok (.num (if b then 1 else 0))
  | .num q => .ok (.num q)
  | .str s => .ok (.str s)
  | .arr l =>
    match jsReorderAll sort l with
    | .error e => .error e
    | .ok rs => (sort rs).map .list
  | .obj l =>
    match jsReorderItems sort l with
    | .error e => .error e
    | .ok rs => (sort rs).map .list
/-- The elements of a list. -/
def jsReorderAll (sort : SortFn) : List Js → Except Err (List Reordered)
  | [] => .ok []
  | x :: xs =>
    match jsReorder sort x with
    | .error e => .error e
    | .ok r => (jsReorderAll sort xs).map (r :: ·)
/-- The items of a dictionary. -/
def jsReorderItems (sort : SortFn) : List (String × Js) → Except Err (List Reordered)
  | [] => .ok []
  | (k, x) :: xs =>
    match jsReorder sort x with
    | .error e => .error e
    | .ok r => (jsReorderItems sort xs).map (.item k r :: ·)
end

/-- `json_deep_comp` (lines 18-41). -/
def jsonDeepComp (sort : SortFn) (a b : Js) : Except Err Bool :=
  match jsReorder sort a with
  | .error e => .error e
  | .ok x =>
    match jsReorder sort b with
    | .error e => .error e
    | .ok y => .ok (x.beq y)

/-- A file: its bytes, what `json.loads` makes of them, and the image in them. -/
structure OutFile (Img : Type) where
  bytes : List Nat
  json : Except Err Js
  image : Except Err Img

/-- `verify_file_content` (lines 44-89). `ext` is the extension of the expected file (line 65),
`score` the structural similarity of images (or its exception). -/
def verifyContent {Img : Type} (sort : SortFn) (score : Img → Img → Except Err ℚ) (ext : String)
    (expected output : OutFile Img) : Except Err Bool :=
  if ext = ".png" ∨ ext = ".jpg" ∨ ext = ".jpeg" then do
    let x ← expected.image
    let y ← output.image
    let s ← score x y
    return decide (99 / 100 ≤ s)
  else if ext = ".json" then do
    let x ← expected.json
    let y ← output.json
    jsonDeepComp sort x y
  else .ok (expected.bytes == output.bytes)

/-- `os.path.splitext(path)[1].lower()` (line 65): from the last dot that is not one of the leading
dots of the name. Only ASCII letters are lowered. -/
def splitExt (name : String) : String :=
  let rest := name.toList.dropWhile (· = '.')
  if '.' ∈ rest then
    String.ofList ('.' :: (rest.reverse.takeWhile (· ≠ '.')).reverse.map Char.toLower)
  else ""

/-- How the script ends. -/
inductive Exit where
  | success
  | failure
  | raised (e : Err)
deriving DecidableEq

/-- The loop of `main` (lines 106-128) over the expected files, each with its name and content;
`out` is the output folder. -/
def checkFiles {Img : Type} (sort : SortFn) (score : Img → Img → Except Err ℚ)
    (out : String → Option (OutFile Img)) : List (String × OutFile Img) → Exit
  | [] => .success
  | (name, x) :: rest =>
    match out name with
    | none => .failure
    | some y =>
      match verifyContent sort score (splitExt name) x y with
      | .error e => .raised e
      | .ok true => checkFiles sort score out rest
      | .ok false => .failure

/-- `basename.endswith(".png") or basename.endswith(".json")` (line 104). -/
def isChecked (name : String) : Bool :=
  ".png".toList.isSuffixOf name.toList || ".json".toList.isSuffixOf name.toList

/-- `main` (lines 97-130). -/
def checkMain {Img : Type} (sort : SortFn) (score : Img → Img → Except Err ℚ)
    (out : String → Option (OutFile Img)) (expected : List (String × OutFile Img)) : Exit :=
  checkFiles sort score out (expected.filter (fun f => isChecked f.1))

/-- `split_argv` (run_all_examples.py:47-55), given `sys.argv[1:]`: the script's own name is never
`--`. -/
def splitArgv (args : List String) : List String × List String :=
  if args.contains "--" then
    let i := args.idxOf "--"
    (args.take i, args.drop (i + 1))
  else (args, [])

/-- The environment of an example (run_all_examples.py:26): `dict(**os.environ, X="False")`
raises TypeError when `X` is set already. -/
def launchEnv (environ : List (String × String)) : Except Err (List (String × String)) :=
  if (environ.map Prod.fst).contains "GSP_SC_INTERACTIVE" then .error .typeError
  else .ok (environ ++ [("GSP_SC_INTERACTIVE", "False")])

/-- The file of commands that `gsp.save` writes (gsp/io/json.py:51-67), as JSON: the version and,
for each command, its method, number, time and parameters. -/
def commandFile (commands : List (String × Nat × ℚ × List (String × Js))) : Js :=
  .obj [("gsp_version", .str "1.0"),
    ("commands", .arr (commands.map fun c =>
      .obj [("method", .str c.1), ("id", .num c.2.1), ("timestamp", .num c.2.2.1),
        ("parameters", .obj c.2.2.2)]))]

/-- The loop over the examples (run_all_examples.py:98-114): the exit code, and the examples that
were run. `run` says whether an example succeeds. -/
def runExamples (run : String → Bool) (stop : Bool) : List String → Exit × List String
  | [] => (.success, [])
  | s :: rest =>
    if !run s && stop then (.failure, [s])
    else
      let r := runExamples run stop rest
      (r.1, s :: r.2)

end Verif
