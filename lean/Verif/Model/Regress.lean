import Verif.Model.Checker
import Mathlib.Data.List.Sort
/-
The regression test of the examples as a whole: scripts/run_all_examples.py runs them, each writes its
file (examples/common/launcher.py), and scripts/check_expected_output.py compares (Model/Checker.lean).

Simplifications: names of files are texts, the output folder exists and can be written. What an example
writes and whether it ends without error does not depend on the other examples.
-/

namespace Verif

/-- `os.path.basename(path)`: what comes after the last `/` (launcher.py:68, run_all_examples.py:100). -/
def baseName (path : List Char) : List Char := (path.reverse.takeWhile (· ≠ '/')).reverse

/-- `text.replace(".py", "")` (launcher.py:68): every `.py` is removed, from left to right. -/
def removePy : List Char → List Char
  | [] => []
  | c :: rest =>
    match c, rest with
    | '.', 'p' :: 'y' :: rest' => removePy rest'
    | c, rest => c :: removePy rest

/-- What the examples are asked to write: `-- matplotlib_image` or `-- commands`. -/
inductive OutMode where
  | image
  | commands
deriving DecidableEq

/-- The end of the name of the file (launcher.py:77, 104). -/
def OutMode.ext : OutMode → String
  | .image => ".png"
  | .commands => ".commands.json"

/-- The name, in the output folder, of the file that the example at `path` writes (launcher.py:65-69, 77,
104). -/
def outputName (m : OutMode) (path : String) : String :=
  String.ofList (removePy (baseName path.toList)) ++ m.ext

/-- What happens when an example is run: what its output file is afterwards (`none`: it is not touched),
and whether the process ends without error. -/
structure ExampleRun (Img : Type) where
  writes : Option (OutFile Img)
  succeeds : Bool

/-- The names of the examples in a folder, and their order (run_all_examples.py:89-91). -/
def exampleScripts (listing : List String) : List String :=
  (listing.filter (fun b => ".py".toList.isSuffixOf b.toList)).insertionSort (· ≤ ·)

/-- A folder in which a file has been written. -/
def putFile {Img : Type} (out : String → Option (OutFile Img)) (name : String) :
    Option (OutFile Img) → String → Option (OutFile Img)
  | none => out
  | some f => fun n => if n = name then some f else out n

/-- `main` of run_all_examples.py (lines 86-114) in a folder with these files: how the script ends, and
the output folder afterwards. `run` is what happens with each example; `stop` is `--stop-on-error`. -/
def runAll {Img : Type} (m : OutMode) (folder : String) (run : String → ExampleRun Img) (stop : Bool)
    (listing : List String) (out : String → Option (OutFile Img)) :
    Exit × (String → Option (OutFile Img)) :=
  let r := runExamples (fun b => (run b).succeeds) stop (exampleScripts listing)
  (r.1, r.2.foldl (fun out b => putFile out (outputName m (folder ++ "/" ++ b)) (run b).writes) out)

end Verif
