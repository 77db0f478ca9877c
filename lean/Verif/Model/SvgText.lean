import Verif.Model.Svg
import Mathlib.Data.Rat.Defs
import Mathlib.Algebra.Order.Field.Rat
/-
The text of SVG paths cut into tokens (gsp/core/svg.py:27-31, 266-271).

Simplifications: the value of a number is a rational instead of a float; the regular expressions are
written out as the searches they perform, leftmost and greedy.
-/

namespace Verif

/-- COMMANDS and UPPERCASE (svg.py:27-28). -/
def svgLetter (c : Char) : Option (SvgCmd × Bool) :=
  match c with
  | 'M' => some (.M, true)
  | 'm' => some (.M, false)
  | 'Z' => some (.Z, true)
  | 'z' => some (.Z, false)
  | 'L' => some (.L, true)
  | 'l' => some (.L, false)
  | 'H' => some (.H, true)
  | 'h' => some (.H, false)
  | 'V' => some (.V, true)
  | 'v' => some (.V, false)
  | 'C' => some (.C, true)
  | 'c' => some (.C, false)
  | 'S' => some (.S, true)
  | 's' => some (.S, false)
  | 'Q' => some (.Q, true)
  | 'q' => some (.Q, false)
  | 'T' => some (.T, true)
  | 't' => some (.T, false)
  | 'A' => some (.A, true)
  | 'a' => some (.A, false)
  | _ => none

/-- `COMMAND_RE.split(pathdef)`: the letters, and what is before, between and after them. -/
def splitLetters : List Char → List (List Char)
  | [] => [[]]
  | c :: cs =>
    if (svgLetter c).isSome then [] :: [c] :: splitLetters cs
    else match splitLetters cs with
      | [] => [[c]]
      | p :: ps => (c :: p) :: ps

/-- `[0-9]`. -/
def isDig (c : Char) : Bool := '0' ≤ c && c ≤ '9'

/-- What FLOAT_RE matches (svg.py:31): a sign, digits, digits after a point, and an exponent. -/
structure FloatText where
  neg : Bool
  ip : List Char
  fp : List Char
  ex : Option (Bool × List Char)
deriving DecidableEq

/-- `[-+]?`. -/
def takeSign : List Char → Bool × List Char
  | '-' :: cs => (true, cs)
  | '+' :: cs => (false, cs)
  | cs => (false, cs)

/-- `[0-9]*\.?[0-9]+`: the digits before the point, those after it, and the rest. -/
def takeMantissa (cs : List Char) : Option (List Char × List Char × List Char) :=
  let ip := cs.takeWhile isDig
  let rest := cs.dropWhile isDig
  match rest with
  | '.' :: r =>
    if r.takeWhile isDig ≠ [] then some (ip, r.takeWhile isDig, r.dropWhile isDig)
    else if ip ≠ [] then some (ip, [], rest) else none
  | _ => if ip ≠ [] then some (ip, [], rest) else none

/-- `[-+]?[0-9]+` after the letter of an exponent. -/
def takeExpDigits (cs : List Char) : Option ((Bool × List Char) × List Char) :=
  let (neg, r) := takeSign cs
  if r.takeWhile isDig ≠ [] then some ((neg, r.takeWhile isDig), r.dropWhile isDig) else none

/-- `(?:[eE][-+]?[0-9]+)?`. -/
def takeExp (cs : List Char) : Option (Bool × List Char) × List Char :=
  match cs with
  | c :: r =>
    if c = 'e' ∨ c = 'E' then
      match takeExpDigits r with
      | some (ex, r') => (some ex, r')
      | none => (none, cs)
    else (none, cs)
  | [] => (none, [])

/-- FLOAT_RE at one place. -/
def matchFloat (cs : List Char) : Option (FloatText × List Char) :=
  let (neg, r) := takeSign cs
  match takeMantissa r with
  | none => none
  | some (ip, fp, r) =>
    let (ex, r) := takeExp r
    some (⟨neg, ip, fp, ex⟩, r)

/-- `FLOAT_RE.findall(x)`, with a bound on the number of places. -/
def findFloatsGo : Nat → List Char → List FloatText
  | 0, _ => []
  | _, [] => []
  | n + 1, c :: cs =>
    match matchFloat (c :: cs) with
    | some (f, rest) => f :: findFloatsGo n rest
    | none => findFloatsGo n cs

/-- `FLOAT_RE.findall(x)`. -/
def findFloats (cs : List Char) : List FloatText := findFloatsGo cs.length cs

/-- The value of digits. -/
def digitsVal (cs : List Char) : Nat := cs.foldl (fun v c => 10 * v + (c.toNat - 48)) 0

/-- `float(token)`. -/
def FloatText.val (f : FloatText) : ℚ :=
  let m : ℚ := digitsVal f.ip + digitsVal f.fp / 10 ^ f.fp.length
  let m := match f.ex with
    | none => m
    | some (neg, ds) => if neg then m / 10 ^ digitsVal ds else m * 10 ^ digitsVal ds
  if f.neg then -m else m

/-- `if x in COMMANDS: yield x`. -/
def letterToks : List Char → List (SvgTok ℚ)
  | [c] => match svgLetter c with
    | some (k, a) => [.cmd k a]
    | none => []
  | _ => []

/-- _tokenize_path (svg.py:266-271), with numbers converted. -/
def tokenizePath (text : List Char) : List (SvgTok ℚ) :=
  (splitLetters text).flatMap (fun x =>
    letterToks x ++ (findFloats x).map (fun f => .num f.val))

end Verif
