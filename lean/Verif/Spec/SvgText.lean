import Verif.Spec.Svg
import Verif.Model.SvgText
import Mathlib.Data.Nat.Digits.Defs
/-
How SVG paths are written: numbers, separators and letters.
-/

namespace Verif

/-- A number as written: a sign, digits, digits after the point, and an exponent: its letter, sign
and digits. The point is written when there are digits after it. -/
structure NumText where
  sign : Option Bool
  ip : List (Fin 10)
  fp : List (Fin 10)
  ex : Option (Bool × Option Bool × List (Fin 10))
deriving DecidableEq

/-- A digit as written. -/
def digChar (d : Fin 10) : Char := Char.ofNat (48 + d.val)

/-- A sign as written: `some true` is minus. -/
def signText : Option Bool → List Char
  | none => []
  | some true => ['-']
  | some false => ['+']

/-- An exponent as written. -/
def expText : Option (Bool × Option Bool × List (Fin 10)) → List Char
  | none => []
  | some (upper, s, ds) => (if upper then 'E' else 'e') :: (signText s ++ ds.map digChar)

/-- A number as written. -/
def NumText.text (n : NumText) : List Char :=
  signText n.sign ++ (n.ip.map digChar ++
    ((if n.fp = [] then [] else '.' :: n.fp.map digChar) ++ expText n.ex))

/-- There is a digit, and one in the exponent if there is an exponent. -/
def NumText.Ok (n : NumText) : Prop :=
  (n.ip ≠ [] ∨ n.fp ≠ []) ∧ ∀ u s ds, n.ex = some (u, s, ds) → ds ≠ []

/-- The value of digits. -/
def decVal (ds : List (Fin 10)) : Nat := Nat.ofDigits 10 (ds.reverse.map (·.val))

/-- The value of a number. -/
def NumText.val (n : NumText) : ℚ :=
  (if n.sign = some true then -1 else 1) * (decVal n.ip + decVal n.fp / 10 ^ n.fp.length) *
    (match n.ex with
      | none => 1
      | some (_, s, ds) => if s = some true then 1 / 10 ^ decVal ds else 10 ^ decVal ds)

/-- White space, and the comma. -/
def isSep (c : Char) : Bool := c = ' ' || c = ',' || c = '\n' || c = '\t' || c = '\r'

/-- Two numbers may follow one another with nothing between if the second begins with a sign, or
with a point and the first has a point or an exponent. -/
def NumText.mayTouch (a b : NumText) : Prop :=
  b.sign ≠ none ∨ b.ip = [] ∧ (a.fp ≠ [] ∨ a.ex ≠ none)

/-- Numbers as written, one after the other. -/
def RunText : Option NumText → List NumText → List Char → Prop
  | _, [], cs => ∀ c ∈ cs, isSep c = true
  | prev, n :: ns, cs =>
    ∃ sep rest, (∀ c ∈ sep, isSep c = true) ∧ (∀ p ∈ prev, sep = [] → p.mayTouch n) ∧ n.Ok ∧
      cs = sep ++ (n.text ++ rest) ∧ RunText (some n) ns rest

/-- The letters of SVG, as capitals. -/
def svgLetters : List (Char × SvgCmd) :=
  [('M', .M), ('Z', .Z), ('L', .L), ('H', .H), ('V', .V), ('C', .C), ('S', .S), ('Q', .Q),
   ('T', .T), ('A', .A)]

/-- What a letter says: capitals are absolute. -/
def letterMeans (l : Char) (c : SvgCmd) (a : Bool) : Prop :=
  ∃ p ∈ svgLetters, p.2 = c ∧ l = if a then p.1 else p.1.toLower

/-- A path as written: letters, each followed by numbers. -/
def PathText : List (SvgCmd × Bool × List NumText) → List Char → Prop
  | [], cs => cs = []
  | (c, a, ns) :: gs, cs =>
    ∃ l, letterMeans l c a ∧
      ∃ run rest, cs = l :: (run ++ rest) ∧ RunText none ns run ∧ PathText gs rest

/-- The tokens it should give. -/
def groupToks (gs : List (SvgCmd × Bool × List NumText)) : List (SvgTok ℚ) :=
  gs.flatMap (fun g => .cmd g.1 g.2.1 :: g.2.2.map (fun n => .num n.val))

end Verif
