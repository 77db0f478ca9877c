import Verif.Model.Visual
import Verif.Model.Py
/-
The forms in which the attributes of a visual can be given, and what is drawn from each
(gsp/visual/visual.py, gsp/visual/points.py, gsp_matplotlib/visual/points.py).
-/

namespace Verif

/-- Numbers, or rows of numbers. -/
inductive Nested where
  | numbers (xs : List ℚ)
  | rows (xs : List (List ℚ))
deriving DecidableEq

/-- Its length, as `len` gives it. -/
def Nested.len : Nested → Nat
  | .numbers xs => xs.length
  | .rows xs => xs.length

/-- Its numbers one after the other, as `ravel` gives them. -/
def Nested.ravel : Nested → List ℚ
  | .numbers xs => xs
  | .rows xs => xs.flatten

/-- As an attribute of Model/Visual.lean. -/
def Nested.attr : Nested → Attr
  | .numbers xs => .flat xs
  | .rows xs => .items xs

/-- What a visual can be given for an attribute: an array (a numpy array, a tracked array or a Buffer), an
array without dimension, a transform (with what it evaluates to), a list, a tuple (as Color is), a number,
or None. (Names of colours are refused by the check of the types, and the List of gsp, which matplotlib
cannot iterate over, is left out.) -/
inductive Given where
  | array (v : Nested)
  | scalar (x : ℚ)
  | transform (r : Except Err Attr)
  | list (v : Nested)
  | tuple (v : Nested)
  | number (x : ℚ)
  | none

/-- What `eval_variable` returns: an array, a list as it was given, a number as it was given, or None. -/
inductive Evald where
  | array (v : Nested)
  | list (v : Nested)
  | number (x : ℚ)
  | none
deriving DecidableEq

/-- gsp/visual/visual.py:87, `np.atleast_1d` of an array. -/
def atleastOne : Attr → Nested
  | .items xs => .rows xs
  | .flat xs => .numbers xs
  | .other x => .numbers [x]

/-- gsp/visual/visual.py:65-87, `Visual.eval_variable`. -/
def evalGiven : Given → Except Err Evald
  | .array v => .ok (.array v)
  | .scalar x => .ok (.array (.numbers [x]))
  | .transform r => r.map (fun a => .array (atleastOne a))
  | .list v => .ok (.list v)
  | .tuple v => .ok (.array v)
  | .number x => .ok (.number x)
  | .none => .ok .none

/-- `len(positions)` in the constructor (gsp/visual/points.py:85). -/
def givenLen : Given → Except Err Nat
  | .array v => .ok v.len
  | .list v => .ok v.len
  | .tuple v => .ok v.len
  | .scalar _ => .error .typeError
  | .transform _ => .error .typeError
  | .number _ => .error .typeError
  | .none => .error .typeError

/-- The numbers in threes. -/
def inThrees : List ℚ → List (List ℚ)
  | a :: b :: c :: r => [a, b, c] :: inThrees r
  | _ => []

/-- gsp_matplotlib/visual/points.py:63-64, `positions.reshape(-1,3)`: only arrays have `reshape`. -/
def reshapeThree : Evald → Except Err (List (List ℚ))
  | .array v => if v.ravel.length % 3 = 0 then .ok (inThrees v.ravel) else .error .valueError
  | .list _ => .error .attributeError
  | .number _ => .error .attributeError
  | .none => .error .attributeError

/-- gsp_matplotlib/visual/points.py:72, the assignment to "screen[positions]", an array of shape (n,3), of
`m` rows of three. -/
def fillScreen (n m : Nat) : Except Err Unit :=
  if m = n ∨ m = 1 then .ok () else .error .valueError

/-- gsp_matplotlib/visual/points.py:75-91: an array as long as there are points is sorted with them,
anything else is passed on; with `none` matplotlib takes its default. -/
def handOver (n : Nat) (idx : List Nat) : Evald → Option Attr
  | .array v => some (sortAttr n idx v.attr)
  | .list v => some v.attr
  | .number x => some (.other x)
  | .none => Option.none

/-- gsp_matplotlib/visual/points.py:93-97 with `set_sizes` of matplotlib, which takes the square root of the
array made of the sizes and assigns it to an array of shape (n,): one number for each point; what is not an
array of `n` items is first repeated `n` times, which makes an array of shape (n, ...) of a list or an
array, and such an array can be assigned just when it holds a single number. The root of None raises. (At
least one point.) -/
def settleSizes (n : Nat) (idx : List Nat) : Evald → Except Err (List ℚ)
  | .array (.numbers xs) =>
    if xs.length = n then .ok (permute idx xs)
    else .error .valueError
  | .array (.rows xs) =>
    match n, xs with
    | 1, [[x]] => .ok [x]
    | _, _ => .error .valueError
  | .list v =>
    match n, v with
    | 1, .numbers [x] => .ok [x]
    | 1, .rows [[x]] => .ok [x]
    | _, _ => .error .valueError
  | .number x => .ok (List.replicate n x)
  | .none => .error .typeError

/-- A point as it is drawn: where, its two colours, its width (`none`: the default of matplotlib), its
size. -/
structure Dot where
  place : Option (List ℚ)
  fill : Option (Option (List ℚ))
  line : Option (Option (List ℚ))
  width : Option (Option ℚ)
  size : Option ℚ
deriving DecidableEq

/-- Creating Points (gsp/visual/points.py:43-92) and rendering them
(gsp_matplotlib/visual/points.py:62-97), `order` being the sort of the points by their depth after
projection. The points are given by their positions before projection. -/
def drawPoints (order : List (List ℚ) → List Nat) (positions sizes fill line width : Given) :
    Except Err (List Dot) := do
  let made ← givenLen positions
  let value ← evalGiven positions
  let ps ← reshapeThree value
  let idx := order ps
  let n := ps.length
  fillScreen made n
  let fill ← evalGiven fill
  let line ← evalGiven line
  let width ← evalGiven width
  let sizes ← evalGiven sizes
  let sizes ← settleSizes n idx sizes
  return (List.range n).map (fun k =>
    ⟨(permute idx ps)[k]?, (handOver n idx fill).map (colourAt · k),
      (handOver n idx line).map (colourAt · k), (handOver n idx width).map (widthAt · k), sizes[k]?⟩)

end Verif
