import Verif.Model.Transform
import Mathlib.Algebra.Order.Field.Rat
/-
The values transforms are evaluated on, and what each transform computes: arithmetic
(operator.py), measures (measure.py), accessors (accessor.py), colormaps (colormap.py) and
outputs (out.py).

Simplifications: numbers are exact rationals, not floats; arrays have at most two axes;
a record array is one-dimensional; the colours of a colormap and the choice of a colour for a
number in [0,1] (matplotlib) are a parameter.
-/

namespace Verif

/-- Numbers, arrays of shape (n,), arrays of shape (n, k), record arrays (named columns). -/
inductive TVal where
  | num (x : ℚ)
  | vec (xs : List ℚ)
  | mat (k : Nat) (rows : List (List ℚ))
  | recs (cols : Dict String (List ℚ))
deriving DecidableEq

/-- All rows of an array have the same length. -/
def TVal.wf : TVal → Prop
  | .mat k rows => ∀ r ∈ rows, r.length = k
  | .recs cols => ∃ n, ∀ c ∈ cols, c.2.length = n
  | _ => True

/-! ### Arithmetic with broadcasting (numpy) -/

/-- Elementwise combination along one axis: equal lengths, or one of them 1. -/
def bcast1 (f : ℚ → ℚ → ℚ) (a b : List ℚ) : Except Err (List ℚ) :=
  if a.length = b.length then .ok (List.zipWith f a b)
  else match a, b with
    | [x], b => .ok (b.map (f x))
    | a, [y] => .ok (a.map (f · y))
    | _, _ => .error .valueError

/-- The same for rows. -/
def bcastRows (f : ℚ → ℚ → ℚ) (a b : List (List ℚ)) : Except Err (List (List ℚ)) :=
  if a.length = b.length then (List.zip a b).mapM (fun p => bcast1 f p.1 p.2)
  else match a, b with
    | [x], b => b.mapM (bcast1 f x)
    | a, [y] => a.mapM (bcast1 f · y)
    | _, _ => .error .valueError

/-- The length of the last axis of the result. -/
def bcastLen (k l : Nat) : Nat := if k = 1 then l else k

/-- Arrays of shapes (m, k) and (n, l). -/
def bcastMat (f : ℚ → ℚ → ℚ) (k l : Nat) (a b : List (List ℚ)) : Except Err TVal :=
  if k = l ∨ k = 1 ∨ l = 1 then
    match bcastRows f a b with
    | .ok r => .ok (.mat (bcastLen k l) r)
    | .error e => .error e
  else .error .valueError

/-- `a op b` on arrays. Record arrays have no arithmetic. -/
def bcast (f : ℚ → ℚ → ℚ) : TVal → TVal → Except Err TVal
  | .num a, .num b => .ok (.num (f a b))
  | .num a, .vec b => .ok (.vec (b.map (f a)))
  | .vec a, .num b => .ok (.vec (a.map (f · b)))
  | .num a, .mat k b => .ok (.mat k (b.map (List.map (f a))))
  | .mat k a, .num b => .ok (.mat k (a.map (List.map (f · b))))
  | .vec a, .vec b => match bcast1 f a b with
    | .ok r => .ok (.vec r)
    | .error e => .error e
  | .vec a, .mat k b => bcastMat f a.length k [a] b
  | .mat k a, .vec b => bcastMat f k b.length a [b]
  | .mat k a, .mat l b => bcastMat f k l a b
  | _, _ => .error .typeError

/-- operator.py:161,176,191,207. Division of two Python numbers by zero raises; numpy divides
to inf or nan instead, which is modelled by 0 as ℚ has neither. -/
def arithFn : AOp → TVal → TVal → Except Err TVal
  | .add, a, b => bcast (· + ·) a b
  | .sub, a, b => bcast (· - ·) a b
  | .mul, a, b => bcast (· * ·) a b
  | .div, .num a, .num b => if b = 0 then .error .zeroDivision else .ok (.num (a / b))
  | .div, a, b => bcast (· / ·) a b

/-! ### Measures -/

/-- What a measure reads of a canvas (gsp_matplotlib/core/canvas.py:19-27). -/
structure MCanvas where
  dpi : ℚ
  width : ℚ
  height : ℚ
deriving DecidableEq

/-- What a measure reads of a viewport: its canvas' resolution, size and limits. -/
structure MViewport where
  dpi : ℚ
  width : ℚ
  height : ℚ
  xmin : ℚ
  xmax : ℚ
  ymin : ℚ
  ymax : ℚ
deriving DecidableEq

/-- The variables a transform is evaluated with: those a measure looks at, `index`, and the
variables produced by the visual. -/
structure MVars where
  dpi : Option ℚ
  viewport : Option MViewport
  canvas : Option MCanvas
  size : Option (ℚ × ℚ)
  index : Option (List Int)
  out : Dict String TVal

/-- Measure.dpi (measure.py:106-119). -/
def MVars.resolution (m : MVars) : Option ℚ :=
  match m.dpi with
  | some d => some d
  | none => match m.canvas with
    | some c => some c.dpi
    | none => m.viewport.map (·.dpi)

/-- measure.py:56-72: width, height, and the extent of one unit along x and y; `none` stands
for ValueError. -/
def MVars.extent (m : MVars) : Option (ℚ × ℚ × ℚ × ℚ) :=
  match m.dpi with
  | some _ => some (1, 1, 1, 1)
  | none => match m.viewport with
    | some v => some (v.width, v.height, v.xmax - v.xmin, v.ymax - v.ymin)
    | none => m.canvas.map (fun c => (c.width, c.height, 1, 1))

/-- measure.py:74-89: the scale applied along x, y and z. A size of 0 raises when it is a Python number;
with the numbers of numpy the scale would be inf. -/
def MVars.scale (m : MVars) : Except Err (ℚ × ℚ × ℚ) :=
  match m.extent with
  | none => .error .valueError
  | some (w0, h0, ex, ey) =>
    let w := (m.size.getD (w0, h0)).1
    let h := (m.size.getD (w0, h0)).2
    if w = 0 ∨ h = 0 then .error .zeroDivision
    else .ok (ex * (1 / w), ey * (1 / h), 0)

/-- measure.py:91-96: the scale of a value depends on the length of its last axis. Record
arrays cannot be multiplied. -/
def scaleVal (s : ℚ × ℚ × ℚ) : TVal → Except Err TVal
  | .num x => .ok (.num (s.1 * x))
  | .vec xs =>
    if xs.length = 1 then .ok (.vec (xs.map (s.1 * ·)))
    else if xs.length = 2 then bcast (· * ·) (.vec [s.1, s.2.1]) (.vec xs)
    else bcast (· * ·) (.vec [s.1, s.2.1, s.2.2]) (.vec xs)
  | .mat k rows =>
    if k = 1 then .ok (.mat k (rows.map (List.map (s.1 * ·))))
    else if k = 2 then bcast (· * ·) (.vec [s.1, s.2.1]) (.mat k rows)
    else bcast (· * ·) (.vec [s.1, s.2.1, s.2.2]) (.mat k rows)
  | .recs _ => .error .typeError

/-- The factor of a unit (measure.py:131-233): pixel, inch, point, centimeter, millimeter,
meter (`10e2*dpi/2.54`), kilometer (`1e5*dpi/2.54`). -/
def MUnit.factor (dpi : ℚ) : MUnit → ℚ
  | .pixel => 1
  | .inch => dpi
  | .point => dpi / 72
  | .centimeter => dpi / (254 / 100)
  | .millimeter => 1 / 10 * dpi / (254 / 100)
  | .meter => 1000 * dpi / (254 / 100)
  | .kilometer => 100000 * dpi / (254 / 100)

/-- `factor * measure`. -/
def TVal.scaleBy (c : ℚ) : TVal → TVal
  | .num x => .num (c * x)
  | .vec xs => .vec (xs.map (c * ·))
  | .mat k rows => .mat k (rows.map (List.map (c * ·)))
  | .recs cols => .recs cols

/-- The evaluation of a measure applied to a value (measure.py:51-96, 131-233). -/
def measureVal (m : MVars) (u : MUnit) (v : TVal) : Except Err TVal :=
  match m.scale with
  | .error e => .error e
  | .ok s => match scaleVal s v with
    | .error e => .error e
    | .ok r => match u, m.resolution with
      | .pixel, _ => .ok r
      | _, none => .error .valueError
      | u, some d => .ok (r.scaleBy (u.factor d))

/-! ### Accessors -/

/-- `s in text`: `s` occurs in `text` as a contiguous part, at this position
(`text.index(s)`). -/
def findSub (s : List Char) : List Char → Option Nat
  | [] => if s = [] then some 0 else none
  | c :: cs => if s.isPrefixOf (c :: cs) then some 0 else (findSub s cs).map (· + 1)

/-- numpy's `x[i]` on an axis: negative indices count from the end. -/
def npGet {α : Type} (xs : List α) (i : Int) : Except Err α :=
  let j := if i < 0 then i + xs.length else i
  if j < 0 then .error .indexError
  else match xs[j.toNat]? with
    | some x => .ok x
    | none => .error .indexError

/-- `buffer[..., i]`. -/
def component (i : Nat) : TVal → Except Err TVal
  | .num _ => .error .indexError
  | .vec xs => match npGet xs i with
    | .ok x => .ok (.num x)
    | .error e => .error e
  | .mat k rows =>
    if i < k then match rows.mapM (npGet · i) with
      | .ok xs => .ok (.vec xs)
      | .error e => .error e
    else .error .indexError
  | .recs _ => .error .indexError

/-- `buffer[index]` for an array of indices. -/
def pick (index : List Int) : TVal → Except Err TVal
  | .vec xs => match index.mapM (npGet xs) with
    | .ok ys => .ok (.vec ys)
    | .error e => .error e
  | .mat k rows => match index.mapM (npGet rows) with
    | .ok ys => .ok (.mat k ys)
    | .error e => .error e
  | _ => .error .indexError

/-- The evaluation of an accessor applied to a value (accessor.py:44-56). A Python number has
no `dtype`; here every number is taken to be one. Without a key `buffer[None]` has one more axis, which
is left out here. -/
def accessVal (index : Option (List Int)) (key : Option String) (v : TVal) : Except Err TVal :=
  let sel : Except Err TVal := match v, key with
    | .num _, _ => .error .attributeError
    | .recs cols, some k => match dget cols k with
      | some xs => .ok (.vec xs)
      | none => .error .valueError
    | .recs cols, none => .ok (.recs cols)
    | _, none => .error .typeError
    | v, some k => match findSub k.toList "xyzw".toList with
      | some i => component i v
      | none => match findSub k.toList "rgba".toList with
        | some i => component i v
        | none => .error .indexError
  match sel with
  | .error e => .error e
  | .ok r => match index with
    | none => .ok r
    | some ix => pick ix r

/-! ### Colormaps -/

/-- `value.min()`; numpy raises on an empty array. -/
def listMin : List ℚ → Except Err ℚ
  | [] => .error .valueError
  | x :: xs => .ok (xs.foldl min x)

/-- `value.max()`. -/
def listMax : List ℚ → Except Err ℚ
  | [] => .error .valueError
  | x :: xs => .ok (xs.foldl max x)

/-- All numbers of an array; Python numbers have no `min`. -/
def TVal.elems : TVal → Except Err (List ℚ)
  | .vec xs => .ok xs
  | .mat _ rows => .ok rows.flatten
  | .num _ => .error .attributeError
  | .recs _ => .error .typeError

/-- `bound or value.min()` (colormap.py:82-83): a bound that is zero counts as not given. -/
def boundOr (bound : Option ℚ) (dflt : Except Err ℚ) : Except Err ℚ :=
  match bound with
  | some b => if b = 0 then dflt else .ok b
  | none => dflt

/-- The bounds of the normalisation. -/
def cmapBounds (lo hi : Option ℚ) (xs : Except Err (List ℚ)) : Except Err (ℚ × ℚ) :=
  match boundOr lo (xs.bind listMin) with
  | .error e => .error e
  | .ok a => match boundOr hi (xs.bind listMax) with
    | .error e => .error e
    | .ok b => .ok (a, b)

/-- matplotlib.colors.Normalize without clipping: 0 when the bounds agree, ValueError when
they are exchanged. -/
def normalise (a b : ℚ) (xs : List ℚ) : Except Err (List ℚ) :=
  if a = b then .ok (xs.map (fun _ => 0))
  else if b < a then .error .valueError
  else .ok (xs.map (fun x => (x - a) / (b - a)))

/-- The bounds of a colormap are numbers. -/
def TVal.asNum : TVal → Option ℚ
  | .num x => some x
  | _ => none

/-- The evaluation of a colormap (colormap.py:77-84): one colour per element, `lut` being the
map from [0,1] to colours. -/
def cmapVal (lut : Option String → ℚ → List ℚ) (c : Option String) (lo hi : Option ℚ)
    (v : Option TVal) : Except Err TVal :=
  let xs : Except Err (List ℚ) := match v with
    | some v => v.elems
    | none => .error .attributeError
  match cmapBounds lo hi xs with
  | .error e => .error e
  | .ok (a, b) => match v, xs with
    | some (.num x), _ => match normalise a b [x] with
      | .ok ys => .ok (.vec (ys.flatMap (lut c)))
      | .error e => .error e
    | _, .error e => .error e
    | _, .ok xs => match normalise a b xs with
      | .ok ys => .ok (.mat 4 (ys.map (lut c)))
      | .error e => .error e

/-! ### Outputs -/

/-- out.py:59-61: all characters of the key occur in the swizzle. -/
def swizzleIndex (key swz : List Char) : Option (List Nat) :=
  key.mapM (fun c => swz.findIdx? (· == c))

/-- out.py:58-62; `none`: `index` is never assigned. -/
def outIndex (key : List Char) : Option (List Nat) :=
  match swizzleIndex key "xyzw".toList with
  | some ix => some ix
  | none => swizzleIndex key "rgba".toList

/-- `variable[..., index]` for a list of indices. -/
def components (ix : List Nat) : TVal → Except Err TVal
  | .vec xs => match ix.mapM (fun i : Nat => npGet xs i) with
    | .ok ys => .ok (.vec ys)
    | .error e => .error e
  | .mat k rows =>
    if ix.all (· < k) then match rows.mapM (fun r => ix.mapM (fun i : Nat => npGet r i)) with
      | .ok ys => .ok (.mat ix.length ys)
      | .error e => .error e
    else .error .indexError
  | _ => .error .indexError

/-- The evaluation of an output (out.py:46-74). A name of `None` has no `.`: TypeError. An
`index` that was not assigned raises UnboundLocalError, a NameError. -/
def outVal (vars : Dict String TVal) (name : Option String) : Except Err TVal :=
  match name with
  | none => .error .typeError
  | some s =>
    if '.' ∈ s.toList then
      let parts := splitChars '.' s.toList
      match dget vars (String.ofList (parts.headD [])) with
      | none => .error .valueError
      | some v => match outIndex (parts.getLastD []) with
        | none => .error .nameError
        | some ix => components ix v
    else match dget vars s with
      | none => .error .valueError
      | some v => .ok v

/-! ### All together -/

/-- The meaning of transforms for given variables. The type check accepts numbers and buffers;
`__call__` binds numbers and arrays; `Measure.__mul__` binds numbers and arrays. -/
def valSem (lut : Option String → ℚ → List ℚ) (m : MVars) : TSem TVal where
  arith := arithFn
  access := accessVal m.index
  hasDpi := m.extent.isSome
  measure := measureVal m
  one := .num 1
  cmap c lo hi v := cmapVal lut c (lo.bind TVal.asNum) (hi.bind TVal.asNum) v
  out := outVal m.out
  ok _ := true
  bindable _ := true
  scales _ := true
  minusOne := .num (-1)

end Verif
