import Verif.Model.Py
import Mathlib.Algebra.Order.Field.Rat
/-
Swizzles (gsp_matplotlib/glm/ndarray/swizzle.py) and vector conversions
(gsp_matplotlib/glm/vec234.py).

Simplifications: numbers are rationals; an array of n vectors of k components is its list of
rows; a single vector, as `vec4()` makes (gsp_matplotlib/glm/ndarray/vectors.py:73-84), is a list
of one row with its own `len`. Tracking is modelled apart.
-/

namespace Verif

/-- The rows of an array of vectors. -/
abbrev Rows := List (List ℚ)

/-- `np.asarray(value)`: of shape (), (m,) or (m, p). -/
inductive SVal where
  | scalar (x : ℚ)
  | vec (xs : List ℚ)
  | mat (p : Nat) (rs : Rows)
deriving DecidableEq

/-- `value.size`. -/
def SVal.size : SVal → Nat
  | .scalar _ => 1
  | .vec xs => xs.length
  | .mat p rs => rs.length * p

/-- `np.squeeze(value)`. -/
def SVal.squeeze : SVal → SVal
  | .scalar x => .scalar x
  | .vec [x] => .scalar x
  | .vec xs => .vec xs
  | .mat p [r] => match p, r with
    | 1, [x] => .scalar x
    | _, r => .vec r
  | .mat 1 rs => .vec (rs.flatMap id)
  | .mat p rs => .mat p rs

/-- Components of a swizzle name: the first notation all letters of the key belong to
(swizzle.py:26-28, 35-39). -/
def swizzleIndices (notations : List (List Char)) (key : List Char) : Option (List Nat) :=
  match notations.find? (fun s => key.all (fun c => s.contains c)) with
  | none => none
  | some s => some (key.map (fun c => s.idxOf c))

/-- One column replaced. -/
def setCol (Z : Rows) (j : Nat) (col : List ℚ) : Rows :=
  Z.zipWith (fun r v => r.set j v) col

/-- `self[..., j] = v`: `v` is stretched to the shape (n,) as numpy does. -/
def assignCol (Z : Rows) (j : Nat) : SVal → Except Err Rows
  | .scalar x => .ok (setCol Z j (List.replicate Z.length x))
  | .vec xs =>
    if xs.length = Z.length then .ok (setCol Z j xs)
    else match xs with
      | [x] => .ok (setCol Z j (List.replicate Z.length x))
      | _ => .error .valueError
  | .mat p rs => match rs with
    | [r] =>
      if p = Z.length then .ok (setCol Z j r)
      else match r with
        | [x] => .ok (setCol Z j (List.replicate Z.length x))
        | _ => .error .valueError
    | _ => .error .valueError

/-- `value[i]`. -/
def SVal.item (i : Nat) : SVal → SVal
  | .scalar x => .scalar x
  | .vec xs => .scalar (xs[i]?.getD 0)
  | .mat _ rs => .vec (rs[i]?.getD [])

/-- `value[..., j]`. -/
def SVal.column (j : Nat) : SVal → SVal
  | .scalar x => .scalar x
  | .vec xs => .scalar (xs[j]?.getD 0)
  | .mat _ rs => .vec (rs.map (fun r => r[j]?.getD 0))

/-- `__setattr__` once the components are known (swizzle.py:36-65), on an array of length
`len`: the number of rows, or for a single vector the number of components. -/
def setSwizzle (len : Nat) (Z : Rows) (idx : List Nat) (v : SVal) : Except Err Rows :=
  match v with
  | .scalar _ => idx.foldlM (fun Z j => assignCol Z j v) Z
  | _ =>
    if len = v.size then idx.foldlM (fun Z j => assignCol Z j v.squeeze) Z
    else
      let l := match v with | .vec xs => xs.length | .mat _ rs => rs.length | .scalar _ => 0
      let last := match v with | .vec xs => xs.length | .mat p _ => p | .scalar _ => 0
      if idx.length = l then
        (List.range idx.length).foldlM (fun Z i => assignCol Z (idx[i]?.getD 0) (v.item i)) Z
      else if last = idx.length then
        (List.range idx.length).foldlM (fun Z i => assignCol Z (idx[i]?.getD 0) (v.column i)) Z
      else .error .indexError

/-- `__getattr__` once the components are known (swizzle.py:28). -/
def getSwizzle (Z : Rows) (idx : List Nat) : Rows :=
  Z.map (fun r => idx.filterMap (fun j => r[j]?))

/-- `Z.key = v` (swizzle.py:31-67): a key of no notation becomes an ordinary attribute, and the
array is as before. -/
def setAttr (notations : List (List Char)) (len : Nat) (Z : Rows) (key : List Char) (v : SVal) :
    Except Err Rows :=
  match swizzleIndices notations key with
  | some idx => setSwizzle len Z idx v
  | none => .ok Z

/-- `Z.key` (swizzle.py:25-29). -/
def getAttr (notations : List (List Char)) (Z : Rows) (key : List Char) : Except Err Rows :=
  match swizzleIndices notations key with
  | some idx => .ok (getSwizzle Z idx)
  | none => .error .attributeError

/-- The notations of vec2, vec3 and vec4 (vectors.py:50, 63, 76). -/
def vec2Names : List (List Char) := [['x', 'y'], ['r', 'a']]
@[inherit_doc vec2Names]
def vec3Names : List (List Char) := [['x', 'y', 'z'], ['r', 'g', 'b']]
@[inherit_doc vec2Names]
def vec4Names : List (List Char) := [['x', 'y', 'z', 'w'], ['r', 'g', 'b', 'a']]

/-! ### Conversions -/

/-- What is converted: a flat array, or rows of `k` components; `int` tells whether the numbers
are integers, which the result is then as well. -/
inductive VecIn where
  | flat (xs : List ℚ)
  | rows (int : Bool) (k : Nat) (rs : Rows)
deriving DecidableEq

/-- Conversion of a quotient to an integer type: towards 0. -/
def truncQ (x : ℚ) : ℚ := if x < 0 then -((-x).floor : ℚ) else (x.floor : ℚ)

/-- Consecutive groups of `k` numbers (`_V.ravel()[...] = V`). -/
def groups (k : Nat) (xs : List ℚ) : Rows :=
  (List.range (xs.length / k)).map (fun i => (xs.drop (i * k)).take k)

/-- to_vec2 (vec234.py:34-73). Division by 0 gives 0 here, where numpy has inf or nan; integers
cannot be divided in place. -/
def toVec2 : VecIn → Except Err Rows
  | .flat xs => if xs.length % 2 = 0 then .ok (groups 2 xs) else .error .typeError
  | .rows int k rs =>
    if k = 2 ∨ k = 3 then .ok (rs.map (fun r => r.take 2))
    else if k = 4 then
      if int then .error .typeError
      else .ok (rs.map (fun r => (r.take 2).map (fun x => x / (r[3]?.getD 1))))
    else .error .typeError

/-- to_vec3 (vec234.py:221-262). Integer results are truncated. -/
def toVec3 : VecIn → Except Err Rows
  | .flat xs => if xs.length % 3 = 0 then .ok (groups 3 xs) else .error .typeError
  | .rows int k rs =>
    if k = 2 then .ok (rs.map (fun r => r ++ [0]))
    else if k = 3 then .ok rs
    else if k = 4 then .ok (rs.map (fun r => (r.take 3).map (fun x =>
      if int then truncQ (x / (r[3]?.getD 1)) else x / (r[3]?.getD 1))))
    else .error .typeError

/-- to_vec4 (vec234.py:365-408). -/
def toVec4 : VecIn → Except Err Rows
  | .flat xs => if xs.length % 4 = 0 then .ok (groups 4 xs) else .error .typeError
  | .rows _ k rs =>
    if k = 2 then .ok (rs.map (fun r => r ++ [0, 1]))
    else if k = 3 then .ok (rs.map (fun r => r ++ [1]))
    else if k = 4 then .ok rs
    else .error .typeError

end Verif
