import Verif.Model.Visual
/-
Ragged arrays, `glm.vlist` (gsp_matplotlib/glm/ndarray/ragged.py).

Simplifications: the elements are of any type (numpy would bring them to a common one); numpy
integers given as item size, which are not instances of `int`, are left out.
-/

namespace Verif

/-- A ragged array: `_data` and the rows (start, stop) of `_items` (ragged.py:85-91). -/
structure Ragged (α : Type) where
  data : List α
  items : List (Int × Int)
deriving DecidableEq

variable {α : Type}

/-- `_items` from the sizes, by cumulative sums (ragged.py:88-91). -/
def cumItems : Int → List Int → List (Int × Int)
  | _, [] => []
  | start, n :: ns => (start, start + n) :: cumItems (start + n) ns

/-- From data and sizes (ragged.py:80-91). -/
def raggedSizes (data : List α) (sizes : List Int) : Except Err (Ragged α) :=
  if sizes.sum ≠ data.length then .error .valueError
  else .ok ⟨data, cumItems 0 sizes⟩

/-- From data and one size (ragged.py:75-79). A negative count of ones raises ValueError, and
the count 0 divides by zero. -/
def raggedSize (data : List α) (size : Int) : Except Err (Ragged α) :=
  if size = 0 then .error .zeroDivision
  else if Int.fmod data.length size ≠ 0 then .error .valueError
  else
    let count := Int.fdiv data.length size
    if count < 0 then .error .valueError
    else if count = 0 then .error .zeroDivision
    else .ok ⟨data, cumItems 0 (List.replicate count.toNat (Int.fdiv data.length count))⟩

/-- From data alone (ragged.py:72-73). -/
def raggedData (data : List α) : Except Err (Ragged α) := raggedSize data data.length

/-- From a list of lists (ragged.py:64-69); `data[0]` of an empty list raises. -/
def raggedLists (ls : List (List α)) : Except Err (Ragged α) :=
  if ls = [] then .error .indexError
  else raggedSizes ls.flatten (ls.map (fun l => (l.length : Int)))

/-- The keys: an integer, a slice with a positive step, or a list or tuple of integers. -/
inductive RKey where
  | int (i : Int)
  | slice (a b : Int) (step : Nat)
  | list (is : List Int)
deriving DecidableEq

/-- Every `step`-th item. -/
def everyNth {β : Type} (step : Nat) (xs : List β) : List β :=
  (List.range xs.length).filterMap (fun i => if i % step = 0 then xs[i]? else none)

/-- `indices.min(), indices.max()` over some rows (ragged.py:105, 119); of nothing they raise. -/
def rowsRange (rows : List (Int × Int)) : Except Err (Int × Int) :=
  match rows.flatMap (fun r => [r.1, r.2]) with
  | [] => .error .valueError
  | x :: xs => .ok (xs.foldl min x, xs.foldl max x)

/-- The rows of `_items[key]` for an integer or a slice. -/
def keyRows (items : List (Int × Int)) : RKey → Except Err (List (Int × Int))
  | .int i => do return [← npGet items i]
  | .slice a b step => .ok (everyNth step (pySlice items a b))
  | .list _ => .ok []

/-- `list(range(start, stop))`. -/
def rowIndices (r : Int × Int) : List Int :=
  (List.range (r.2 - r.1).toNat).map (fun i : Nat => r.1 + i)

/-- The indices of all the items of a list key (ragged.py:98-101). -/
def keyIndices (items : List (Int × Int)) (is : List Int) : Except Err (List Int) := do
  let rows ← is.mapM (npGet items)
  return rows.flatMap rowIndices

/-- `__getitem__` (ragged.py:94-106). -/
def Ragged.get (r : Ragged α) (key : RKey) : Except Err (List α) :=
  match key with
  | .list is => do
    let ix ← keyIndices r.items is
    ix.mapM (npGet r.data)
  | _ => do
    let (start, stop) ← rowsRange (← keyRows r.items key)
    return pySlice r.data start stop

/-- `value` stretched to `n` items, as numpy does. -/
def stretch (n : Nat) (value : List α) : Except Err (List α) :=
  if value.length = n then .ok value
  else match value with
    | [x] => .ok (List.replicate n x)
    | _ => .error .valueError

/-- `data[start:stop] = value`. -/
def writeSlice (data : List α) (start stop : Int) (value : List α) : Except Err (List α) := do
  let n : Int := data.length
  let clamp := fun i : Int => if i < 0 then max 0 (i + n) else min i n
  let a := (clamp start).toNat
  let b := (clamp stop).toNat
  let v ← stretch (b - a) value
  return data.take a ++ v ++ data.drop (max a b)

/-- `data[indices] = value`. -/
def writeIndices (data : List α) (ix : List Int) (value : List α) : Except Err (List α) := do
  let v ← stretch ix.length value
  (ix.zip v).foldlM (fun d iv => do
    let _ ← npGet d iv.1
    let j : Int := if iv.1 < 0 then iv.1 + d.length else iv.1
    return d.set j.toNat iv.2) data

/-- `__setitem__` (ragged.py:108-120). -/
def Ragged.set (r : Ragged α) (key : RKey) (value : List α) : Except Err (Ragged α) :=
  match key with
  | .list is => do
    let ix ← keyIndices r.items is
    let d ← writeIndices r.data ix value
    return { r with data := d }
  | _ => do
    let (start, stop) ← rowsRange (← keyRows r.items key)
    let d ← writeSlice r.data start stop value
    return { r with data := d }

/-- `__len__` (ragged.py:148-150) and `itemsize` (ragged.py:133-136). -/
def Ragged.len (r : Ragged α) : Nat := r.items.length

@[inherit_doc Ragged.len]
def Ragged.itemsize (r : Ragged α) : List Int := r.items.map (fun x => x.2 - x.1)

end Verif
