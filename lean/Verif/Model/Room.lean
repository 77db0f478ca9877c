import Verif.Model.Visual
import Verif.Model.Py
/-
The arrays a visual sets apart for its outputs when it is made, and what rendering writes into them
(gsp/visual/*.py, gsp_matplotlib/visual/*.py). Only the shapes are modelled.
-/

namespace Verif

/-- `target[...] = value` for arrays of shapes given from the last axis to the first (numpy): equal axes,
axes of the value of size 1, axes of size 1 in excess. -/
def assignRev : List Nat → List Nat → Bool
  | _, [] => true
  | [], v => v.all (· = 1)
  | t :: ts, v :: vs => (v = t || v = 1) && assignRev ts vs

/-- `out[name][...] = value` (gsp/visual/visual.py:43-44). -/
def assignShape (target value : List Nat) : Except Err Unit :=
  if assignRev target.reverse value.reverse then .ok () else .error .valueError

/-- `len` of an array of some shape. -/
def shapeLen : List Nat → Except Err Nat
  | [] => .error .typeError
  | n :: _ => .ok n

/-- What Paths and Polygons can be given for indices: one size, an array of sizes, a Python list of lists
of indices, a `glm.vlist` of them, a List of gsp with sizes in a buffer or (`none`) one size, or a
transform that evaluates to an array of sizes. -/
inductive IndexForm where
  | int (size : Int)
  | array (sizes : List Int)
  | list (ixs : List (List Int))
  | vlist (ixs : List (List Int))
  | gspList (count : Option Nat)
  | transform (sizes : List Int)
deriving DecidableEq

/-- The shapes of "screen[positions]" and of "screen[segments]", "screen[paths]" or "screen[polygons]". -/
structure Room where
  positions : List Nat
  items : Option (List Nat)
deriving DecidableEq

/-- The number of paths or polygons (gsp/visual/paths.py:159-163, gsp/visual/polygons.py:154-158). `numpy`
makes no array of negative size; `len` of a List with one size evaluates the name `data`, which does not
exist (gsp/core/list.py:40-46); transforms have no `len`. -/
def pieceRoom (n : Nat) : IndexForm → Except Err Nat
  | .int size =>
    if size = 0 then .error .zeroDivision
    else if Int.fdiv n size < 0 then .error .valueError
    else .ok (Int.fdiv n size).toNat
  | .array ns => .ok ns.length
  | .list ixs => .ok ixs.length
  | .vlist ixs => .ok ixs.length
  | .gspList (some k) => .ok k
  | .gspList none => .error .nameError
  | .transform _ => .error .typeError

/-- The constructors, given the shape of the positions (of what they evaluate to, for Segments, Paths and
Polygons): gsp/visual/points.py:85-92, markers.py:101-111, pixels.py:70-73, segments.py:80-90,
paths.py:153-171, polygons.py:148-167. -/
def makeRoom (k : VKind) (shape : List Nat) (ix : IndexForm) : Except Err Room := do
  let n ← shapeLen shape
  match k with
  | .segments => return ⟨[n, 2, 3], some [n]⟩
  | .paths | .polygons =>
    let m ← pieceRoom n ix
    return ⟨[n, 3], some [m, 3]⟩
  | _ => return ⟨[n, 3], none⟩

/-- `positions.reshape(-1,3)`: the number of rows. -/
def reshapeRows (shape : List Nat) : Except Err Nat :=
  if shape.prod % 3 = 0 then .ok (shape.prod / 3) else .error .valueError

/-- `eval_variable("indices")` and the cutting of `m` vertices (gsp_matplotlib/visual/paths.py:82-104,
polygons.py:78-100): the vertices of each piece. `eval_variable` makes an array of a `glm.vlist`
(gsp/visual/visual.py:87, ragged.py:159-160), which is then taken for sizes; a List cannot be iterated
over. -/
def pieces (m : Nat) : IndexForm → Except Err (List (List Nat))
  | .int size => cutPaths (List.range m) (.size size)
  | .array ns => cutPaths (List.range m) (.sizes ns)
  | .list ixs => cutPaths (List.range m) (.lists ixs)
  | .vlist ixs => cutPaths (List.range m) (.sizes ixs.flatten)
  | .gspList _ => .error .typeError
  | .transform ns => cutPaths (List.range m) (.sizes ns)

/-- The shape of the array made of a list of points. -/
def pointsShape (count : Nat) : List Nat := if count = 0 then [0] else [count, 3]

/-- The number of rows that `to_vec4` makes of an array (vec234.py:365-408). -/
def vec4Rows : List Nat → Except Err Nat
  | [n] => if n % 4 = 0 then .ok (n / 4) else .error .typeError
  | [n, k] => if k = 2 ∨ k = 3 ∨ k = 4 then .ok n else .error .typeError
  | _ => .error .typeError

/-- Rendering, up to the writing of the outputs: the vertices of each element that is drawn
(points.py:63-72, markers.py:103-125, pixels.py:69-75, segments.py:62-74, paths.py:77-113,
polygons.py:73-109). Pixels do not reshape their positions. Exceptions of the attributes are left out. -/
def drawRoom (k : VKind) (room : Room) (shape : List Nat) (ix : IndexForm) :
    Except Err (List (List Nat)) :=
  match k with
  | .pixels => do
    let m ← vec4Rows shape
    assignShape room.positions [m, 3]
    return (List.range m).map (fun i => [i])
  | .points | .markers => do
    let m ← reshapeRows shape
    assignShape room.positions [m, 3]
    return (List.range m).map (fun i => [i])
  | .segments => do
    let m ← reshapeRows shape
    if m % 2 ≠ 0 then .error .valueError
    else
      assignShape room.positions [m / 2, 2, 3]
      assignShape (room.items.getD []) [m / 2]
      return (List.range (m / 2)).map (fun i => [2 * i, 2 * i + 1])
  | .paths | .polygons => do
    let m ← reshapeRows shape
    let ps ← pieces m ix
    assignShape room.positions [m, 3]
    assignShape (room.items.getD []) (pointsShape ps.length)
    return ps

/-- Making a visual and rendering it. -/
def madeAndDrawn (k : VKind) (shape : List Nat) (ix : IndexForm) : Except Err (List (List Nat)) := do
  let room ← makeRoom k shape ix
  drawRoom k room shape ix

end Verif
