import Verif.Model.Py
import Mathlib.Order.Lattice
import Mathlib.Data.List.MinMax
/-
Point clouds: examples/lidar-point-cloud.py. The numbers are of a linear order; reading the file, which
divides the colours by 255, is left out.
-/

namespace Verif

variable {K C : Type} [LinearOrder K]

/-- A point. -/
abbrev CloudPt (K : Type) := K × K × K

/-- `P[:, axis].min()`; of no numbers it raises ValueError. -/
def colMin : List K → Except Err K
  | [] => .error .valueError
  | x :: xs => .ok (xs.foldl min x)

/-- `P[:, axis].max()`. -/
def colMax : List K → Except Err K
  | [] => .error .valueError
  | x :: xs => .ok (xs.foldl max x)

/-- The bounds of one direction, `None` replaced by the extreme of the points (lines 70-81). -/
def axisBounds (lo hi : Option K) (xs : List K) : Except Err (K × K) := do
  let a ← match lo with
    | some a => .ok a
    | none => colMin xs
  let b ← match hi with
    | some b => .ok b
    | none => colMax xs
  return (a, b)

/-- point_cloud_crop (lines 43-91). `P[mask], C[mask]` raises IndexError when the colours are not as
many as the points. -/
def cloudCrop (x y z : Option K × Option K) (points : List (CloudPt K)) (colors : List C) :
    Except Err (List (CloudPt K) × List C) := do
  let bx ← axisBounds x.1 x.2 (points.map (·.1))
  let bY ← axisBounds y.1 y.2 (points.map (·.2.1))
  let bz ← axisBounds z.1 z.2 (points.map (·.2.2))
  let inside : CloudPt K → Bool := fun p =>
    (bx.1 < p.1 && p.1 < bx.2) && (bY.1 < p.2.1 && p.2.1 < bY.2) && (bz.1 < p.2.2 && p.2.2 < bz.2)
  if colors.length = points.length then
    let mask := points.map inside
    return (((points.zip mask).filter (·.2)).map (·.1), ((colors.zip mask).filter (·.2)).map (·.1))
  else .error .indexError

/-- point_cloud_downsample (lines 107-135). `choice` is what `np.random.choice(n, size, replace=False)`
gives; it raises ValueError for negative sizes. An index without a colour raises IndexError. -/
def cloudDownsample (choice : Nat → Nat → List Nat) (wished : Option Int) (points : List (CloudPt K))
    (colors : List C) : Except Err (List (CloudPt K) × List C) :=
  match wished with
  | none => .ok (points, colors)
  | some n =>
    if (points.length : Int) ≤ n then .ok (points, colors)
    else if n < 0 then .error .valueError
    else
      let idx := choice points.length n.toNat
      match idx.mapM (fun i => points[i]?), idx.mapM (fun i => colors[i]?) with
      | some ps, some cs => .ok (ps, cs)
      | _, _ => .error .indexError

end Verif
