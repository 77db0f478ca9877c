import Mathlib.Data.Matrix.Mul
import Mathlib.Data.Fin.VecNotation
import Mathlib.Algebra.Order.Field.Rat
import Verif.Model.Visual
/-
The depths that elements are sorted by, as floats compute them (gsp/visual/visual.py:119,
gsp_matplotlib/visual/points.py:65-70, markers.py:118-123, segments.py:64-70, paths.py:79-109,
polygons.py:75-105).

Every operation is followed by a rounding `fl`, which is a parameter. The order in which numpy adds up, and
where it multiplies and adds with one rounding, are parameters too, for each sum. Simplification: no overflow
and no nan.
-/

namespace Verif

/-- The order in which terms are added up. -/
inductive AddTree (ι : Type) where
  | leaf (i : ι)
  | add (a b : AddTree ι)

/-- The sum of the terms `f`, every addition being rounded. -/
def AddTree.eval {ι : Type} (fl : ℚ → ℚ) (f : ι → ℚ) : AddTree ι → ℚ
  | .leaf i => f i
  | .add a b => fl (a.eval fl f + b.eval fl f)

/-- How one product of a row and a column is computed: the order of the sum, and the products that are not
rounded before they are added. -/
structure DotWay where
  tree : AddTree (Fin 4)
  fused : Fin 4 → Bool

/-- One product of a row and a column. -/
def DotWay.dot (fl : ℚ → ℚ) (way : DotWay) (a b : Fin 4 → ℚ) : ℚ :=
  way.tree.eval fl (fun i => if way.fused i then a i * b i else fl (a i * b i))

/-- `A @ B`. -/
def mulRounded (fl : ℚ → ℚ) (way : Fin 4 → Fin 4 → DotWay) (A B : Matrix (Fin 4) (Fin 4) ℚ) :
    Matrix (Fin 4) (Fin 4) ℚ :=
  fun i j => (way i j).dot fl (A i) (fun k => B k j)

/-- How all sums of a rendering are computed: those of `proj @ view`, of the product with `model`, of the
product of each vertex with the result, and of the mean of each element. -/
structure RenderWay where
  projView : Fin 4 → Fin 4 → DotWay
  all : Fin 4 → Fin 4 → DotWay
  vertex : Nat → Fin 4 → DotWay
  mean : Nat → AddTree Nat

/-- The matrices given to `render` and the vertices of the visual, as many as are used. -/
structure RScene where
  proj : Matrix (Fin 4) (Fin 4) ℚ
  view : Matrix (Fin 4) (Fin 4) ℚ
  model : Matrix (Fin 4) (Fin 4) ℚ
  vertex : Nat → ℚ × ℚ × ℚ

/-- `to_vec4` (glm/vec234.py:400-403). -/
def RScene.vec4 (s : RScene) (n : Nat) : Fin 4 → ℚ :=
  ![(s.vertex n).1, (s.vertex n).2.1, (s.vertex n).2.2, 1]

/-- The depth of the vertex `n`: `proj @ view @ model` (visual.py:119), the product with the vertex
(points.py:65), and `z/w` (glm/vec234.py:258-260). -/
def RScene.depthRounded (fl : ℚ → ℚ) (way : RenderWay) (s : RScene) (n : Nat) : ℚ :=
  let T := mulRounded fl way.all (mulRounded fl way.projView s.proj s.view) s.model
  fl ((way.vertex n 2).dot fl (T 2) (s.vec4 n) / (way.vertex n 3).dot fl (T 3) (s.vec4 n))

/-- The keys by which the first `count` vertices are sorted as points or markers (points.py:69-70,
markers.py:122-123). -/
def RScene.pointKeys (fl : ℚ → ℚ) (way : RenderWay) (s : RScene) (count : Nat) : List ℚ :=
  (List.range count).map (fun n => fl (1 - s.depthRounded fl way n))

/-- The keys by which segments, paths or polygons are sorted, each element being the list of the numbers of its
vertices (segments.py:69-70, paths.py:108-109, polygons.py:104-105): minus the mean of the depths, that is,
their sum divided by their number. -/
def RScene.groupKeys (fl : ℚ → ℚ) (way : RenderWay) (s : RScene) (elements : List (List Nat)) : List ℚ :=
  elements.mapIdx (fun k e =>
    -fl ((way.mean k).eval fl (fun i => (e.map (s.depthRounded fl way)).getD i 0) / e.length))

end Verif
