import Verif.Model.Py
import Verif.Model.Glm
import Mathlib.Algebra.Order.Field.Rat
/-
The meshes of gsp_matplotlib/glm/shapes.py and `frontback` of gsp_matplotlib/glm/glm.py.

Simplifications: real numbers instead of floats, except for `frontback`, whose coordinates are
rationals; the numbers of slices and stacks are natural numbers.
-/

namespace Verif

/-- `np.linspace(0, stop, num, endpoint=True)`. -/
noncomputable def linspace (stop : ℝ) (num : Nat) : List ℝ :=
  (List.range num).map (fun k : Nat => (k : ℝ) * stop / ((num : ℝ) - 1))

/-- The triples of a list whose length is a multiple of 3 (`reshape(len(indices)//3, 3)`). -/
def triples : List Nat → List (Nat × Nat × Nat)
  | a :: b :: c :: l => (a, b, c) :: triples l
  | _ => []

/-- The vertices of sphere (shapes.py:18-27), with `sl` slices and `st` stacks. -/
noncomputable def sphereVerts (radius : ℝ) (sl st : Nat) : List V3 :=
  let slices := sl + 1
  let rings := st + 1
  let theta1 := (linspace Real.pi rings).flatMap (fun t => List.replicate slices t)
  let theta2 := (List.replicate rings (linspace (2 * Real.pi) slices)).flatten
  List.zipWith (fun t1 t2 =>
    ⟨Real.sin t1 * Real.sin t2 * radius, Real.sin t1 * Real.cos t2 * radius,
      Real.cos t1 * radius⟩) theta1 theta2

/-- The indices of sphere (shapes.py:29-39). -/
def sphereIndices (sl st : Nat) : List Nat :=
  let slices := sl + 1
  let rings := st + 1
  (List.range (rings - 1)).flatMap (fun i => (List.range (slices - 1)).flatMap (fun j =>
    [i * slices + j, i * slices + j + 1, i * slices + j + slices + 1,
     i * slices + j + slices + 1, i * slices + j + slices, i * slices + j]))

/-- The faces of sphere (shapes.py:40-41). -/
def sphereFaces (sl st : Nat) : List (Nat × Nat × Nat) :=
  triples (sphereIndices sl st)

/-- The faces of cube (shapes.py:12). -/
def cubeFaces : List (List Nat) :=
  [[0, 1, 2, 3], [4, 5, 6, 7], [0, 1, 5, 4], [1, 2, 6, 5], [2, 3, 7, 6], [3, 0, 4, 7]]

/-- The vertices of cube (shapes.py:10-13). -/
noncomputable def cubeVerts : List V3 :=
  ([⟨0, 0, 0⟩, ⟨1, 0, 0⟩, ⟨1, 0, 1⟩, ⟨0, 0, 1⟩,
    ⟨0, 1, 0⟩, ⟨1, 1, 0⟩, ⟨1, 1, 1⟩, ⟨0, 1, 1⟩] : List V3).map (fun v =>
      ⟨(v.x - 1 / 2) / Real.sqrt 2, (v.y - 1 / 2) / Real.sqrt 2, (v.z - 1 / 2) / Real.sqrt 2⟩)

/-- The faces of tetrahedron (shapes.py:53). -/
def tetraFaces : List (List Nat) := [[1, 2, 3], [1, 2, 0], [2, 3, 0], [3, 1, 0]]

/-- The vertices of tetrahedron (shapes.py:48-52). -/
noncomputable def tetraVerts : List V3 :=
  let a := 2 * Real.pi / 3
  [⟨0, 1 / 2, 0⟩,
   ⟨1 / 2 * Real.cos (0 * a), -(1 / 4), 1 / 2 * Real.sin (0 * a)⟩,
   ⟨1 / 2 * Real.cos (1 * a), -(1 / 4), 1 / 2 * Real.sin (1 * a)⟩,
   ⟨1 / 2 * Real.cos (2 * a), -(1 / 4), 1 / 2 * Real.sin (2 * a)⟩]

/-- The faces of octahedron (shapes.py:62-63). -/
def octaFaces : List (List Nat) :=
  [[2, 3, 0], [3, 4, 0], [4, 5, 0], [5, 2, 0], [3, 2, 1], [4, 3, 1], [5, 4, 1], [2, 5, 1]]

/-- The vertices of octahedron (shapes.py:59-61). -/
noncomputable def octaVerts : List V3 :=
  let r := 1 / 2 * 1 / Real.sqrt 2
  [⟨0, 1 / 2, 0⟩, ⟨0, -(1 / 2), 0⟩, ⟨-r, 0, -r⟩, ⟨r, 0, -r⟩, ⟨r, 0, r⟩, ⟨-r, 0, r⟩]

/-- The faces of dodecahedron, as listed (shapes.py:75-86), and less one (shapes.py:92). -/
def dodecaFaces : List (List Nat) :=
  ([[19, 3, 2], [12, 19, 2], [15, 12, 2],
    [8, 14, 2], [18, 8, 2], [3, 18, 2],
    [20, 5, 4], [9, 20, 4], [16, 9, 4],
    [13, 17, 4], [1, 13, 4], [5, 1, 4],
    [7, 16, 4], [6, 7, 4], [17, 6, 4],
    [6, 15, 2], [7, 6, 2], [14, 7, 2],
    [10, 18, 3], [11, 10, 3], [19, 11, 3],
    [11, 1, 5], [10, 11, 5], [20, 10, 5],
    [20, 9, 8], [10, 20, 8], [18, 10, 8],
    [9, 16, 7], [8, 9, 7], [14, 8, 7],
    [12, 15, 6], [13, 12, 6], [17, 13, 6],
    [13, 1, 11], [12, 13, 11], [19, 12, 11]] : List (List Nat)).map (List.map (· - 1))

/-- The vertices of dodecahedron (shapes.py:69-74 and 91). -/
noncomputable def dodecaVerts : List V3 :=
  let r := (1 + Real.sqrt 5) / 2
  ([⟨-1, -1, 1⟩, ⟨r, 1 / r, 0⟩, ⟨r, -1 / r, 0⟩, ⟨-r, 1 / r, 0⟩,
    ⟨-r, -1 / r, 0⟩, ⟨0, r, 1 / r⟩, ⟨0, r, -1 / r⟩, ⟨1 / r, 0, -r⟩,
    ⟨-1 / r, 0, -r⟩, ⟨0, -r, -1 / r⟩, ⟨0, -r, 1 / r⟩, ⟨1 / r, 0, r⟩,
    ⟨-1 / r, 0, r⟩, ⟨1, 1, -1⟩, ⟨1, 1, 1⟩, ⟨-1, 1, -1⟩,
    ⟨-1, 1, 1⟩, ⟨1, -1, -1⟩, ⟨1, -1, 1⟩, ⟨-1, -1, -1⟩] : List V3).map (fun v =>
      ⟨v.x / Real.sqrt 3 / 2, v.y / Real.sqrt 3 / 2, v.z / Real.sqrt 3 / 2⟩)

/-- The faces of icosahedron (shapes.py:103-106), which are computed before the exception. -/
def icosaFaces : List (List Nat) :=
  [[0, 11, 5], [0, 5, 1], [0, 1, 7], [0, 7, 10], [0, 10, 11],
   [1, 5, 9], [5, 11, 4], [11, 10, 2], [10, 7, 6], [7, 1, 8],
   [3, 9, 4], [3, 4, 2], [3, 2, 6], [3, 6, 8], [3, 8, 9],
   [4, 9, 5], [2, 4, 11], [6, 2, 10], [8, 6, 7], [9, 8, 1]]

/-- The polyhedra of the module, by name; `icosahedron` uses the name `uint32`, which is not
defined there (shapes.py:108). -/
inductive Shape where
  | cube | tetrahedron | octahedron | dodecahedron | icosahedron
deriving DecidableEq

@[inherit_doc Shape]
noncomputable def shapeMesh : Shape → Except Err (List V3 × List (List Nat))
  | .cube => .ok (cubeVerts, cubeFaces)
  | .tetrahedron => .ok (tetraVerts, tetraFaces)
  | .octahedron => .ok (octaVerts, octaFaces)
  | .dodecahedron => .ok (dodecaVerts, dodecaFaces)
  | .icosahedron => .error .nameError

/-! ### frontback -/

/-- A triangle of points with two coordinates (others are not read). -/
structure Tri where
  a : ℚ × ℚ
  b : ℚ × ℚ
  c : ℚ × ℚ
deriving DecidableEq

/-- Z (glm.py:556-558). -/
def triZ (t : Tri) : ℚ :=
  (t.b.1 - t.a.1) * (t.b.2 + t.a.2) + (t.c.1 - t.b.1) * (t.c.2 + t.b.2) +
    (t.a.1 - t.c.1) * (t.a.2 + t.c.2)

/-- frontback (glm.py:543-559): two arrays of booleans. -/
def frontback (ts : List Tri) : List Bool × List Bool :=
  (ts.map (fun t => decide (triZ t < 0)), ts.map (fun t => decide (triZ t ≥ 0)))

end Verif
