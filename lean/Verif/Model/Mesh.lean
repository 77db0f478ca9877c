import Verif.Model.Glm
import Verif.Model.Dtype
/-
The functions of gsp_matplotlib/glm/glm.py that are not matrices: mesh, normalize (in Glm), clamp, fit,
center; and camera, which multiplies matrices.
-/

namespace Verif

/-! ### Reading a mesh (glm.py:7-38) -/

/-- The spaces of `str.split` (those of ASCII). -/
def isSpace (c : Char) : Bool :=
  c = ' ' || c = '\t' || c = '\n' || c = '\r' || c = Char.ofNat 11 || c = Char.ofNat 12

/-- Cutting at every space. -/
def splitSpace : List Char → List (List Char)
  | [] => [[]]
  | a :: s =>
    if isSpace a then [] :: splitSpace s
    else match splitSpace s with
      | [] => [[a]]
      | w :: ws => (a :: w) :: ws

/-- `s.split()`. -/
def words (s : List Char) : List (List Char) := (splitSpace s).filter (· ≠ [])

/-- The lists V, T, N, Vi, Ti, Ni of line 13. -/
structure ObjData (K : Type) where
  V : List (List K) := []
  T : List (List K) := []
  N : List (List K) := []
  Vi : List (List Int) := []
  Ti : List (List Int) := []
  Ni : List (List Int) := []
deriving DecidableEq

/-- `int(indices.split('/')[i])`; `none` stands for the exceptions IndexError and ValueError. -/
def facePart (idx : Text → Option Int) (i : Nat) (t : Text) : Option Int :=
  ((splitChars '/' t)[i]?).bind idx

/-- One line of the file (lines 16-36). `num` and `idx` are `float` and `int` on texts, which raise
ValueError where they give `none`. The first part of an index always exists; the exceptions of
the other two are caught. -/
def objLine {K : Type} (num : Text → Option K) (idx : Text → Option Int) (d : ObjData K)
    (line : Text) : Except Err (ObjData K) :=
  if line.head? = some '#' then .ok d
  else match words line with
    | [] => .ok d
    | key :: vals =>
      if key = ['v'] then
        match (vals.take 3).mapM num with
        | none => .error .valueError
        | some r => .ok { d with V := d.V ++ [r] }
      else if key = ['v', 't'] then
        match (vals.take 2).mapM num with
        | none => .error .valueError
        | some r => .ok { d with T := d.T ++ [r] }
      else if key = ['v', 'n'] then
        match (vals.take 3).mapM num with
        | none => .error .valueError
        | some r => .ok { d with N := d.N ++ [r] }
      else if key = ['f'] then
        match vals.mapM (facePart idx 0) with
        | none => .error .valueError
        | some r => .ok { d with
            Vi := d.Vi ++ [r]
            Ti := d.Ti ++ (vals.mapM (facePart idx 1)).toList
            Ni := d.Ni ++ (vals.mapM (facePart idx 2)).toList }
      else .ok d

/-- The loop over the lines. -/
def readObj {K : Type} (num : Text → Option K) (idx : Text → Option Int) (lines : List Text) :
    Except Err (ObjData K) :=
  lines.foldlM (objLine num idx) {}

/-- Whether `np.array` accepts lists as rows: they have the same length. -/
def sameLengths {α : Type} (rows : List (List α)) : Prop := ∀ r ∈ rows, ∀ s ∈ rows, r.length = s.length

instance {α : Type} (rows : List (List α)) : Decidable (sameLengths rows) := by
  unfold sameLengths; exact inferInstance

/-- fit (glm.py:298-314): the minimum of no vertex raises ValueError; then the name `Vmin`, which is
not defined, is evaluated. -/
def glmFit {K : Type} (V : List (List K)) : Except Err (List (List K)) :=
  if V = [] then .error .valueError else .error .nameError

/-- center (glm.py:349-363): the name `V` is not defined. -/
def glmCenter {K : Type} (V : List (List K)) : Except Err (List (List K)) :=
  if V = [] then .error .valueError else .error .nameError

/-- mesh (glm.py:7-38) on the lines of a file. Lists of different lengths make `np.array` raise
ValueError. -/
def glmMesh {K : Type} (num : Text → Option K) (idx : Text → Option Int) (lines : List Text) :
    Except Err (List (List K) × List (List Int)) :=
  match readObj num idx lines with
  | .error e => .error e
  | .ok d =>
    if sameLengths d.V then
      match glmFit d.V with
      | .error e => .error e
      | .ok W => if sameLengths d.Vi then .ok (W, d.Vi.map (·.map (· - 1))) else .error .valueError
    else .error .valueError

/-! ### camera (glm.py:562-572) -/

/-- An argument of scale or translate. -/
inductive NumArg where
  | number (x : ℝ)
  | list (l : List ℝ)

/-- `x, y, z = np.array(v)` (glm.py:285, 336): a number cannot be unpacked. -/
def unpack3 : NumArg → Except Err (ℝ × ℝ × ℝ)
  | .number _ => .error .typeError
  | .list [x, y, z] => .ok (x, y, z)
  | .list _ => .error .valueError

/-- camera. `scale` and `translate` take a vector and get numbers; the second and third arguments are
taken for `dtype` and `transpose`, and not looked at before the first is unpacked. -/
noncomputable def glmCamera (xrotation yrotation zoom : ℝ) (mode : String) :
    Except Err (Mat4 ℝ) :=
  let xr := min (max xrotation 0) 90
  let yr := min (max yrotation 0) 90
  let z := max (1 / 10) zoom
  match unpack3 (.number z) with
  | .error e => .error e
  | .ok (a, b, c) =>
    match unpack3 (.number 0) with
    | .error e => .error e
    | .ok (x, y, w) =>
      .ok ((if mode = "ortho" then glmOrtho (-1) 1 (-1) 1 1 100 else glmPerspective 25 1 1 100) *
        glmTranslate x y w * (glmScale a b c * glmXrotate xr * glmYrotate yr))

/-! ### clamp -/

/-- clamp (glm.py:46-49) on each number. -/
def glmClamp {K : Type} [LinearOrder K] (vmin vmax v : K) : K := min (max v vmin) vmax

end Verif
