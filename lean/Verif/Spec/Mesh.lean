import Verif.Model.Mesh
/-
Wavefront files: what the lines of a mesh say.
-/

namespace Verif

/-- A corner of a face: numbers, counted from 1, of a vertex and possibly of a texture coordinate and
of a normal. -/
structure Corner where
  v : Int
  t : Option Int := none
  n : Option Int := none
deriving DecidableEq

/-- A line. -/
inductive ObjRecord (K : Type) where
  | vertex (x y z : K)
  | texcoord (u v : K)
  | normal (x y z : K)
  | face (corners : List Corner)
  | comment (text : Text)
  | blank

/-- How numbers are spelled. -/
structure Spelling (K : Type) where
  num : K → Text
  int : Int → Text

/-- A word of a line. -/
def IsWord (t : Text) : Prop := t ≠ [] ∧ ∀ c ∈ t, isSpace c = false

/-- Spelled numbers are words, indices without a stroke, and are read back; the empty text is no
integer. -/
structure Spelling.OK {K : Type} (S : Spelling K) (num : Text → Option K) (idx : Text → Option Int) :
    Prop where
  word : ∀ x, IsWord (S.num x)
  read : ∀ x, num (S.num x) = some x
  iword : ∀ n, IsWord (S.int n) ∧ '/' ∉ S.int n
  iread : ∀ n, idx (S.int n) = some n
  empty : idx [] = none

/-- `v`, `v/t`, `v//n` or `v/t/n`. -/
def Spelling.corner {K : Type} (S : Spelling K) (c : Corner) : Text :=
  joinText '/' (S.int c.v :: (match c.t, c.n with
    | none, none => []
    | some t, none => [S.int t]
    | none, some n => [[], S.int n]
    | some t, some n => [S.int t, S.int n]))

/-- The line of a record. -/
def Spelling.line {K : Type} (S : Spelling K) : ObjRecord K → Text
  | .vertex x y z => joinText ' ' [['v'], S.num x, S.num y, S.num z] ++ ['\n']
  | .texcoord u v => joinText ' ' [['v', 't'], S.num u, S.num v] ++ ['\n']
  | .normal x y z => joinText ' ' [['v', 'n'], S.num x, S.num y, S.num z] ++ ['\n']
  | .face cs => joinText ' ' (['f'] :: cs.map S.corner) ++ ['\n']
  | .comment t => '#' :: (t ++ ['\n'])
  | .blank => ['\n']

/-- The vertices of a file. -/
def vertexList {K : Type} (rs : List (ObjRecord K)) : List (List K) :=
  rs.filterMap (fun r => match r with | .vertex x y z => some [x, y, z] | _ => none)

/-- Its texture coordinates. -/
def texcoordList {K : Type} (rs : List (ObjRecord K)) : List (List K) :=
  rs.filterMap (fun r => match r with | .texcoord u v => some [u, v] | _ => none)

/-- Its normals. -/
def normalList {K : Type} (rs : List (ObjRecord K)) : List (List K) :=
  rs.filterMap (fun r => match r with | .normal x y z => some [x, y, z] | _ => none)

/-- Its faces. -/
def faceList {K : Type} (rs : List (ObjRecord K)) : List (List Corner) :=
  rs.filterMap (fun r => match r with | .face cs => some cs | _ => none)

end Verif
