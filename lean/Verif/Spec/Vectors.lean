import Verif.Model.Vectors
import Verif.Model.Dtype
/-
What the names of vector and matrix constructors mean, and what their documentation says.
-/

namespace Verif

/-- The letters of types: booleans and bytes, integers, unsigned integers, half precision, double
precision. -/
def typeLetter (c : Char) : Option NumType :=
  if c = 'b' then some ⟨'u', 1⟩ else if c = 'i' then some ⟨'i', 4⟩
  else if c = 'u' then some ⟨'u', 4⟩ else if c = 'h' then some ⟨'f', 2⟩
  else if c = 'd' then some ⟨'f', 8⟩ else none

/-- `vecN` has `N` components, `matN` is `N` by `N`. -/
def formOf (s : List Char) : Option (List Nat) :=
  if s = ['v', 'e', 'c', '2'] then some [2] else if s = ['v', 'e', 'c', '3'] then some [3]
  else if s = ['v', 'e', 'c', '4'] then some [4] else if s = ['m', 'a', 't', '2'] then some [2, 2]
  else if s = ['m', 'a', 't', '3'] then some [3, 3] else if s = ['m', 'a', 't', '4'] then some [4, 4]
  else none

/-- The meaning of a name: single precision without a letter, else as the letter says; `byte`,
`ubyte` and `float` are scalars. -/
def nameMeans (name : String) : Option (List Nat × NumType) :=
  if name = "byte" then some ([], ⟨'i', 1⟩)
  else if name = "ubyte" then some ([], ⟨'u', 1⟩)
  else if name = "float" then some ([], ⟨'f', 4⟩)
  else match formOf name.toList with
    | some f => some (f, ⟨'f', 4⟩)
    | none =>
      match name.toList with
      | [] => none
      | c :: s => match typeLetter c, formOf s with
        | some t, some f => some (f, t)
        | _, _ => none

/-- The dimensions asked for by `count`: one element without a dimension of its own, `n` elements, or a grid. -/
def Count.dims : Count → List Int
  | .none => []
  | .int n => [n]
  | .tuple l => l

/-- Number of elements asked for. -/
def Count.number (c : Count) : Nat := prodShape (c.dims.map Int.toNat)

/-- Total number of bytes. -/
def ArrayType.nbytes (a : ArrayType) : Nat := prodShape a.shape * a.type.bytes

/-- The docstrings (vec234.py:76-486, mat234.py:11-242): the dimensions after `count`, and the type,
where they differ from what the name means. -/
def documentedOtherwise : List (String × List Nat × NumType) :=
  [("byte", [1], ⟨'i', 1⟩), ("ubyte", [1], ⟨'u', 1⟩), ("float", [1], ⟨'f', 4⟩),
   ("imat2", [2, 2], ⟨'i', 1⟩), ("umat2", [2, 2], ⟨'u', 1⟩)]

end Verif
