import Verif.Model.Swizzle
/-
Vector and matrix constructors: gsp_matplotlib/glm/vec234.py, mat234.py, ndarray/vectors.py and
ndarray/matrices.py.
-/

namespace Verif

/-- A numpy number type: `i`, `u` or `f`, and its size in bytes. -/
structure NumType where
  kind : Char
  bytes : Nat
deriving DecidableEq, Repr

/-- The argument `count` of all constructors: `None`, a number, or a tuple. -/
inductive Count where
  | none
  | int (n : Int)
  | tuple (l : List Int)
deriving DecidableEq, Repr

/-- An array: its shape and the type of its numbers. The memory is not initialised. -/
structure ArrayType where
  shape : List Nat
  type : NumType
deriving DecidableEq, Repr

/-- `np.ndarray.__new__(cls, shape, dtype)` where `dtype` has the shape `sub` itself: the shapes are
joined, negative dimensions refused. -/
def newArray (dims : List Int) (sub : List Nat) (t : NumType) : Except Err ArrayType :=
  if ∀ n ∈ dims, 0 ≤ n then .ok ⟨dims.map Int.toNat ++ sub, t⟩ else .error .valueError

/-- `squeeze`: dimensions of 1 are dropped. -/
def ArrayType.squeeze (a : ArrayType) : ArrayType := { a with shape := a.shape.filter (· ≠ 1) }

/-- `scalar`, `vec2`, `vec3`, `vec4` (ndarray/vectors.py:34-84) and `mat2`, `mat3`, `mat4`
(ndarray/matrices.py:26-64), which differ by the shape `sub` of their dtype
(vectors.py:14-32, matrices.py:11-24). -/
def glmNew (sub : List Nat) (t : NumType) : Count → Except Err ArrayType
  | .none => (newArray [1] sub t).map ArrayType.squeeze
  | .int n => newArray [n] sub t
  | .tuple l => newArray l sub t

def int8 : NumType := ⟨'i', 1⟩
def int32 : NumType := ⟨'i', 4⟩
def uint8 : NumType := ⟨'u', 1⟩
def uint32 : NumType := ⟨'u', 4⟩
def float16 : NumType := ⟨'f', 2⟩
def float32 : NumType := ⟨'f', 4⟩
def float64 : NumType := ⟨'f', 8⟩

/-- The constructors of vec234.py:76-486 and mat234.py:11-242: the shape and the type each gives to
`ndarray`. -/
def glmConstructors : List (String × List Nat × NumType) :=
  [("byte", [], int8), ("ubyte", [], uint8), ("float", [], float32),
   ("bvec2", [2], uint8), ("ivec2", [2], int32), ("uvec2", [2], uint32),
   ("hvec2", [2], float16), ("vec2", [2], float32), ("dvec2", [2], float64),
   ("bvec3", [3], uint8), ("ivec3", [3], int32), ("uvec3", [3], uint32),
   ("hvec3", [3], float16), ("vec3", [3], float32), ("dvec3", [3], float64),
   ("bvec4", [4], uint8), ("ivec4", [4], int32), ("uvec4", [4], uint32),
   ("hvec4", [4], float16), ("vec4", [4], float32), ("dvec4", [4], float64),
   ("bmat2", [2, 2], uint8), ("imat2", [2, 2], int32), ("umat2", [2, 2], uint32),
   ("hmat2", [2, 2], float16), ("mat2", [2, 2], float32), ("dmat2", [2, 2], float64),
   ("bmat3", [3, 3], uint8), ("imat3", [3, 3], int32), ("umat3", [3, 3], uint32),
   ("hmat3", [3, 3], float16), ("mat3", [3, 3], float32), ("dmat3", [3, 3], float64),
   ("bmat4", [4, 4], uint8), ("imat4", [4, 4], int32), ("umat4", [4, 4], uint32),
   ("hmat4", [4, 4], float16), ("mat4", [4, 4], float32), ("dmat4", [4, 4], float64)]

/-- Calling the constructor `name` of `glm`. -/
def glmMake (name : String) (count : Count) : Except Err ArrayType :=
  match dget glmConstructors name with
  | none => .error .attributeError
  | some (sub, t) => glmNew sub t count

/-- The numbers of a flat array or of rows, in the order of memory. -/
def VecIn.numbers : VecIn → List ℚ
  | .flat xs => xs
  | .rows _ _ rs => rs.flatten

/-- as_vec2, as_vec3, as_vec4 (vec234.py:13-32, 199-219, 343-363): `reshape(-1, k)`. Whether the result
shares its memory with the argument is not modelled, and `dtype` is not given. -/
def asVec (k : Nat) (v : VecIn) : Except Err Rows :=
  if v.numbers.length % k = 0 then .ok (groups k v.numbers) else .error .valueError

end Verif
