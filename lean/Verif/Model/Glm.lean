import Mathlib.LinearAlgebra.Matrix.Notation
import Mathlib.Analysis.SpecialFunctions.Trigonometric.Basic
/-
The matrices of gsp_matplotlib/glm/glm.py.

Simplifications: the numbers are those of a field, or real numbers where angles or norms are
needed, instead of floats of the given `dtype`. Division by 0 gives 0 here where Python raises or numpy
gives inf or nan; the properties say when it does not occur.
-/

namespace Verif

open Matrix

/-- 4 × 4 matrices. -/
abbrev Mat4 (K : Type) := Matrix (Fin 4) (Fin 4) K

/-- `np.transpose(M) if transpose else M`, as all functions end. -/
def transposeIf {K : Type} (transpose : Bool) (M : Mat4 K) : Mat4 K :=
  if transpose then M.transpose else M

section
variable {K : Type} [Field K]

/-- viewport (glm.py:52-90). -/
def glmViewport (x y w h d : K) (tr : Bool := false) : Mat4 K :=
  transposeIf tr
    !![w / 2, 0, 0, x + w / 2;
       0, h / 2, 0, y + h / 2;
       0, 0, d / 2, d / 2;
       0, 0, 0, 1]

/-- frustum (glm.py:94-141), with the place of the entry of line 134 as it is there. -/
def glmFrustum (left right bottom top znear zfar : K) (tr : Bool := false) : Mat4 K :=
  transposeIf tr
    !![2 * znear / (right - left), 0, (right + left) / (right - left), 0;
       0, 2 * znear / (top - bottom), 0, 0;
       0, (top + bottom) / (top - bottom), -(zfar + znear) / (zfar - znear),
         -2 * znear * zfar / (zfar - znear);
       0, 0, -1, 0]

/-- ortho (glm.py:177-223), with the place of the entry of line 216 as it is there. -/
def glmOrtho (left right bottom top znear zfar : K) (tr : Bool := false) : Mat4 K :=
  transposeIf tr
    !![2 / (right - left), 0, -(right + left) / (right - left), 0;
       0, 2 / (top - bottom), 0, -(top + bottom) / (top - bottom);
       0, 0, -2 / (zfar - znear), -(zfar + znear) / (zfar - znear);
       0, 0, 0, 1]

/-- scale (glm.py:267-295). -/
def glmScale (x y z : K) (tr : Bool := false) : Mat4 K :=
  transposeIf tr !![x, 0, 0, 0; 0, y, 0, 0; 0, 0, z, 0; 0, 0, 0, 1]

/-- translate (glm.py:317-346). -/
def glmTranslate (x y z : K) (tr : Bool := false) : Mat4 K :=
  transposeIf tr !![1, 0, 0, x; 0, 1, 0, y; 0, 0, 1, z; 0, 0, 0, 1]

/-- The matrix of `rotate` from the numbers of line 487-488 (glm.py:489-494). -/
def quatMat (a b c d : K) : Mat4 K :=
  !![a * a + b * b - c * c - d * d, 2 * (b * c + a * d), 2 * (b * d - a * c), 0;
     2 * (b * c - a * d), a * a + c * c - b * b - d * d, 2 * (c * d + a * b), 0;
     2 * (b * d + a * c), 2 * (c * d - a * b), a * a + d * d - b * b - c * c, 0;
     0, 0, 0, 1]

end

/-- np.radians. -/
noncomputable def radians (deg : ℝ) : ℝ := deg * (Real.pi / 180)

/-- perspective (glm.py:144-174). -/
noncomputable def glmPerspective (fovy aspect znear zfar : ℝ) (tr : Bool := false) : Mat4 ℝ :=
  let h := Real.tan ((1 / 2) * radians fovy) * znear
  let w := h * aspect
  glmFrustum (-w) w (-h) h znear zfar tr

/-- xrotate (glm.py:366-395). -/
noncomputable def glmXrotate (theta : ℝ) (tr : Bool := false) : Mat4 ℝ :=
  let t := radians theta
  transposeIf tr
    !![1, 0, 0, 0; 0, Real.cos t, -Real.sin t, 0; 0, Real.sin t, Real.cos t, 0; 0, 0, 0, 1]

/-- yrotate (glm.py:398-427). -/
noncomputable def glmYrotate (theta : ℝ) (tr : Bool := false) : Mat4 ℝ :=
  let t := radians theta
  transposeIf tr
    !![Real.cos t, 0, Real.sin t, 0; 0, 1, 0, 0; -Real.sin t, 0, Real.cos t, 0; 0, 0, 0, 1]

/-- zrotate (glm.py:430-459). -/
noncomputable def glmZrotate (theta : ℝ) (tr : Bool := false) : Mat4 ℝ :=
  let t := radians theta
  transposeIf tr
    !![Real.cos t, -Real.sin t, 0, 0; Real.sin t, Real.cos t, 0, 0; 0, 0, 1, 0; 0, 0, 0, 1]

/-- A vector of 3 numbers. -/
structure V3 where
  x : ℝ
  y : ℝ
  z : ℝ

namespace V3

@[ext] theorem ext' {u v : V3} (hx : u.x = v.x) (hy : u.y = v.y) (hz : u.z = v.z) : u = v := by
  cases u; cases v; simp_all

/-- `np.dot`. -/
def dot (u v : V3) : ℝ := u.x * v.x + u.y * v.y + u.z * v.z
/-- `np.cross`. -/
def cross (u v : V3) : V3 :=
  ⟨u.y * v.z - u.z * v.y, u.z * v.x - u.x * v.z, u.x * v.y - u.y * v.x⟩
/-- Product with a number. -/
def smul (t : ℝ) (u : V3) : V3 := ⟨t * u.x, t * u.y, t * u.z⟩
/-- Difference. -/
def sub (u v : V3) : V3 := ⟨u.x - v.x, u.y - v.y, u.z - v.z⟩
/-- `np.linalg.norm`. -/
noncomputable def norm (u : V3) : ℝ := Real.sqrt (u.dot u)
/-- The point in homogeneous coordinates. -/
def point (u : V3) : Fin 4 → ℝ := ![u.x, u.y, u.z, 1]

end V3

/-- normalize (glm.py:40-43) of one vector; `eps` is 1e-16 in the code. With floats the sum is the
norm itself when the norm is at least 1, which `eps = 0` describes. -/
noncomputable def glmNormalize (eps : ℝ) (v : V3) : V3 := V3.smul (1 / (eps + v.norm)) v

/-- The number of line 43. -/
noncomputable def glmEps : ℝ := 1 / 10 ^ 16

/-- rotate (glm.py:462-499). -/
noncomputable def glmRotate (eps theta : ℝ) (axis : V3) (tr : Bool := false) : Mat4 ℝ :=
  let t := radians theta
  let u := glmNormalize eps axis
  let s := Real.sin (t / 2)
  transposeIf tr (quatMat (Real.cos (t / 2)) (-u.x * s) (-u.y * s) (-u.z * s))

/-- lookat (glm.py:225-264); `transpose` is not used there. -/
noncomputable def glmLookat (eps : ℝ) (eye center up : V3) (_tr : Bool := false) : Mat4 ℝ :=
  let Z := glmNormalize eps (eye.sub center)
  let X := glmNormalize eps (up.cross Z)
  let Y := glmNormalize eps (Z.cross X)
  !![X.x, X.y, X.z, -X.dot eye;
     Y.x, Y.y, Y.z, -Y.dot eye;
     Z.x, Z.y, Z.z, -Z.dot eye;
     0, 0, 0, 1]

/-- align (glm.py:503-540) of vectors of 3 numbers. `none` stands for a matrix of nan, when the
cross product is 0. -/
noncomputable def glmAlign (eps : ℝ) (U V : V3) (tr : Bool := false) : Option (Mat4 ℝ) :=
  let a := glmNormalize eps U
  let b := glmNormalize eps V
  let v := a.cross b
  let c := a.dot b
  let s := v.norm
  if s = 0 then none
  else
    let K : Matrix (Fin 3) (Fin 3) ℝ := !![0, -v.z, v.y; v.z, 0, -v.x; -v.y, v.x, 0]
    let R : Matrix (Fin 3) (Fin 3) ℝ := 1 + K + ((1 - c) / s ^ 2) • (K * K)
    some (transposeIf tr
      !![R 0 0, R 0 1, R 0 2, 0; R 1 0, R 1 1, R 1 2, 0; R 2 0, R 2 1, R 2 2, 0; 0, 0, 0, 1])

end Verif
