import Verif.Model.Glm
/-
The projection matrices of gsp_matplotlib/glm/glm.py with floating point numbers: every product, sum, difference
and quotient is rounded by `fl`, and every entry is rounded again by `st` when it is stored in the array, whose
numbers have 32 bits unless `dtype` is given. The numbers 0, 1 and -1 are stored as they are.
-/

namespace Verif

open Matrix

section
variable {K : Type} [Field K]

/-- frustum (glm.py:94-141), with the place of the entry of line 134 as it is there. -/
def frustumRounded (fl st : K → K) (left right bottom top znear zfar : K) (tr : Bool := false) : Mat4 K :=
  transposeIf tr
    !![st (fl (fl (2 * znear) / fl (right - left))), 0, st (fl (fl (right + left) / fl (right - left))), 0;
       0, st (fl (fl (2 * znear) / fl (top - bottom))), 0, 0;
       0, st (fl (fl (top + bottom) / fl (top - bottom))), st (fl (-fl (zfar + znear) / fl (zfar - znear))),
         st (fl (fl (fl (-2 * znear) * zfar) / fl (zfar - znear)));
       0, 0, -1, 0]

/-- ortho (glm.py:177-223), with the place of the entry of line 216 as it is there. -/
def orthoRounded (fl st : K → K) (left right bottom top znear zfar : K) (tr : Bool := false) : Mat4 K :=
  transposeIf tr
    !![st (fl (2 / fl (right - left))), 0, st (fl (-fl (right + left) / fl (right - left))), 0;
       0, st (fl (2 / fl (top - bottom))), 0, st (fl (-fl (top + bottom) / fl (top - bottom)));
       0, 0, st (fl (-2 / fl (zfar - znear))), st (fl (-fl (zfar + znear) / fl (zfar - znear)));
       0, 0, 0, 1]

end

/-- perspective (glm.py:144-174). `tn` is the function `np.tan(0.5*np.radians(fovy))` of the angle. -/
noncomputable def perspectiveRounded (fl st tn : ℝ → ℝ) (fovy aspect znear zfar : ℝ) (tr : Bool := false) :
    Mat4 ℝ :=
  let h := fl (tn fovy * znear)
  let w := fl (h * aspect)
  frustumRounded fl st (-w) w (-h) h znear zfar tr

end Verif
