import Verif.Lemmas.Convex
/-
Lemmas for Props/OrthoFace.
-/

namespace Verif

open Matrix

theorem screenOf_ortho {r t n f : ℝ} (hr : 0 < r) (ht : 0 < t) {V : Mat4 ℝ} (hV : Affine V) (v : V3) :
    screenOf (glmOrtho (-r) r (-t) t n f * V) v = some ⟨(fromEye V v).x / r, (fromEye V v).y / t,
      -2 / (f - n) * (fromEye V v).z + -(f + n) / (f - n)⟩ := by
  have e : (glmOrtho (-r) r (-t) t n f * V) *ᵥ ![v.x, v.y, v.z, 1] =
      ![(fromEye V v).x / r, (fromEye V v).y / t, -2 / (f - n) * (fromEye V v).z + -(f + n) / (f - n), 1] := by
    rw [← Matrix.mulVec_mulVec, affine_mulVec hV]
    unfold glmOrtho transposeIf
    rw [if_neg (by simp), mulVec4]
    ext i
    fin_cases i <;> simp
    · field_simp; norm_num
    · field_simp; norm_num
  unfold screenOf
  rw [e]
  simp

end Verif
