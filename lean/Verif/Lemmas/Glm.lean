import Verif.Spec.Glm
import Mathlib.Tactic.Ring
import Mathlib.Tactic.LinearCombination
import Mathlib.Tactic.FieldSimp
import Mathlib.Tactic.FinCases
/-
Lemmas on 4 × 4 matrices.
-/

namespace Verif

open Matrix

section
variable {K : Type} [Field K]

theorem det4 (a00 a01 a02 a03 a10 a11 a12 a13 a20 a21 a22 a23 : K) :
    (!![a00, a01, a02, a03; a10, a11, a12, a13; a20, a21, a22, a23; 0, 0, 0, 1] : Mat4 K).det =
      a00 * (a11 * a22 - a12 * a21) - a01 * (a10 * a22 - a12 * a20) +
        a02 * (a10 * a21 - a11 * a20) := by
  simp [Matrix.det_succ_row_zero, Fin.sum_univ_succ, Fin.succAbove]
  ring

/-- The transpose of a rotation is a rotation. -/
theorem IsRotation.transpose {M : Mat4 K} (h : IsRotation M) : IsRotation M.transpose := by
  refine ⟨?_, by rw [Matrix.det_transpose]; exact h.2⟩
  rw [Matrix.transpose_transpose]
  exact mul_eq_one_comm.1 h.1

theorem IsRotation.mul {M N : Mat4 K} (hM : IsRotation M) (hN : IsRotation N) :
    IsRotation (M * N) := by
  refine ⟨?_, by rw [Matrix.det_mul, hM.2, hN.2, one_mul]⟩
  rw [Matrix.transpose_mul, Matrix.mul_assoc, ← Matrix.mul_assoc M.transpose, hM.1, Matrix.one_mul,
    hN.1]

theorem isRotation_if {M : Mat4 K} (h : IsRotation M) (tr : Bool) :
    IsRotation (transposeIf tr M) := by
  cases tr
  · exact h
  · exact h.transpose

/-- A block of 3 × 3 numbers is a rotation when its columns are of length 1 and perpendicular and
its determinant is 1. -/
theorem isRotation_mk (a00 a01 a02 a10 a11 a12 a20 a21 a22 : K)
    (h00 : a00 * a00 + a10 * a10 + a20 * a20 = 1) (h11 : a01 * a01 + a11 * a11 + a21 * a21 = 1)
    (h22 : a02 * a02 + a12 * a12 + a22 * a22 = 1) (h01 : a00 * a01 + a10 * a11 + a20 * a21 = 0)
    (h02 : a00 * a02 + a10 * a12 + a20 * a22 = 0) (h12 : a01 * a02 + a11 * a12 + a21 * a22 = 0)
    (hd : a00 * (a11 * a22 - a12 * a21) - a01 * (a10 * a22 - a12 * a20) +
        a02 * (a10 * a21 - a11 * a20) = 1) :
    IsRotation (!![a00, a01, a02, 0; a10, a11, a12, 0; a20, a21, a22, 0; 0, 0, 0, 1] : Mat4 K) := by
  refine ⟨?_, by rw [det4]; exact hd⟩
  ext i j
  fin_cases i <;> fin_cases j <;>
    simp [Matrix.mul_apply, Fin.sum_univ_four] <;>
    first
      | linear_combination h00 | linear_combination h11 | linear_combination h22
      | linear_combination h01 | linear_combination h02 | linear_combination h12

/-- The matrix of a quaternion of length 1 is a rotation. -/
theorem quatMat_rotation {a b c d : K} (h : a * a + b * b + c * c + d * d = 1) :
    IsRotation (quatMat a b c d) := by
  unfold quatMat
  have h2 : (a * a + b * b + c * c + d * d) ^ 2 = 1 := by rw [h, one_pow]
  have h3 : (a * a + b * b + c * c + d * d) ^ 3 = 1 := by rw [h, one_pow]
  apply isRotation_mk
  · linear_combination h2
  · linear_combination h2
  · linear_combination h2
  · ring
  · ring
  · ring
  · linear_combination h3

/-- The product of the matrices of two quaternions. -/
theorem quatMat_mul (a b c d a' b' c' d' : K) :
    quatMat a b c d * quatMat a' b' c' d' =
      quatMat (a' * a - b' * b - c' * c - d' * d) (a' * b + b' * a + c' * d - d' * c)
        (a' * c - b' * d + c' * a + d' * b) (a' * d + b' * c - c' * b + d' * a) := by
  unfold quatMat
  ext i j
  fin_cases i <;> fin_cases j <;> simp [Matrix.mul_apply, Fin.sum_univ_four] <;> ring

theorem mulVec4 (a00 a01 a02 a03 a10 a11 a12 a13 a20 a21 a22 a23 a30 a31 a32 a33 x y z w : K) :
    (!![a00, a01, a02, a03; a10, a11, a12, a13; a20, a21, a22, a23; a30, a31, a32, a33] : Mat4 K) *ᵥ
      ![x, y, z, w] =
    ![a00 * x + a01 * y + a02 * z + a03 * w, a10 * x + a11 * y + a12 * z + a13 * w,
      a20 * x + a21 * y + a22 * z + a23 * w, a30 * x + a31 * y + a32 * z + a33 * w] := by
  ext i
  fin_cases i <;> simp [Matrix.mulVec, dotProduct, Fin.sum_univ_four]

theorem projects_iff {M : Mat4 K} {p : Fin 4 → K} {X Y Z W x y z : K} (h : M *ᵥ p = ![X, Y, Z, W]) :
    Projects M p (pt x y z) ↔ W ≠ 0 ∧ X = W * x ∧ Y = W * y ∧ Z = W * z := by
  unfold Projects pt
  rw [h]
  constructor
  · rintro ⟨w, hw, he⟩
    have e3 := congrFun he 3
    have e0 := congrFun he 0
    have e1 := congrFun he 1
    have e2 := congrFun he 2
    simp at e0 e1 e2 e3
    subst e3
    exact ⟨hw, e0, e1, e2⟩
  · rintro ⟨hw, rfl, rfl, rfl⟩
    refine ⟨W, hw, ?_⟩
    ext i
    fin_cases i <;> simp

end

theorem tan_pos {fovy : ℝ} (h0 : 0 < fovy) (h1 : fovy < 180) :
    0 < Real.tan (1 / 2 * radians fovy) := by
  have hp := Real.pi_pos
  apply Real.tan_pos_of_pos_of_lt_pi_div_two
  · unfold radians; positivity
  · unfold radians; nlinarith

theorem norm_sq (v : V3) : v.norm * v.norm = v.dot v := by
  unfold V3.norm
  apply Real.mul_self_sqrt
  unfold V3.dot
  nlinarith [mul_self_nonneg v.x, mul_self_nonneg v.y, mul_self_nonneg v.z]

/-- A vector of length not 0 has length 1 after `normalize`, the small number apart. -/
theorem normalize_unit {v : V3} (h : v.norm ≠ 0) :
    (glmNormalize 0 v).dot (glmNormalize 0 v) = 1 := by
  have hn := norm_sq v
  simp only [glmNormalize, V3.smul, V3.dot, zero_add] at hn ⊢
  field_simp
  linear_combination -hn

theorem norm_ne_zero (v : V3) : v.norm ≠ 0 ↔ v ≠ ⟨0, 0, 0⟩ := by
  constructor
  · rintro h rfl
    simp [V3.norm, V3.dot] at h
  · intro h h0
    have := norm_sq v
    rw [h0] at this
    simp only [V3.dot] at this
    apply h
    have hx := mul_self_nonneg v.x
    have hy := mul_self_nonneg v.y
    have hz := mul_self_nonneg v.z
    ext
    · exact mul_self_eq_zero.1 (by linarith)
    · exact mul_self_eq_zero.1 (by linarith)
    · exact mul_self_eq_zero.1 (by linarith)

theorem normalize_of_unit {v : V3} (h : v.dot v = 1) : glmNormalize 0 v = v := by
  have : v.norm = 1 := by unfold V3.norm; rw [h, Real.sqrt_one]
  simp [glmNormalize, this, V3.smul]

/-- The rows of a right handed frame make a rotation. -/
theorem rotation_of_frame {X Z : V3} (hX : X.dot X = 1) (hZ : Z.dot Z = 1) (hXZ : X.dot Z = 0) :
    IsRotation (!![X.x, X.y, X.z, 0; (Z.cross X).x, (Z.cross X).y, (Z.cross X).z, 0;
      Z.x, Z.y, Z.z, 0; 0, 0, 0, 1] : Mat4 ℝ) := by
  have hT : (!![X.x, X.y, X.z, 0; (Z.cross X).x, (Z.cross X).y, (Z.cross X).z, 0;
      Z.x, Z.y, Z.z, 0; 0, 0, 0, 1] : Mat4 ℝ) =
      Matrix.transpose !![X.x, (Z.cross X).x, Z.x, 0; X.y, (Z.cross X).y, Z.y, 0;
        X.z, (Z.cross X).z, Z.z, 0; 0, 0, 0, 1] := by
    ext i j
    fin_cases i <;> fin_cases j <;> simp [Matrix.transpose]
  rw [hT]
  refine IsRotation.transpose (isRotation_mk _ _ _ _ _ _ _ _ _ ?_ ?_ ?_ ?_ ?_ ?_ ?_) <;>
    simp only [V3.dot, V3.cross] at *
  · linear_combination hX
  · linear_combination (X.x * X.x + X.y * X.y + X.z * X.z) * hZ + hX -
      (X.x * Z.x + X.y * Z.y + X.z * Z.z) * hXZ
  · linear_combination hZ
  · ring
  · linear_combination hXZ
  · ring
  · linear_combination (X.x * X.x + X.y * X.y + X.z * X.z) * hZ + hX -
      (X.x * Z.x + X.y * Z.y + X.z * Z.z) * hXZ

/-- The matrix of `lookat` from the frame of the view. -/
theorem lookat_frame {eye center up : V3} (h : (eye.sub center).norm ≠ 0)
    (hup : (up.cross (eye.sub center)).norm ≠ 0) :
    ∃ X Z : V3, X.dot X = 1 ∧ Z.dot Z = 1 ∧ X.dot Z = 0 ∧ 0 < (Z.cross X).dot up ∧ X.dot up = 0 ∧
      glmLookat 0 eye center up =
        !![X.x, X.y, X.z, -X.dot eye; (Z.cross X).x, (Z.cross X).y, (Z.cross X).z,
            -(Z.cross X).dot eye; Z.x, Z.y, Z.z, -Z.dot eye; 0, 0, 0, 1] := by
  have hZ := normalize_unit h
  have hXn : (up.cross (glmNormalize 0 (eye.sub center))).norm ≠ 0 := by
    rw [norm_ne_zero] at hup ⊢
    intro h0
    apply hup
    simp only [glmNormalize, V3.smul, V3.cross, zero_add, V3.mk.injEq] at h0 ⊢
    field_simp at h0
    obtain ⟨h1, h2, h3⟩ := h0
    refine ⟨?_, ?_, ?_⟩
    · linear_combination h1
    · linear_combination h2
    · linear_combination h3
  have hX := normalize_unit hXn
  refine ⟨glmNormalize 0 (up.cross (glmNormalize 0 (eye.sub center))),
    glmNormalize 0 (eye.sub center), hX, hZ, ?_, ?_, ?_, ?_⟩
  · simp only [glmNormalize, V3.smul, V3.dot, V3.cross]; ring
  · have hpos : 0 < (up.cross (glmNormalize 0 (eye.sub center))).norm :=
      lt_of_le_of_ne (Real.sqrt_nonneg _) (Ne.symm hXn)
    have hsq := norm_sq (up.cross (glmNormalize 0 (eye.sub center)))
    generalize glmNormalize 0 (eye.sub center) = Z at *
    generalize hN : (up.cross Z).norm = N at *
    have : (Z.cross (glmNormalize 0 (up.cross Z))).dot up = N := by
      simp only [glmNormalize, V3.smul, V3.dot, V3.cross, zero_add] at hsq ⊢
      simp only [V3.cross] at hN
      rw [hN]
      field_simp
      linear_combination -hsq
    rw [this]; exact hpos
  · simp only [glmNormalize, V3.smul, V3.dot, V3.cross]; ring
  · have hXZ : (glmNormalize 0 (up.cross (glmNormalize 0 (eye.sub center)))).dot
        (glmNormalize 0 (eye.sub center)) = 0 := by
      simp only [glmNormalize, V3.smul, V3.dot, V3.cross]; ring
    simp only [glmLookat]
    generalize glmNormalize 0 (up.cross (glmNormalize 0 (eye.sub center))) = X at *
    generalize glmNormalize 0 (eye.sub center) = Z at *
    have hY : (Z.cross X).dot (Z.cross X) = 1 := by
      simp only [V3.dot, V3.cross] at *
      linear_combination (X.x * X.x + X.y * X.y + X.z * X.z) * hZ + hX -
        (X.x * Z.x + X.y * Z.y + X.z * Z.z) * hXZ
    simp only [normalize_of_unit hY]

theorem rodrigues_rotation {x y z c k : ℝ} (h1 : k * (x * x + y * y + z * z) = 1 - c)
    (h2 : k * (1 + c) = 1) :
    IsRotation (!![1 - k * (y * y + z * z), -z + k * (x * y), y + k * (x * z), 0;
      z + k * (x * y), 1 - k * (x * x + z * z), -x + k * (y * z), 0;
      -y + k * (x * z), x + k * (y * z), 1 - k * (x * x + y * y), 0; 0, 0, 0, 1] : Mat4 ℝ) := by
  have h3 : 1 - 2 * k + k * k * (x * x + y * y + z * z) = 0 := by linear_combination k * h1 - h2
  apply isRotation_mk
  · linear_combination (y * y + z * z) * h3
  · linear_combination (x * x + z * z) * h3
  · linear_combination (x * x + y * y) * h3
  · linear_combination -(x * y) * h3
  · linear_combination -(x * z) * h3
  · linear_combination -(y * z) * h3
  · linear_combination (x * x + y * y + z * z) * h3

theorem sq_add_sq (t : ℝ) : Real.cos t * Real.cos t + Real.sin t * Real.sin t = 1 := by
  have := Real.sin_sq_add_cos_sq t
  linear_combination this

theorem cos_half (t : ℝ) :
    Real.cos t = Real.cos (t / 2) * Real.cos (t / 2) - Real.sin (t / 2) * Real.sin (t / 2) := by
  conv_lhs => rw [show t = 2 * (t / 2) by ring, two_mul, Real.cos_add]

theorem sin_half (t : ℝ) : Real.sin t = 2 * (Real.sin (t / 2) * Real.cos (t / 2)) := by
  conv_lhs => rw [show t = 2 * (t / 2) by ring, Real.sin_two_mul]
  ring

end Verif
