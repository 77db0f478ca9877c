import Verif.Lemmas.Glm
import Mathlib.Tactic.NormNum
/-
C40 to C42, C54 and C55: the matrices of glm.
-/

namespace Verif

open Matrix

/-! ### C40 -/

/-- Rotations about the axes are rotations, transposed or not. -/
theorem axis_rotations (theta : ℝ) (tr : Bool) :
    IsRotation (glmXrotate theta tr) ∧ IsRotation (glmYrotate theta tr) ∧
    IsRotation (glmZrotate theta tr) := by
  have h := sq_add_sq (radians theta)
  refine ⟨?_, ?_, ?_⟩ <;> refine isRotation_if ?_ tr <;> apply isRotation_mk <;>
    first | ring1 | linear_combination h

/-- They leave the points of their axis where they are. -/
theorem axis_fixed (theta x : ℝ) (tr : Bool) :
    glmXrotate theta tr *ᵥ pt x 0 0 = pt x 0 0 ∧ glmYrotate theta tr *ᵥ pt 0 x 0 = pt 0 x 0 ∧
    glmZrotate theta tr *ᵥ pt 0 0 x = pt 0 0 x := by
  refine ⟨?_, ?_, ?_⟩ <;> cases tr <;> ext i <;> fin_cases i <;>
    simp [glmXrotate, glmYrotate, glmZrotate, transposeIf, pt, Matrix.mulVec, dotProduct,
      Fin.sum_univ_four, Matrix.transpose]

/-- Successive rotations about an axis add their angles. -/
theorem axis_angles_add (s t : ℝ) :
    glmXrotate s * glmXrotate t = glmXrotate (s + t) ∧
    glmYrotate s * glmYrotate t = glmYrotate (s + t) ∧
    glmZrotate s * glmZrotate t = glmZrotate (s + t) := by
  have hr : radians (s + t) = radians s + radians t := by unfold radians; ring
  refine ⟨?_, ?_, ?_⟩ <;> ext i j <;> fin_cases i <;> fin_cases j <;>
    simp [glmXrotate, glmYrotate, glmZrotate, transposeIf, Matrix.mul_apply, Fin.sum_univ_four,
      hr, Real.cos_add, Real.sin_add] <;> ring

/-- The direction of the rotations: a quarter turn takes y to z, z to x and x to y. -/
theorem axis_direction :
    glmXrotate 90 *ᵥ pt 0 1 0 = pt 0 0 1 ∧ glmYrotate 90 *ᵥ pt 0 0 1 = pt 1 0 0 ∧
    glmZrotate 90 *ᵥ pt 1 0 0 = pt 0 1 0 := by
  have hr : radians 90 = Real.pi / 2 := by unfold radians; ring
  refine ⟨?_, ?_, ?_⟩ <;> ext i <;> fin_cases i <;>
    simp [glmXrotate, glmYrotate, glmZrotate, transposeIf, pt, Matrix.mulVec, dotProduct,
      Fin.sum_univ_four, hr]

/-- Rotations about any axis but 0 are rotations. -/
theorem rotate_rotation {axis : V3} (h : axis.norm ≠ 0) (theta : ℝ) (tr : Bool) :
    IsRotation (glmRotate 0 theta axis tr) := by
  have hu := normalize_unit h
  have hs := sq_add_sq (radians theta / 2)
  refine isRotation_if (quatMat_rotation ?_) tr
  simp only [V3.dot] at hu
  linear_combination hs + (Real.sin (radians theta / 2)) ^ 2 * hu

/-- They leave the points of the axis where they are. -/
theorem rotate_fixes {axis : V3} (h : axis.norm ≠ 0) (theta k : ℝ) :
    glmRotate 0 theta axis *ᵥ pt (k * axis.x) (k * axis.y) (k * axis.z) =
      pt (k * axis.x) (k * axis.y) (k * axis.z) := by
  have hu := normalize_unit h
  have hs := sq_add_sq (radians theta / 2)
  obtain ⟨m, hx, hy, hz⟩ : ∃ m, axis.x = m * (glmNormalize 0 axis).x ∧
      axis.y = m * (glmNormalize 0 axis).y ∧ axis.z = m * (glmNormalize 0 axis).z := by
    refine ⟨axis.norm, ?_, ?_, ?_⟩ <;> simp only [glmNormalize, V3.smul, zero_add] <;> field_simp
  simp only [glmRotate, transposeIf, quatMat, pt, Bool.false_eq_true, if_false]
  rw [hx, hy, hz, mulVec4]
  generalize glmNormalize 0 axis = u at *
  generalize Real.cos (radians theta / 2) = a at *
  generalize Real.sin (radians theta / 2) = s at *
  simp only [V3.dot] at hu
  have h1 : a * a + s * s * (u.x * u.x + u.y * u.y + u.z * u.z) = 1 := by
    rw [hu]; linear_combination hs
  ext i
  fin_cases i
  · simp; linear_combination k * m * u.x * h1
  · simp; linear_combination k * m * u.y * h1
  · simp; linear_combination k * m * u.z * h1
  · simp

/-- Successive rotations about an axis add their angles. -/
theorem rotate_angles_add {axis : V3} (h : axis.norm ≠ 0) (s t : ℝ) :
    glmRotate 0 s axis * glmRotate 0 t axis = glmRotate 0 (s + t) axis := by
  have hu := normalize_unit h
  have hr : radians (s + t) / 2 = radians s / 2 + radians t / 2 := by unfold radians; ring
  simp only [glmRotate, transposeIf, Bool.false_eq_true, if_false, hr, Real.cos_add,
    Real.sin_add, quatMat_mul]
  generalize glmNormalize 0 axis = u at *
  simp only [V3.dot] at hu
  congr 1
  · linear_combination -(Real.sin (radians s / 2) * Real.sin (radians t / 2)) * hu
  · ring
  · ring
  · ring

/-- About the axes of coordinates they are the rotations above. -/
theorem rotate_axes (theta : ℝ) (tr : Bool) :
    glmRotate 0 theta ⟨1, 0, 0⟩ tr = glmXrotate theta tr ∧
    glmRotate 0 theta ⟨0, 1, 0⟩ tr = glmYrotate theta tr ∧
    glmRotate 0 theta ⟨0, 0, 1⟩ tr = glmZrotate theta tr := by
  have h2 : radians theta = 2 * (radians theta / 2) := by ring
  have hs := sq_add_sq (radians theta / 2)
  have hc : Real.cos (radians theta) = Real.cos (radians theta / 2) * Real.cos (radians theta / 2) -
      Real.sin (radians theta / 2) * Real.sin (radians theta / 2) := by
    conv_lhs => rw [h2, two_mul, Real.cos_add]
  have hsn : Real.sin (radians theta) =
      2 * (Real.sin (radians theta / 2) * Real.cos (radians theta / 2)) := by
    conv_lhs => rw [h2, Real.sin_two_mul]
    ring
  have n1 : (V3.mk 1 0 0).norm = 1 := by simp [V3.norm, V3.dot]
  have n2 : (V3.mk 0 1 0).norm = 1 := by simp [V3.norm, V3.dot]
  have n3 : (V3.mk 0 0 1).norm = 1 := by simp [V3.norm, V3.dot]
  refine ⟨?_, ?_, ?_⟩ <;> simp only [glmRotate, glmXrotate, glmYrotate, glmZrotate] <;> congr 1 <;>
    ext i j <;> fin_cases i <;> fin_cases j <;>
    simp [quatMat, glmNormalize, V3.smul, n1, n2, n3, hc, hsn] <;>
    first | ring1 | linear_combination hs

/-- With the small number `normalize` adds to the length of the axis, the block of `rotate` is a
rotation up to a factor that is 1 or less, by at most twice the small number over the length. -/
theorem rotate_near {eps : ℝ} (he : 0 ≤ eps) {axis : V3} (h : axis.norm ≠ 0) (theta : ℝ) :
    ∃ rho, 1 - 2 * (eps / (eps + axis.norm)) ≤ rho ∧ rho ≤ 1 ∧
      (glmRotate eps theta axis).transpose * glmRotate eps theta axis =
        Matrix.diagonal ![rho ^ 2, rho ^ 2, rho ^ 2, 1] ∧
      ∀ k, glmRotate eps theta axis *ᵥ ![k * axis.x, k * axis.y, k * axis.z, 0] =
        rho • ![k * axis.x, k * axis.y, k * axis.z, 0] := by
  have hn : 0 < axis.norm := lt_of_le_of_ne (Real.sqrt_nonneg _) (Ne.symm h)
  have hsum : 0 < eps + axis.norm := by linarith
  have hs := sq_add_sq (radians theta / 2)
  have hnn := norm_sq axis
  set r := axis.norm / (eps + axis.norm) with hr
  have hr0 : 0 ≤ r := by positivity
  have hr1 : r ≤ 1 := by rw [hr, div_le_one hsum]; linarith
  have hre : eps / (eps + axis.norm) = 1 - r := by rw [hr]; field_simp; ring
  have hu : (glmNormalize eps axis).dot (glmNormalize eps axis) = r ^ 2 := by
    simp only [glmNormalize, V3.smul, V3.dot, hr] at hnn ⊢
    field_simp
    linear_combination -hnn
  set a := Real.cos (radians theta / 2)
  set s := Real.sin (radians theta / 2)
  have hs2 : s * s ≤ 1 := by nlinarith [mul_self_nonneg a]
  have hs0 : 0 ≤ s * s := mul_self_nonneg s
  refine ⟨a * a + s * s * r ^ 2, ?_, ?_, ?_, ?_⟩
  · rw [hre]
    nlinarith [mul_nonneg hs0 (sq_nonneg (1 - r)), mul_nonneg (sub_nonneg.2 hs2) (sub_nonneg.2 hr1),
      sq_nonneg (1 - r), mul_nonneg hs0 (sub_nonneg.2 hr1)]
  · have : s * s * r ^ 2 ≤ s * s * 1 := mul_le_mul_of_nonneg_left (by nlinarith) hs0
    linarith
  · simp only [glmRotate, transposeIf, quatMat, Bool.false_eq_true, if_false]
    generalize glmNormalize eps axis = u at *
    simp only [V3.dot] at hu
    rw [← hu]
    ext i j
    fin_cases i <;> fin_cases j <;>
      simp [Matrix.mul_apply, Fin.sum_univ_four] <;> ring
  · intro k
    simp only [glmRotate, transposeIf, quatMat, Bool.false_eq_true, if_false]
    have hx : axis.x = (eps + axis.norm) * (glmNormalize eps axis).x := by
      simp only [glmNormalize, V3.smul]; field_simp
    have hy : axis.y = (eps + axis.norm) * (glmNormalize eps axis).y := by
      simp only [glmNormalize, V3.smul]; field_simp
    have hz : axis.z = (eps + axis.norm) * (glmNormalize eps axis).z := by
      simp only [glmNormalize, V3.smul]; field_simp
    generalize eps + axis.norm = m at *
    rw [hx, hy, hz, mulVec4]
    generalize glmNormalize eps axis = u at *
    simp only [V3.dot] at hu
    rw [← hu]
    ext i
    fin_cases i <;> simp <;> ring

example : (V3.mk 1 2 2).norm = 3 ∧ (V3.mk 1 2 2).norm ≠ 0 := by
  have : (V3.mk 1 2 2).norm = 3 := by
    unfold V3.norm V3.dot
    rw [show (1 : ℝ) * 1 + 2 * 2 + 2 * 2 = 3 ^ 2 by norm_num, Real.sqrt_sq (by norm_num)]
  exact ⟨this, by rw [this]; norm_num⟩

/-- Half a turn about the vector 0, which gives no error, is no rotation. -/
theorem rotate_rotation_fails : ¬ IsRotation (glmRotate glmEps 180 ⟨0, 0, 0⟩) := by
  intro h
  have h0 := congrFun (congrFun h.1 0) 0
  have hr : radians 180 / 2 = Real.pi / 2 := by unfold radians; ring
  simp [glmRotate, transposeIf, quatMat, hr, Matrix.mul_apply, Fin.sum_univ_four, glmNormalize,
    V3.smul] at h0

/-! ### C41 -/

section
variable {K : Type} [Field K]

/-- A frustum is projected on the cube just when it is symmetric from top to bottom. -/
theorem frustum_corners_iff {l r b t n f : K} (h2 : (2 : K) ≠ 0) (hlr : r ≠ l) (hbt : t ≠ b)
    (hn : n ≠ 0) (hf : f ≠ 0) (hfn : f ≠ n) :
    FrustumCorners (glmFrustum l r b t n f) l r b t n f ↔ t + b = 0 := by
  have h1 : r - l ≠ 0 := sub_ne_zero.2 hlr
  have h3 : t - b ≠ 0 := sub_ne_zero.2 hbt
  have h4 : f - n ≠ 0 := sub_ne_zero.2 hfn
  constructor
  · rintro ⟨⟨_, _, _, h⟩, _⟩
    unfold glmFrustum transposeIf pt at h
    rw [if_neg (by simp)] at h
    have := ((projects_iff (mulVec4 ..)).1 h).2.2.1
    field_simp at this
    exact (mul_eq_zero.1 (show n * (t + b) = 0 by linear_combination this)).resolve_left hn
  · intro hs
    have hb : b = -t := by linear_combination hs
    subst hb
    have ht : t ≠ 0 := by rintro rfl; simp at hbt
    refine ⟨⟨?_, ?_, ?_, ?_⟩, ⟨?_, ?_, ?_, ?_⟩⟩ <;>
      (unfold glmFrustum transposeIf
       rw [if_neg (by simp)]
       simp only [sub_neg_eq_add, ← two_mul, add_neg_cancel, zero_div]
       refine (projects_iff (mulVec4 ..)).2 ⟨?_, ?_, ?_, ?_⟩ <;> field_simp <;>
         first | ring1 | simp_all)

/-- A box is projected on the cube just when it is symmetric from left to right. -/
theorem ortho_corners_iff {l r b t n f : K} (h2 : (2 : K) ≠ 0) (hlr : r ≠ l) (hbt : t ≠ b)
    (hfn : f ≠ n) :
    BoxCorners (glmOrtho l r b t n f) l r b t n f ↔ r + l = 0 := by
  have h1 : r - l ≠ 0 := sub_ne_zero.2 hlr
  have h3 : t - b ≠ 0 := sub_ne_zero.2 hbt
  have h4 : f - n ≠ 0 := sub_ne_zero.2 hfn
  constructor
  · rintro ⟨⟨_, _, _, h⟩, ⟨_, _, _, h'⟩⟩
    unfold glmOrtho transposeIf pt at h h'
    rw [if_neg (by simp)] at h h'
    have e := ((projects_iff (mulVec4 ..)).1 h).2.1
    have e' := ((projects_iff (mulVec4 ..)).1 h').2.1
    field_simp at e e'
    have : (f - n) * (r + l) = 0 := by linear_combination e' - e
    exact (mul_eq_zero.1 this).resolve_left h4
  · intro hs
    have hl : l = -r := by linear_combination hs
    subst hl
    have hr : r ≠ 0 := by rintro rfl; simp at hlr
    refine ⟨⟨?_, ?_, ?_, ?_⟩, ⟨?_, ?_, ?_, ?_⟩⟩ <;>
      (unfold glmOrtho transposeIf
       rw [if_neg (by simp)]
       simp only [sub_neg_eq_add, ← two_mul, add_neg_cancel, neg_zero, zero_div]
       refine (projects_iff (mulVec4 ..)).2 ⟨?_, ?_, ?_, ?_⟩ <;> field_simp <;>
         first | ring1 | simp_all)

end

example : FrustumCorners (glmFrustum (-1 : ℚ) 3 (-2) 2 1 10) (-1) 3 (-2) 2 1 10 ∧
    BoxCorners (glmOrtho (-1 : ℚ) 1 3 7 1 10) (-1) 1 3 7 1 10 :=
  ⟨(frustum_corners_iff (by norm_num) (by norm_num) (by norm_num) (by norm_num) (by norm_num)
    (by norm_num)).2 (by norm_num),
   (ortho_corners_iff (by norm_num) (by norm_num) (by norm_num) (by norm_num)).2 (by norm_num)⟩

/-- Volumes that are not symmetric are not projected on the cube. -/
theorem projection_corners_fails :
    ¬ FrustumCorners (glmFrustum (-1 : ℚ) 1 0 2 1 10) (-1) 1 0 2 1 10 ∧
    ¬ BoxCorners (glmOrtho (0 : ℚ) 2 (-1) 1 1 10) 0 2 (-1) 1 1 10 := by
  constructor
  · rw [frustum_corners_iff] <;> norm_num
  · rw [ortho_corners_iff] <;> norm_num

/-- A perspective always projects its volume on the cube. -/
theorem perspective_corners {fovy aspect n f : ℝ} (h0 : 0 < fovy) (h1 : fovy < 180)
    (ha : aspect ≠ 0) (hn : n ≠ 0) (hf : f ≠ 0) (hfn : f ≠ n) :
    let h := n * Real.tan (fovy / 2 * (Real.pi / 180))
    FrustumCorners (glmPerspective fovy aspect n f) (-(aspect * h)) (aspect * h) (-h) h n f := by
  have ht := tan_pos h0 h1
  have he : fovy / 2 * (Real.pi / 180) = 1 / 2 * radians fovy := by unfold radians; ring
  simp only [glmPerspective, he]
  generalize Real.tan (1 / 2 * radians fovy) = T at *
  have hT : T ≠ 0 := ht.ne'
  have e1 : aspect * (n * T) = T * n * aspect := by ring
  have e2 : n * T = T * n := by ring
  rw [e1, e2]
  have p1 : T * n ≠ 0 := mul_ne_zero hT hn
  have p2 : T * n * aspect ≠ 0 := mul_ne_zero p1 ha
  refine (frustum_corners_iff (by norm_num) ?_ ?_ hn hf hfn).2 (by ring)
  · intro h; apply p2; linarith
  · intro h; apply p1; linarith

/-- In front of the eye, what a perspective projects in the cube is what lies in its volume. -/
theorem perspective_inside_iff {fovy aspect n f x y z : ℝ} (h0 : 0 < fovy) (h1 : fovy < 180)
    (ha : 0 < aspect) (hn : 0 < n) (hf : n < f) (hz : z < 0) :
    (∃ a b c : ℝ, |a| ≤ 1 ∧ |b| ≤ 1 ∧ |c| ≤ 1 ∧
      Projects (glmPerspective fovy aspect n f) (pt x y z) (pt a b c)) ↔
    (|x| ≤ -z * (aspect * Real.tan (fovy / 2 * (Real.pi / 180))) ∧
      |y| ≤ -z * Real.tan (fovy / 2 * (Real.pi / 180)) ∧ n ≤ -z ∧ -z ≤ f) := by
  have ht := tan_pos h0 h1
  have he : fovy / 2 * (Real.pi / 180) = 1 / 2 * radians fovy := by unfold radians; ring
  simp only [glmPerspective, he]
  generalize Real.tan (1 / 2 * radians fovy) = T at *
  have hfn : 0 < f - n := by linarith
  have hmul : glmFrustum (-(T * n * aspect)) (T * n * aspect) (-(T * n)) (T * n) n f *ᵥ pt x y z =
      ![x / (T * aspect), y / T, (-(f + n) * z - 2 * n * f) / (f - n), -z] := by
    unfold glmFrustum transposeIf pt
    rw [if_neg (by simp), mulVec4]
    ext i
    fin_cases i <;> simp <;> field_simp <;> ring
  simp only [projects_iff hmul]
  have hz' : 0 < -z := by linarith
  have hz0 : z ≠ 0 := hz.ne
  have hTa : 0 < T * aspect := mul_pos ht ha
  constructor
  · rintro ⟨a, b, c, h1, h2, h3, _, ex, ey, ez⟩
    rw [div_eq_iff hTa.ne'] at ex
    rw [div_eq_iff ht.ne'] at ey
    rw [div_eq_iff hfn.ne'] at ez
    rw [abs_le] at h3
    refine ⟨?_, ?_, ?_, ?_⟩
    · rw [ex, abs_mul, abs_mul, abs_of_pos hz', abs_of_pos hTa]
      have := mul_le_mul_of_nonneg_left h1 (mul_pos hz' hTa).le
      linarith
    · rw [ey, abs_mul, abs_mul, abs_of_pos hz', abs_of_pos ht]
      have := mul_le_mul_of_nonneg_left h2 (mul_pos hz' ht).le
      linarith
    · by_contra hc
      nlinarith [mul_pos hfn hz']
    · nlinarith [mul_pos hfn hz']
  · rintro ⟨h1, h2, h3, h4⟩
    refine ⟨x / (T * aspect) / (-z), y / T / (-z), (-(f + n) * z - 2 * n * f) / (f - n) / (-z),
      ?_, ?_, ?_, hz'.ne', ?_, ?_, ?_⟩
    · rw [abs_div, abs_div, abs_of_pos hz', abs_of_pos hTa, div_le_one hz', div_le_iff₀ hTa]
      linarith
    · rw [abs_div, abs_div, abs_of_pos hz', abs_of_pos ht, div_le_one hz', div_le_iff₀ ht]
      exact h2
    · rw [abs_div, abs_of_pos hz', div_le_one hz', abs_div, abs_of_pos hfn, div_le_iff₀ hfn, abs_le]
      constructor <;> nlinarith
    · field_simp
    · field_simp
    · field_simp

example : (0 : ℝ) < 35 ∧ (35 : ℝ) < 180 ∧ (0 : ℝ) < 1 ∧ (1 : ℝ) < 100 ∧ (-5 : ℝ) < 0 := by norm_num

/-! ### C42 -/

section
variable {K : Type} [Field K]

/-- `translate` adds to every point. -/
theorem translate_adds (a b c x y z : K) :
    glmTranslate a b c *ᵥ pt x y z = pt (x + a) (y + b) (z + c) := by
  unfold glmTranslate transposeIf pt
  rw [if_neg (by simp), mulVec4]
  simp

/-- `scale` multiplies each coordinate. -/
theorem scale_multiplies (a b c x y z : K) :
    glmScale a b c *ᵥ pt x y z = pt (a * x) (b * y) (c * z) := by
  unfold glmScale transposeIf pt
  rw [if_neg (by simp), mulVec4]
  simp

/-- `viewport` takes the cube to the rectangle: -1 to the origin and 1 to the other end, and all
that is between linearly. -/
theorem viewport_maps (h2 : (2 : K) ≠ 0) (x y w h d s t u : K) :
    glmViewport x y w h d *ᵥ pt (2 * s - 1) (2 * t - 1) (2 * u - 1) =
      pt (x + s * w) (y + t * h) (u * d) := by
  unfold glmViewport transposeIf pt
  rw [if_neg (by simp), mulVec4]
  ext i
  fin_cases i <;> simp <;> field_simp <;> ring

/-- Corners of the cube go to corners of the rectangle. -/
theorem viewport_corners (h2 : (2 : K) ≠ 0) (x y w h d : K) :
    glmViewport x y w h d *ᵥ pt (-1) (-1) (-1) = pt x y 0 ∧
    glmViewport x y w h d *ᵥ pt 1 (-1) (-1) = pt (x + w) y 0 ∧
    glmViewport x y w h d *ᵥ pt (-1) 1 (-1) = pt x (y + h) 0 ∧
    glmViewport x y w h d *ᵥ pt 1 1 1 = pt (x + w) (y + h) d := by
  refine ⟨?_, ?_, ?_, ?_⟩
  · simpa using viewport_maps h2 x y w h d 0 0 0
  · have := viewport_maps h2 x y w h d 1 0 0
    norm_num at this; exact this
  · have := viewport_maps h2 x y w h d 0 1 0
    norm_num at this; exact this
  · have := viewport_maps h2 x y w h d 1 1 1
    norm_num at this; exact this

/-- Translations compose by adding and scales by multiplying, and both invert. -/
theorem translate_scale_compose (a b c a' b' c' : K) :
    glmTranslate a b c * glmTranslate a' b' c' = glmTranslate (a + a') (b + b') (c + c') ∧
    glmScale a b c * glmScale a' b' c' = glmScale (a * a') (b * b') (c * c') ∧
    glmTranslate a b c * glmTranslate (-a) (-b) (-c) = 1 ∧
    (a ≠ 0 → b ≠ 0 → c ≠ 0 → glmScale a b c * glmScale a⁻¹ b⁻¹ c⁻¹ = 1) := by
  refine ⟨?_, ?_, ?_, ?_⟩
  · ext i j
    fin_cases i <;> fin_cases j <;>
      simp [glmTranslate, transposeIf, Matrix.mul_apply, Fin.sum_univ_four] <;> ring
  · ext i j
    fin_cases i <;> fin_cases j <;>
      simp [glmScale, transposeIf, Matrix.mul_apply, Fin.sum_univ_four]
  · ext i j
    fin_cases i <;> fin_cases j <;>
      simp [glmTranslate, transposeIf, Matrix.mul_apply, Fin.sum_univ_four]
  · intro ha hb hc
    ext i j
    fin_cases i <;> fin_cases j <;>
      simp [glmScale, transposeIf, Matrix.mul_apply, Fin.sum_univ_four, ha, hb, hc]

/-- The `transpose` option gives the transposed matrix, which acts on points from the right. -/
theorem transpose_option (a b c : K) :
    glmTranslate a b c true = (glmTranslate a b c).transpose ∧
    glmScale a b c true = (glmScale a b c).transpose ∧
    ∀ v, v ᵥ* glmTranslate a b c true = glmTranslate a b c *ᵥ v := by
  refine ⟨rfl, rfl, fun v => ?_⟩
  exact Matrix.vecMul_transpose _ _

end

example : glmViewport (10 : ℚ) 20 100 50 1 *ᵥ pt 1 1 1 = pt 110 70 1 := by
  have := (viewport_corners (K := ℚ) (by norm_num) 10 20 100 50 1).2.2.2
  norm_num at this
  exact this

/-! ### C54 -/

/-- The eye goes to the origin. -/
theorem lookat_eye (eps : ℝ) (eye center up : V3) :
    glmLookat eps eye center up *ᵥ eye.point = pt 0 0 0 := by
  unfold glmLookat V3.point pt
  rw [mulVec4]
  ext i
  fin_cases i <;> simp [V3.dot]

/-- The centre goes in front of the eye, on the axis of depth and at its distance from the eye. -/
theorem lookat_center {eye center : V3} (h : (eye.sub center).norm ≠ 0) (up : V3) :
    glmLookat 0 eye center up *ᵥ center.point = pt 0 0 (-(eye.sub center).norm) := by
  have hn := norm_sq (eye.sub center)
  unfold glmLookat V3.point pt
  rw [mulVec4]
  simp only [glmNormalize, V3.smul, V3.cross, V3.sub, V3.dot, zero_add] at hn h ⊢
  set d := V3.norm ⟨eye.x - center.x, eye.y - center.y, eye.z - center.z⟩
  ext i
  fin_cases i
  · simp; field_simp; ring
  · simp; field_simp; ring
  · simp; field_simp; linear_combination hn
  · simp

/-- When the eye is not at the centre and `up` not along the line of sight, the view is a rotation
about the eye: it turns the world and moves the eye to the origin. -/
theorem lookat_rigid {eye center up : V3} (h : (eye.sub center).norm ≠ 0)
    (hup : (up.cross (eye.sub center)).norm ≠ 0) :
    ∃ R, IsRotation R ∧
      glmLookat 0 eye center up = R * glmTranslate (-eye.x) (-eye.y) (-eye.z) := by
  obtain ⟨X, Z, hX, hZ, hXZ, -, -, hM⟩ := lookat_frame h hup
  refine ⟨!![X.x, X.y, X.z, 0; (Z.cross X).x, (Z.cross X).y, (Z.cross X).z, 0; Z.x, Z.y, Z.z, 0;
    0, 0, 0, 1], rotation_of_frame hX hZ hXZ, ?_⟩
  rw [hM]
  ext i j
  fin_cases i <;> fin_cases j <;>
    simp [glmTranslate, transposeIf, Matrix.mul_apply, Fin.sum_univ_four, V3.dot] <;> ring

/-- The direction `up` is seen upright: not to the left nor to the right, and upwards. -/
theorem lookat_up {eye center up : V3} (h : (eye.sub center).norm ≠ 0)
    (hup : (up.cross (eye.sub center)).norm ≠ 0) :
    ∃ y z, 0 < y ∧ glmLookat 0 eye center up *ᵥ ![up.x, up.y, up.z, 0] = ![0, y, z, 0] := by
  obtain ⟨X, Z, hX, hZ, hXZ, hpos, hXu, hM⟩ := lookat_frame h hup
  refine ⟨(Z.cross X).dot up, Z.dot up, hpos, ?_⟩
  rw [hM, mulVec4]
  simp only [V3.dot] at hXu ⊢
  ext i
  fin_cases i <;> simp
  linear_combination hXu

example : (V3.sub ⟨0, 0, 5⟩ ⟨0, 0, 0⟩).norm = 5 ∧
    (V3.cross ⟨0, 1, 0⟩ (V3.sub ⟨0, 0, 5⟩ ⟨0, 0, 0⟩)).norm = 5 := by
  have h : Real.sqrt (5 * 5) = 5 := Real.sqrt_mul_self (by norm_num)
  constructor <;> simp [V3.norm, V3.sub, V3.cross, V3.dot, h]

/-- With the default eye, centre and up vector, everything is seen on a line: the view matrix has
no inverse. And the `transpose` option does nothing. -/
theorem lookat_fails (eps : ℝ) :
    (glmLookat eps ⟨0, 0, 9 / 2⟩ ⟨0, 0, 0⟩ ⟨0, 0, 1⟩).det = 0 ∧
    ∃ eye center up, glmLookat 0 eye center up true ≠ (glmLookat 0 eye center up).transpose := by
  constructor
  · unfold glmLookat
    rw [det4]
    simp [glmNormalize, V3.smul, V3.sub, V3.cross]
  · refine ⟨⟨0, 0, 5⟩, ⟨0, 0, 0⟩, ⟨0, 1, 0⟩, fun h => ?_⟩
    have := congrFun (congrFun h 2) 3
    have h5 : Real.sqrt (5 * 5) = 5 := Real.sqrt_mul_self (by norm_num)
    simp [glmLookat, glmNormalize, V3.smul, V3.sub, V3.norm, V3.dot, h5] at this

/-! ### C55 -/

/-- Of two vectors that are not parallel, `align` gives a rotation, that takes the direction of the
first to that of the second. -/
theorem align_takes {U V : V3} (hU : U.norm ≠ 0) (hV : V.norm ≠ 0) (hUV : (U.cross V).norm ≠ 0) :
    ∃ M, glmAlign 0 U V = some M ∧ IsRotation M ∧
      M *ᵥ pt (U.x / U.norm) (U.y / U.norm) (U.z / U.norm) =
        pt (V.x / V.norm) (V.y / V.norm) (V.z / V.norm) := by
  have ha := normalize_unit hU
  have hb := normalize_unit hV
  have ea : pt (U.x / U.norm) (U.y / U.norm) (U.z / U.norm) = (glmNormalize 0 U).point := by
    simp [pt, V3.point, glmNormalize, V3.smul, div_eq_inv_mul]
  have eb : pt (V.x / V.norm) (V.y / V.norm) (V.z / V.norm) = (glmNormalize 0 V).point := by
    simp [pt, V3.point, glmNormalize, V3.smul, div_eq_inv_mul]
  have hs : ((glmNormalize 0 U).cross (glmNormalize 0 V)).norm ≠ 0 := by
    rw [norm_ne_zero] at hUV ⊢
    intro h0
    apply hUV
    simp only [glmNormalize, V3.smul, V3.cross, zero_add, V3.mk.injEq] at h0 ⊢
    field_simp at h0
    obtain ⟨h1, h2, h3⟩ := h0
    refine ⟨?_, ?_, ?_⟩
    · linear_combination h1
    · linear_combination h2
    · linear_combination h3
  rw [ea, eb]
  unfold glmAlign
  simp only [if_neg hs]
  generalize glmNormalize 0 U = a at *
  generalize glmNormalize 0 V = b at *
  have hsq := norm_sq (a.cross b)
  set s := (a.cross b).norm with hsd
  have hlag : s * s = 1 - a.dot b * a.dot b := by
    rw [hsq]
    simp only [V3.cross, V3.dot] at ha hb ⊢
    linear_combination (b.x * b.x + b.y * b.y + b.z * b.z) * ha + hb
  set c := a.dot b with hc
  obtain ⟨k, hk⟩ : ∃ k, k = (1 - c) / s ^ 2 := ⟨_, rfl⟩
  have hks : k * (s * s) = 1 - c := by rw [hk]; field_simp
  have hc1 : k * (1 + c) = 1 := by
    have : (1 - c) ≠ 0 := by
      intro h0
      apply hs
      have : s * s = 0 := by rw [hlag]; linear_combination (1 + c) * h0
      exact mul_self_eq_zero.1 this
    apply mul_left_cancel₀ this
    rw [mul_one]
    linear_combination hks + k * (-hlag)
  rw [← hk]
  have hvv : k * ((a.cross b).x * (a.cross b).x + (a.cross b).y * (a.cross b).y +
      (a.cross b).z * (a.cross b).z) = 1 - c := by
    rw [← hks, hsq]; rfl
  have hb' : ∀ f : V3 → ℝ, (f = V3.x ∨ f = V3.y ∨ f = V3.z) →
      f ((a.cross b).cross a) = f b - c * f a := by
    simp only [V3.dot] at ha hc
    rintro f (rfl | rfl | rfl) <;> simp only [V3.cross, hc]
    · linear_combination b.x * ha
    · linear_combination b.y * ha
    · linear_combination b.z * ha
  have hva : (a.cross b).dot a = 0 := by simp only [V3.cross, V3.dot]; ring
  have hx := hb' V3.x (by simp)
  have hy := hb' V3.y (by simp)
  have hz := hb' V3.z (by simp)
  generalize a.cross b = v at *
  refine ⟨_, rfl, ?_, ?_⟩
  · convert rodrigues_rotation hvv hc1 using 1
    ext i j
    fin_cases i <;> fin_cases j <;>
      simp [transposeIf] <;> first | ring1 | (left; ring1)
  · unfold transposeIf V3.point
    rw [if_neg (by simp), mulVec4]
    simp only [V3.dot, V3.cross] at hva hx hy hz
    ext i
    fin_cases i
    · simp
      linear_combination hx - a.x * hvv + k * v.x * hva
    · simp
      linear_combination hy - a.y * hvv + k * v.y * hva
    · simp
      linear_combination hz - a.z * hvv + k * v.z * hva
    · simp

example : (V3.mk 2 0 0).norm = 2 ∧ (V3.mk 0 2 0).norm = 2 ∧
    ((V3.mk 2 0 0).cross (V3.mk 0 2 0)).norm = 4 := by
  have h : Real.sqrt (2 * 2) = 2 := Real.sqrt_mul_self (by norm_num)
  have h4 : Real.sqrt (2 * 2 * (2 * 2)) = 4 := by
    rw [show (2 : ℝ) * 2 * (2 * 2) = 4 * 4 by norm_num]; exact Real.sqrt_mul_self (by norm_num)
  refine ⟨?_, ?_, ?_⟩ <;> simp [V3.norm, V3.cross, V3.dot, h, h4]

/-- There is no matrix of numbers for two vectors that are parallel, such as a vector and itself. -/
theorem align_fails (eps t : ℝ) (U : V3) : glmAlign eps U (V3.smul t U) = none := by
  unfold glmAlign
  simp only
  rw [if_pos]
  by_contra h
  apply (norm_ne_zero _).1 h
  refine V3.ext' ?_ ?_ ?_ <;> simp only [glmNormalize, V3.smul, V3.cross] <;> ring

end Verif
