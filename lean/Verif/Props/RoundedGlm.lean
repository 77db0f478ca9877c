import Verif.Lemmas.RoundedGlm
import Verif.Lemmas.Rounded
import Verif.Props.Glm
/-
C109: rounding keeps what a projection shows.
-/

namespace Verif

open Matrix

section
variable {K : Type} [Field K] [LinearOrder K] [IsStrictOrderedRing K] {u : K}

/-- **C109.** Every entry of `frustum` is the exact one after at most 5 roundings, and of `ortho` after at most 4. -/
theorem projections_rounded (h0 : 0 ≤ u) (h1 : u < 1) {fl st : K → K} (hfl : RoundsBy u fl) (hst : RoundsBy u st)
    (l r b t n f : K) (tr : Bool) :
    EntriesWithin (1 / (1 - u) ^ 5 - 1) (glmFrustum l r b t n f tr) (frustumRounded fl st l r b t n f tr) ∧
    EntriesWithin (1 / (1 - u) ^ 4 - 1) (glmOrtho l r b t n f tr) (orthoRounded fl st l r b t n f tr) := by
  have r0 : ∀ x : K, NearBy u 0 x x := fun x => NearBy.refl h0 h1 x
  have F := fun i j => (frustum_near h0 h1 hfl hst (k := 0) (k' := 0) n f (r0 (r - l)) (r0 (r + l)) (r0 (t - b))
    (r0 (t + b)) i j).within h0 h1
  have O := fun i j => (ortho_near h0 h1 hfl hst l r b t n f i j).within h0 h1
  cases tr
  · exact ⟨F, O⟩
  · exact ⟨fun i j => F j i, fun i j => O j i⟩

end

/-- Cutting after 24 bits is such a rounding, and an entry of -11/9 is changed by it. -/
example : RoundsBy (1 / 2 ^ 24 : ℚ) (chop 24) ∧ glmFrustum (-1 : ℚ) 1 (-1) 1 1 10 false 2 2 = -11 / 9 ∧
    chop 24 (-11 / 9) ≠ -11 / 9 :=
  ⟨chop_close 24, by decide +kernel, by decide +kernel⟩

/-- **C109.** Every entry of `perspective` is the exact one after at most 8 roundings. -/
theorem perspective_rounded {u : ℝ} (h0 : 0 ≤ u) (h1 : u < 1) {fl st tn : ℝ → ℝ} (hfl : RoundsBy u fl)
    (hst : RoundsBy u st) (htn : TanWithin u tn) (fovy aspect n f : ℝ) (tr : Bool) :
    EntriesWithin (1 / (1 - u) ^ 8 - 1) (glmPerspective fovy aspect n f tr)
      (perspectiveRounded fl st tn fovy aspect n f tr) := by
  have P := fun i j => (perspective_near h0 h1 hfl hst htn fovy aspect n f i j).within h0 h1
  cases tr
  · exact P
  · exact fun i j => P j i

/-- **C109.** With numbers of 24 bits, a point in front of the near plane is seen where the exact perspective shows
it, up to a part of 5 in 10^7 of its distance from the middle, and its depth, which goes from -1 to 1, changes by
less than 4 in 10^6. -/
theorem perspective_point_rounded {fl st tn : ℝ → ℝ} (hfl : RoundsBy (1 / 2 ^ 24) fl)
    (hst : RoundsBy (1 / 2 ^ 24) st) (htn : TanWithin (1 / 2 ^ 24) tn) {fovy aspect n f x y z a b c : ℝ}
    (hn : 0 < n) (hf : 2 * n ≤ f) (hz : z ≤ -n)
    (h : Projects (glmPerspective fovy aspect n f) (pt x y z) (pt a b c)) :
    ∃ a' b' c', Projects (perspectiveRounded fl st tn fovy aspect n f) (pt x y z) (pt a' b' c') ∧
      |a' - a| ≤ 5 / 10 ^ 7 * |a| ∧ |b' - b| ≤ 5 / 10 ^ 7 * |b| ∧ |c' - c| ≤ 4 / 10 ^ 6 := by
  have W := perspective_rounded (by norm_num) (by norm_num) hfl hst htn fovy aspect n f false
  have W' : ∀ i j, |perspectiveRounded fl st tn fovy aspect n f false i j - glmPerspective fovy aspect n f false i j| ≤
      5 / 10 ^ 7 * |glmPerspective fovy aspect n f false i j| := fun i j =>
    (W i j).trans (mul_le_mul_of_nonneg_right (by norm_num) (abs_nonneg _))
  have hM := (perspective_sparse fovy aspect n f).apply
  have hM' := (perspective_rounded_sparse (by norm_num) (by norm_num) hfl hst htn fovy aspect n f).apply
  obtain ⟨eC, eD⟩ := perspective_entries fovy aspect n f
  have hA := W' 0 0
  have hB := W' 1 1
  have hC := W' 2 2
  have hD := W' 2 3
  generalize glmPerspective fovy aspect n f false = M at *
  generalize perspectiveRounded fl st tn fovy aspect n f false = M' at *
  generalize M 0 0 = A at *
  generalize M 1 1 = B at *
  generalize M 2 2 = C at *
  generalize M 2 3 = D at *
  generalize M' 0 0 = A' at *
  generalize M' 1 1 = B' at *
  generalize M' 2 2 = C' at *
  generalize M' 2 3 = D' at *
  obtain ⟨w, rfl⟩ : ∃ w, z = -w := ⟨-z, by ring⟩
  have hz' : 0 < w := by linarith
  have hfn : 0 < f - n := by linarith
  have hM := hM x y (-w)
  have hM' := hM' x y (-w)
  rw [neg_neg] at hM hM'
  obtain ⟨hw, ex, ey, ez⟩ := (projects_iff hM).1 h
  refine ⟨A' * x / w, B' * y / w, (C' * -w + D') / w, (projects_iff hM').2
    ⟨hz'.ne', by field_simp, by field_simp, by field_simp⟩, ?_, ?_, ?_⟩
  · have e : a = A * x / w := by field_simp; linarith
    have : A' * x / w - a = (A' - A) * (x / w) := by rw [e]; ring
    rw [this, abs_mul]
    have e2 : |a| = |A| * |x / w| := by rw [← abs_mul, e]; congr 1; ring
    rw [e2, ← mul_assoc]
    exact mul_le_mul_of_nonneg_right hA (abs_nonneg _)
  · have e : b = B * y / w := by field_simp; linarith
    have : B' * y / w - b = (B' - B) * (y / w) := by rw [e]; ring
    rw [this, abs_mul]
    have e2 : |b| = |B| * |y / w| := by rw [← abs_mul, e]; congr 1; ring
    rw [e2, ← mul_assoc]
    exact mul_le_mul_of_nonneg_right hB (abs_nonneg _)
  · have e : c = (C * -w + D) / w := by field_simp; linarith
    have : (C' * -w + D') / w - c = -(C' - C) + (D' - D) / w := by rw [e]; field_simp; ring
    rw [this]
    have c3 : |C| ≤ 3 := by
      rw [eC, abs_div, abs_neg, abs_of_pos (by linarith), abs_of_pos hfn, div_le_iff₀ hfn]
      linarith
    have d4 : |D| ≤ 4 * w := by
      rw [eD, abs_div, abs_of_pos hfn, div_le_iff₀ hfn]
      have : |-2 * n * f| = 2 * n * f := by
        rw [show -2 * n * f = -(2 * n * f) by ring, abs_neg, abs_of_nonneg (by nlinarith)]
      rw [this]
      nlinarith
    have t1 : |-(C' - C)| ≤ 15 / 10 ^ 7 := by
      rw [abs_neg]
      exact hC.trans (by nlinarith)
    have t2 : |(D' - D) / w| ≤ 20 / 10 ^ 7 := by
      rw [abs_div, abs_of_pos hz', div_le_iff₀ hz']
      exact hD.trans (by nlinarith)
    refine (abs_add_le _ _).trans ?_
    linarith

/-- **C109.** Whatever the precision is, the rounded perspective gives the nearer of two points the smaller depth:
rounding the matrix never changes which point is in front. -/
theorem perspective_order_rounded {u : ℝ} (hu : 0 ≤ u) (hu1 : u < 1) {fl st tn : ℝ → ℝ} (hfl : RoundsBy u fl)
    (hst : RoundsBy u st) (htn : TanWithin u tn) {fovy aspect n f x y z a b c x' y' z' a' b' c' : ℝ}
    (hn : 0 < n) (hf : n < f) (hz' : z' < 0)
    (h : Projects (perspectiveRounded fl st tn fovy aspect n f) (pt x y z) (pt a b c))
    (h' : Projects (perspectiveRounded fl st tn fovy aspect n f) (pt x' y' z') (pt a' b' c')) (hlt : z < z') :
    c' < c := by
  have hM := (perspective_rounded_sparse hu hu1 hfl hst htn fovy aspect n f).apply
  have hD' : perspectiveRounded fl st tn fovy aspect n f false 2 3 < 0 := by
    obtain ⟨t, h1, -, e⟩ := perspective_near hu hu1 hfl hst htn fovy aspect n f 2 3
    rw [e, (perspective_entries fovy aspect n f).2]
    have ht : 0 < t := lt_of_lt_of_le (pow_pos' hu hu1 8) h1
    refine mul_neg_of_neg_of_pos (div_neg_of_neg_of_pos ?_ (by linarith)) ht
    nlinarith
  generalize perspectiveRounded fl st tn fovy aspect n f false = M' at *
  generalize M' 2 2 = C at *
  generalize M' 2 3 = D' at *
  obtain ⟨w, rfl⟩ : ∃ w, z = -w := ⟨-z, by ring⟩
  obtain ⟨w', rfl⟩ : ∃ w', z' = -w' := ⟨-z', by ring⟩
  have e1 := hM x y (-w)
  have e2 := hM x' y' (-w')
  rw [neg_neg] at e1 e2
  obtain ⟨-, -, -, ez⟩ := (projects_iff e1).1 h
  obtain ⟨-, -, -, ez'⟩ := (projects_iff e2).1 h'
  have hw' : 0 < w' := by linarith
  have hw : 0 < w := by linarith
  have e : c = -C + D' / w := by
    field_simp
    linarith
  have e' : c' = -C + D' / w' := by
    field_simp
    linarith
  have hh : D' / w' < D' / w := by
    rw [div_lt_div_iff₀ hw' hw]
    nlinarith
  linarith

/-- A window of 640 by 480 pixels, 35 degrees high: a point 5 in front of the eye, and one behind it. -/
example : RoundsBy (1 / 2 ^ 24 : ℝ) id ∧ TanWithin (1 / 2 ^ 24) (fun v => Real.tan (v / 2 * (Real.pi / 180))) ∧
    (0 : ℝ) < 1 ∧ 2 * (1 : ℝ) ≤ 100 ∧ (-5 : ℝ) ≤ -1 ∧ ∃ c c',
    Projects (glmPerspective 35 (4 / 3) 1 100) (pt 0 0 (-5)) (pt 0 0 c) ∧
    Projects (glmPerspective 35 (4 / 3) 1 100) (pt 0 0 (-7)) (pt 0 0 c') ∧ c < c' := by
  refine ⟨fun x => by simp, fun v => by simp [WithinPart], by norm_num, by norm_num, by norm_num,
    61 / 99, 169 / 231, ?_, ?_, by norm_num⟩
  · refine (projects_iff ((perspective_sparse 35 (4 / 3) 1 100).apply 0 0 (-5))).2 ⟨by norm_num, by simp, by simp, ?_⟩
    rw [(perspective_entries _ _ _ _).1, (perspective_entries _ _ _ _).2]
    norm_num
  · refine (projects_iff ((perspective_sparse 35 (4 / 3) 1 100).apply 0 0 (-7))).2 ⟨by norm_num, by simp, by simp, ?_⟩
    rw [(perspective_entries _ _ _ _).1, (perspective_entries _ _ _ _).2]
    norm_num

/-- Rounding moves the near plane: with 24 bits its depth is not exactly -1. -/
theorem rounded_near_plane_moves : ∃ (l r b t n f : ℚ) (fl : ℚ → ℚ), RoundsBy (1 / 2 ^ 24) fl ∧
    FrustumCorners (glmFrustum l r b t n f) l r b t n f ∧ ¬ FrustumCorners (frustumRounded fl fl l r b t n f) l r b t n f := by
  refine ⟨-1, 1, -1, 1, 1, 11, chop 24, chop_close 24, ?_, ?_⟩
  · exact (frustum_corners_iff (by norm_num) (by norm_num) (by norm_num) (by norm_num) (by norm_num)
      (by norm_num)).2 (by norm_num)
  · rintro ⟨⟨h, -⟩, -⟩
    unfold frustumRounded transposeIf at h
    rw [if_neg (by simp)] at h
    have := ((projects_iff (mulVec4 ..)).1 h).2.2.2
    have hz : chop 24 (chop 24 (chop 24 (1 + -1) / chop 24 (1 - -1))) = 0 := by decide +kernel
    have k : ¬ (-chop 24 (chop 24 (-chop 24 (11 + 1) / chop 24 (11 - 1))) +
        chop 24 (chop 24 (chop 24 (chop 24 (-2 * 1) * 11) / chop 24 (11 - 1))) = -1) := by decide +kernel
    rw [hz] at this
    exact k (by linarith)

end Verif
