import Verif.Lemmas.Glm
import Mathlib.Tactic.Positivity
/-
What the small number of `normalize` does to a vector: it shortens it a little.
-/

namespace Verif

theorem norm_nonneg' (v : V3) : 0 ≤ v.norm := Real.sqrt_nonneg _

theorem norm_smul {t : ℝ} (ht : 0 ≤ t) (v : V3) : (V3.smul t v).norm = t * v.norm := by
  have h : (V3.smul t v).dot (V3.smul t v) = t * t * v.dot v := by
    simp only [V3.smul, V3.dot]; ring
  unfold V3.norm
  rw [h, Real.sqrt_mul (mul_self_nonneg t), Real.sqrt_mul_self ht]

/-- How much `normalize` shortens a vector of length `n`. -/
noncomputable def shrink (eps n : ℝ) : ℝ := n / (eps + n)

theorem shrink_pos {eps n : ℝ} (he : 0 ≤ eps) (hn : 0 < n) : 0 < shrink eps n := by
  unfold shrink; positivity

theorem shrink_le {eps n : ℝ} (he : 0 ≤ eps) (hn : 0 < n) : shrink eps n ≤ 1 := by
  unfold shrink
  rw [div_le_one (by linarith)]
  linarith

theorem shrink_near {eps n : ℝ} (he : 0 ≤ eps) (hn : 0 < n) : 1 - eps / n ≤ shrink eps n := by
  unfold shrink
  rw [le_div_iff₀ (by linarith)]
  have : (1 - eps / n) * (eps + n) = n - eps * (eps / n) := by field_simp; ring
  rw [this]
  have : 0 ≤ eps * (eps / n) := by positivity
  linarith

theorem normalize_shrink {eps : ℝ} (v : V3) (h : v.norm ≠ 0) :
    glmNormalize eps v = V3.smul (shrink eps v.norm) (glmNormalize 0 v) := by
  unfold glmNormalize shrink V3.smul
  simp only [zero_add, V3.mk.injEq]
  refine ⟨?_, ?_, ?_⟩ <;> field_simp

theorem normalize_smul {t : ℝ} (ht : 0 < t) (v : V3) :
    glmNormalize 0 (V3.smul t v) = glmNormalize 0 v := by
  unfold glmNormalize
  rw [norm_smul ht.le]
  simp only [V3.smul, zero_add, V3.mk.injEq]
  refine ⟨?_, ?_, ?_⟩ <;> field_simp

theorem cross_smul (s t : ℝ) (u v : V3) :
    (V3.smul s u).cross (V3.smul t v) = V3.smul (s * t) (u.cross v) := by
  simp only [V3.smul, V3.cross, V3.mk.injEq]
  refine ⟨?_, ?_, ?_⟩ <;> ring

theorem cross_smul_right (t : ℝ) (u v : V3) : u.cross (V3.smul t v) = V3.smul t (u.cross v) := by
  simp only [V3.smul, V3.cross, V3.mk.injEq]
  refine ⟨?_, ?_, ?_⟩ <;> ring

theorem dot_smul (s t : ℝ) (u v : V3) : (V3.smul s u).dot (V3.smul t v) = s * t * u.dot v := by
  simp only [V3.smul, V3.dot]; ring

theorem norm_unit {v : V3} (h : v.dot v = 1) : v.norm = 1 := by
  unfold V3.norm; rw [h, Real.sqrt_one]

/-- The matrix of `align`. -/
def alignOf (x y z k : ℝ) : Mat4 ℝ :=
  !![1 + k * -(y * y + z * z), -z + k * (x * y), y + k * (x * z), 0;
     z + k * (x * y), 1 + k * -(x * x + z * z), -x + k * (y * z), 0;
     -y + k * (x * z), x + k * (y * z), 1 + k * -(x * x + y * y), 0;
     0, 0, 0, 1]

/-- The matrix of `align`, entry by entry. -/
theorem align_matrix (x y z k : ℝ) :
    let K : Matrix (Fin 3) (Fin 3) ℝ := !![0, -z, y; z, 0, -x; -y, x, 0]
    let R : Matrix (Fin 3) (Fin 3) ℝ := 1 + K + k • (K * K)
    (!![R 0 0, R 0 1, R 0 2, 0; R 1 0, R 1 1, R 1 2, 0; R 2 0, R 2 1, R 2 2, 0; 0, 0, 0, 1] : Mat4 ℝ) =
      alignOf x y z k := by
  intro K R
  unfold alignOf
  ext i j
  fin_cases i <;> fin_cases j <;> simp [R, K] <;> first | ring1 | (left; ring1)

/-- How much the entries of two such matrices differ. -/
theorem align_entries {rho c s x y z E : ℝ} (hrho0 : 0 < rho) (hrho1 : rho ≤ 1) (hbound : 1 - rho ≤ E)
    (hE : 0 ≤ E) (hs0 : 0 < s) (hs1 : s ≤ 1) (hc1 : c ≤ 1) (hc2 : -1 ≤ c)
    (hsq : s ^ 2 = x ^ 2 + y ^ 2 + z ^ 2) (i j : Fin 4) :
    |(alignOf (rho * x) (rho * y) (rho * z) ((1 - rho * c) / (rho * s) ^ 2)) i j -
      (alignOf x y z ((1 - c) / s ^ 2)) i j| ≤ 2 * E := by
  have hrs : rho * s ≠ 0 := by positivity
  obtain ⟨k', hk'⟩ : ∃ k', k' = (1 - rho * c) / (rho * s) ^ 2 := ⟨_, rfl⟩
  obtain ⟨k, hk⟩ : ∃ k, k = (1 - c) / s ^ 2 := ⟨_, rfl⟩
  have hdiff : k' * rho ^ 2 - k = (1 - rho) * c / s ^ 2 := by
    rw [hk', hk]; field_simp; ring
  rw [← hk', ← hk]
  -- each entry differs by `(rho - 1) * t + (1 - rho) * c * w / s ^ 2`
  have key : ∀ t w D : ℝ, t ^ 2 ≤ s ^ 2 → -(s ^ 2) ≤ w → w ≤ s ^ 2 →
      D = (rho - 1) * t + (k' * rho ^ 2 - k) * w → |D| ≤ 2 * E := by
    intro t w D ht hw1 hw2 hD
    have ht1 : |t| ≤ s := abs_le_of_sq_le_sq ht hs0.le
    have hw : |w / s ^ 2| ≤ 1 := by
      rw [abs_div, abs_of_pos (by positivity : (0 : ℝ) < s ^ 2), div_le_one (by positivity)]
      exact abs_le.2 ⟨hw1, hw2⟩
    have hcabs : |c| ≤ 1 := abs_le.2 ⟨hc2, hc1⟩
    rw [hD, hdiff, show (1 - rho) * c / s ^ 2 * w = (1 - rho) * c * (w / s ^ 2) by ring]
    refine (abs_add_le _ _).trans ?_
    rw [abs_mul, abs_mul, abs_mul, abs_sub_comm rho 1, abs_of_nonneg (by linarith : 0 ≤ 1 - rho)]
    have t1 : (1 - rho) * |t| ≤ (1 - rho) * 1 :=
      mul_le_mul_of_nonneg_left (ht1.trans hs1) (by linarith)
    have t2 : (1 - rho) * |c| * |w / s ^ 2| ≤ (1 - rho) * 1 * 1 := by
      apply mul_le_mul _ hw (abs_nonneg _) (by linarith)
      exact mul_le_mul_of_nonneg_left hcabs (by linarith)
    linarith
  have hx2 : x ^ 2 ≤ s ^ 2 := by nlinarith [sq_nonneg y, sq_nonneg z]
  have hy2 : y ^ 2 ≤ s ^ 2 := by nlinarith [sq_nonneg x, sq_nonneg z]
  have hz2 : z ^ 2 ≤ s ^ 2 := by nlinarith [sq_nonneg y, sq_nonneg x]
  have h02 : (0 : ℝ) ^ 2 ≤ s ^ 2 := by rw [zero_pow (by norm_num)]; exact sq_nonneg s
  have hxy : -(s ^ 2) ≤ x * y ∧ x * y ≤ s ^ 2 :=
    ⟨by nlinarith [sq_nonneg (x + y), sq_nonneg z], by nlinarith [sq_nonneg (x - y), sq_nonneg z]⟩
  have hxz : -(s ^ 2) ≤ x * z ∧ x * z ≤ s ^ 2 :=
    ⟨by nlinarith [sq_nonneg (x + z), sq_nonneg y], by nlinarith [sq_nonneg (x - z), sq_nonneg y]⟩
  have hyz : -(s ^ 2) ≤ y * z ∧ y * z ≤ s ^ 2 :=
    ⟨by nlinarith [sq_nonneg (y + z), sq_nonneg x], by nlinarith [sq_nonneg (y - z), sq_nonneg x]⟩
  have hnx : -(s ^ 2) ≤ -(y * y + z * z) ∧ -(y * y + z * z) ≤ s ^ 2 :=
    ⟨by nlinarith [sq_nonneg x], by nlinarith [sq_nonneg y, sq_nonneg z, sq_nonneg s]⟩
  have hny : -(s ^ 2) ≤ -(x * x + z * z) ∧ -(x * x + z * z) ≤ s ^ 2 :=
    ⟨by nlinarith [sq_nonneg y], by nlinarith [sq_nonneg x, sq_nonneg z, sq_nonneg s]⟩
  have hnz : -(s ^ 2) ≤ -(x * x + y * y) ∧ -(x * x + y * y) ≤ s ^ 2 :=
    ⟨by nlinarith [sq_nonneg z], by nlinarith [sq_nonneg y, sq_nonneg x, sq_nonneg s]⟩
  clear hk hk' hdiff hsq hbound
  unfold alignOf
  have hzero : |(0 : ℝ) - 0| ≤ 2 * E := by simp [hE]
  have hone : |(1 : ℝ) - 1| ≤ 2 * E := by simp [hE]
  fin_cases i <;> fin_cases j
  · exact key 0 _ _ h02 hnx.1 hnx.2 (by simp; ring)
  · exact key (-z) _ _ (by simpa using hz2) hxy.1 hxy.2 (by simp; ring)
  · exact key y _ _ hy2 hxz.1 hxz.2 (by simp; ring)
  · exact hzero
  · exact key z _ _ hz2 hxy.1 hxy.2 (by simp; ring)
  · exact key 0 _ _ h02 hny.1 hny.2 (by simp; ring)
  · exact key (-x) _ _ (by simpa using hx2) hyz.1 hyz.2 (by simp; ring)
  · exact hzero
  · exact key (-y) _ _ (by simpa using hy2) hxz.1 hxz.2 (by simp; ring)
  · exact key x _ _ hx2 hyz.1 hyz.2 (by simp; ring)
  · exact key 0 _ _ h02 hnz.1 hnz.2 (by simp; ring)
  · exact hzero
  · exact hzero
  · exact hzero
  · exact hzero
  · exact hone

end Verif
