import Mathlib.Algebra.BigOperators.Field
import Verif.Spec.Fill
import Verif.Lemmas.Clip
/-
Lemmas for Props/Fill.
-/

namespace Verif

open Matrix

theorem mulVec_mix (T : Mat4 ℝ) (vs : Fin 3 → V3) (t : Fin 3 → ℝ) (h : ∑ i, t i = 1) (j : Fin 4) :
    (T *ᵥ ![∑ i, t i * (vs i).x, ∑ i, t i * (vs i).y, ∑ i, t i * (vs i).z, 1]) j =
      ∑ i, t i * (T *ᵥ ![(vs i).x, (vs i).y, (vs i).z, 1]) j := by
  have h' : T j 3 * 1 = T j 3 * ∑ i, t i := by rw [h]
  simp only [Matrix.mulVec, dotProduct, Fin.sum_univ_four, Fin.sum_univ_three] at *
  simp at *
  linear_combination h'

theorem mix_pos {w t : Fin 3 → ℝ} (hw : ∀ i, 0 < w i) (ht : ∀ i, 0 ≤ t i) (h : ∑ i, t i = 1) : 0 < ∑ i, t i * w i := by
  refine Finset.sum_pos' (fun i _ => mul_nonneg (ht i) (hw i).le) ?_
  by_contra hc
  push Not at hc
  have : ∑ i, t i = 0 := by
    refine Finset.sum_eq_zero (fun i hi => ?_)
    have h1 := hc i hi
    have h2 := ht i
    by_contra hne
    have : 0 < t i := lt_of_le_of_ne h2 (Ne.symm hne)
    have := mul_pos this (hw i)
    linarith
  rw [this] at h
  norm_num at h

theorem screenOf_eq (T : Mat4 ℝ) {v p : V3} (h : ahead T v ≠ 0) (hp : screenOf T v = some p) :
    (T *ᵥ ![v.x, v.y, v.z, 1]) 0 = ahead T v * p.x ∧ (T *ᵥ ![v.x, v.y, v.z, 1]) 1 = ahead T v * p.y := by
  obtain ⟨ex, ey⟩ := screenOf_some hp
  rw [ex, ey]
  constructor <;> field_simp

end Verif
