import Verif.Spec.Cover
import Verif.Lemmas.Clip
/-
Lemmas for Props/Cover.
-/

namespace Verif

open Matrix

/-- The depth of a point in front of the eye grows with its distance. -/
theorem depth_of_distance {fovy aspect n f : ℝ} (h0 : 0 < fovy) (h1 : fovy < 180) (ha : 0 < aspect) (hn : 0 < n)
    (hf : n < f) {V : Mat4 ℝ} (hV : Affine V) {v p : V3}
    (hp : screenOf (glmPerspective fovy aspect n f * V) v = some p) :
    p.z = (f + n) / (f - n) - 2 * n * f / (f - n) * (1 / eyeDistance V v) := by
  have hfn : f - n ≠ 0 := by linarith
  rw [screenOf_perspective h0 h1 ha hn hf hV v] at hp
  split at hp
  · cases hp
  · rename_i hz
    cases hp
    simp only [eyeDistance]
    field_simp
    ring

theorem sum_lt_of_all_lt {ps : List V3} {m : ℝ} (h0 : ps ≠ []) (h : ∀ p ∈ ps, p.z < m) :
    (ps.map V3.z).sum / ps.length < m := by
  have hl : (0 : ℝ) < ps.length := by exact_mod_cast List.length_pos_of_ne_nil h0
  rw [div_lt_iff₀ hl]
  induction ps with
  | nil => exact absurd rfl h0
  | cons p ps ih =>
    have hp := h p (by simp)
    rcases ps with _ | ⟨q, ps⟩
    · simpa using hp
    · have := ih (by simp) (fun x hx => h x (List.mem_cons_of_mem _ hx)) (by simp; positivity)
      rw [List.map_cons, List.sum_cons, List.length_cons]
      push_cast at this ⊢
      linarith

theorem sum_ge_of_all_ge {ps : List V3} {m : ℝ} (h0 : ps ≠ []) (h : ∀ p ∈ ps, m ≤ p.z) :
    m ≤ (ps.map V3.z).sum / ps.length := by
  have hl : (0 : ℝ) < ps.length := by exact_mod_cast List.length_pos_of_ne_nil h0
  rw [le_div_iff₀ hl]
  induction ps with
  | nil => exact absurd rfl h0
  | cons p ps ih =>
    have hp := h p (by simp)
    rcases ps with _ | ⟨q, ps⟩
    · simpa using hp
    · have := ih (by simp) (fun x hx => h x (List.mem_cons_of_mem _ hx)) (by simp; positivity)
      rw [List.map_cons, List.sum_cons, List.length_cons]
      push_cast at this ⊢
      linarith

theorem placed_mem {T : Mat4 ℝ} {vs ps : List V3} (h : PlacedAt T vs ps) {p : V3} (hp : p ∈ ps) :
    ∃ v ∈ vs, screenOf T v = some p := by
  induction h with
  | nil => cases hp
  | cons h _ ih =>
    rcases List.mem_cons.mp hp with rfl | hp
    · exact ⟨_, by simp, h⟩
    · obtain ⟨v, hv, hs⟩ := ih hp
      exact ⟨v, List.mem_cons_of_mem _ hv, hs⟩

theorem placed_ne_nil {T : Mat4 ℝ} {vs ps : List V3} (h : PlacedAt T vs ps) (h0 : vs ≠ []) : ps ≠ [] := by
  cases h with
  | nil => exact absurd rfl h0
  | cons _ _ => simp

end Verif
