import Verif.Spec.Convex
import Verif.Lemmas.Fill
import Verif.Lemmas.FrontFace
import Mathlib.Data.Set.Finite.Lemmas
import Mathlib.Data.Set.Finite.Basic
/-
Lemmas for Props/Convex.
-/

namespace Verif

open Matrix

theorem fromEye_mix (V : Mat4 ℝ) (vs : Fin 3 → V3) (t : Fin 3 → ℝ) (h : ∑ i, t i = 1) :
    fromEye V ⟨∑ i, t i * (vs i).x, ∑ i, t i * (vs i).y, ∑ i, t i * (vs i).z⟩ =
      ⟨∑ i, t i * (fromEye V (vs i)).x, ∑ i, t i * (fromEye V (vs i)).y, ∑ i, t i * (fromEye V (vs i)).z⟩ := by
  have hm := mulVec_mix V vs t h
  ext
  · exact hm 0
  · exact hm 1
  · exact hm 2

/-- How far the mean of points is before a plane is the mean of how far they are. -/
theorem plane_mix (n g : V3) (ps : Fin 3 → V3) (t : Fin 3 → ℝ) (h : ∑ i, t i = 1) :
    n.dot ((⟨∑ i, t i * (ps i).x, ∑ i, t i * (ps i).y, ∑ i, t i * (ps i).z⟩ : V3).sub g) =
      ∑ i, t i * n.dot ((ps i).sub g) := by
  have h' : n.dot g * ∑ i, t i = n.dot g * 1 := by rw [h]
  simp only [V3.dot, V3.sub, Fin.sum_univ_three] at *
  linear_combination h'

theorem same_place {k l : ℝ} (hk : k ≠ 0) (hl : l ≠ 0) {a b : V3} (ha : a.z < 0) (hb : b.z < 0)
    (hx : a.x / k / -a.z = b.x / k / -b.z) (hy : a.y / l / -a.z = b.y / l / -b.z) : a = V3.smul (a.z / b.z) b := by
  have ha' := ha.ne
  have hb' := hb.ne
  ext
  · simp only [V3.smul]
    field_simp at hx ⊢
    linarith
  · simp only [V3.smul]
    field_simp at hy ⊢
    linarith
  · simp only [V3.smul]
    field_simp

/-- On a camera's way from the scene to the eye the outer sides of faces stay what they are. -/
theorem camera_triple {q : Quat} (hq : q.dot q = 1) (zdist scale : ℝ) (a b c w : V3) :
    let V := glmTranslate 0 0 (-zdist) * glmScale scale scale scale * q.rotmatrix.transpose
    (((fromEye V b).sub (fromEye V a)).cross ((fromEye V c).sub (fromEye V a))).dot ((fromEye V w).sub (fromEye V a)) =
      scale ^ 3 * ((b.sub a).cross (c.sub a)).dot (w.sub a) := by
  intro V
  obtain ⟨r0, r1, r2, h02, h12, h22, hcr, hV⟩ := turned_form hq zdist scale
  have hd : ∀ u v, (fromEye V u).sub (fromEye V v) =
      ⟨scale * r0.dot (u.sub v), scale * r1.dot (u.sub v), scale * r2.dot (u.sub v)⟩ := by
    intro u v
    rw [hV, hV]
    ext
    all_goals
      simp only [V3.sub, V3.dot]
      ring
  rw [hd, hd, hd, triple_turned, hcr, h22, one_mul]

/-- The points of the faces of a convex mesh are in the solid. -/
theorem inSolid_of_face {faces : List (Fin 3 → V3)} (hconv : ConvexMesh faces) {F : Fin 3 → V3} (hF : F ∈ faces) {v : V3}
    (hv : InTriangle F v) : InSolid faces v := by
  obtain ⟨t, ht, h1, rfl⟩ := hv
  intro G hG
  unfold NotOutside
  rw [plane_mix _ _ F t h1]
  exact Finset.sum_nonpos (fun i _ => mul_nonpos_of_nonneg_of_nonpos (ht i) (hconv G hG F hF i))

theorem inTriangle_const (v : V3) : InTriangle (fun _ => v) v := by
  refine ⟨![1, 0, 0], fun i => ?_, ?_, ?_⟩
  · fin_cases i <;> simp
  · simp [Fin.sum_univ_three]
  · simp [Fin.sum_univ_three]

/-- The point that divides the way from `e` to `v` at `r`. -/
def onWay (e v : V3) (r : ℝ) : V3 := ⟨e.x + r * (v.x - e.x), e.y + r * (v.y - e.y), e.z + r * (v.z - e.z)⟩

theorem onWay_side (n g e v : V3) (r : ℝ) :
    n.dot ((onWay e v r).sub g) = r * n.dot (v.sub g) + (1 - r) * n.dot (e.sub g) := by
  simp only [onWay, V3.dot, V3.sub]
  ring

/-- Affine functions that are not positive at the end of a way, some of them positive at its start: there is a place
where one of these is zero and none of all is positive. -/
theorem enters {ι : Type} (l : List ι) (a b : ι → ℝ) (hb : ∀ i ∈ l, b i ≤ 0) (ha : ∃ i ∈ l, 0 < a i) :
    ∃ i ∈ l, 0 < a i ∧ ∃ r : ℝ, 0 < r ∧ r ≤ 1 ∧ r * b i + (1 - r) * a i = 0 ∧
      ∀ j ∈ l, r * b j + (1 - r) * a j ≤ 0 := by
  have hfin : {i | i ∈ l ∧ 0 < a i}.Finite := (List.finite_toSet l).subset (fun i hi => hi.1)
  obtain ⟨i, ⟨hi, hai⟩, hmax⟩ := Set.exists_max_image _ (fun i => a i / (a i - b i)) hfin ha
  have hbi := hb i hi
  have hd : 0 < a i - b i := by linarith
  have hr0 : 0 < a i / (a i - b i) := div_pos hai hd
  have hr1 : a i / (a i - b i) ≤ 1 := by
    rw [div_le_one hd]
    linarith
  refine ⟨i, hi, hai, a i / (a i - b i), hr0, hr1, by field_simp; ring, fun j hj => ?_⟩
  by_cases haj : 0 < a j
  · have hm := hmax j ⟨hj, haj⟩
    have hdj : 0 < a j - b j := by linarith [hb j hj]
    have : a j ≤ a i / (a i - b i) * (a j - b j) := (div_le_iff₀ hdj).mp hm
    linarith
  · have h1 := mul_nonneg hr0.le (neg_nonneg.mpr (hb j hj))
    have h2 := mul_nonneg (sub_nonneg.mpr hr1) (neg_nonneg.mpr (not_lt.mp haj))
    linarith

theorem fromEye_onWay (V : Mat4 ℝ) {e : V3} (he : fromEye V e = ⟨0, 0, 0⟩) (v : V3) (r : ℝ) :
    fromEye V (onWay e v r) = V3.smul r (fromEye V v) := by
  have hx := congrArg V3.x he
  have hy := congrArg V3.y he
  have hz := congrArg V3.z he
  simp only [fromEye, Matrix.mulVec, dotProduct, Fin.sum_univ_four] at hx hy hz
  ext
  all_goals
    simp only [fromEye, onWay, V3.smul, Matrix.mulVec, dotProduct, Fin.sum_univ_four]
    simp at hx hy hz ⊢
  · linear_combination (1 - r) * hx
  · linear_combination (1 - r) * hy
  · linear_combination (1 - r) * hz

end Verif
