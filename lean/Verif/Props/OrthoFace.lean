import Verif.Lemmas.OrthoFace
import Verif.Props.FrontFace
/-
C116 and C117 for orthographic projections.
-/

namespace Verif

open Matrix

/-- **C116 for orthographic projections**, of all triangles: a front face is one whose outward normal points against
the direction of view. -/
theorem ortho_front_face {r t n f : ℝ} (hr : 0 < r) (ht : 0 < t) {V : Mat4 ℝ} (hV : Affine V) {vs ps : Fin 3 → V3}
    (hps : ∀ i, screenOf (glmOrtho (-r) r (-t) t n f * V) (vs i) = some (ps i)) :
    faceFront (ps 0) (ps 1) (ps 2) ↔
      0 < (((fromEye V (vs 1)).sub (fromEye V (vs 0))).cross ((fromEye V (vs 2)).sub (fromEye V (vs 0)))).z := by
  have e := fun i => Option.some.inj ((screenOf_ortho (n := n) (f := f) hr ht hV (vs i)).symm.trans (hps i))
  rw [← e 0, ← e 1, ← e 2]
  have hz : faceZ ⟨(fromEye V (vs 0)).x / r, (fromEye V (vs 0)).y / t,
      -2 / (f - n) * (fromEye V (vs 0)).z + -(f + n) / (f - n)⟩ ⟨(fromEye V (vs 1)).x / r, (fromEye V (vs 1)).y / t,
      -2 / (f - n) * (fromEye V (vs 1)).z + -(f + n) / (f - n)⟩ ⟨(fromEye V (vs 2)).x / r, (fromEye V (vs 2)).y / t,
      -2 / (f - n) * (fromEye V (vs 2)).z + -(f + n) / (f - n)⟩ =
      -((((fromEye V (vs 1)).sub (fromEye V (vs 0))).cross ((fromEye V (vs 2)).sub (fromEye V (vs 0)))).z / (r * t)) := by
    simp only [faceZ, V3.sub, V3.cross]
    field_simp
    ring
  unfold faceFront
  rw [hz, neg_lt_zero]
  exact div_pos_iff_of_pos_right (mul_pos hr ht)

/-- **C117 for orthographic projections.** No point that is not on the outer side of a front face hides a point of
the face. -/
theorem ortho_face_unhidden {r t n f : ℝ} (hr : 0 < r) (ht : 0 < t) {V : Mat4 ℝ} (hV : Affine V) {G ps : Fin 3 → V3}
    (hps : ∀ i, screenOf (glmOrtho (-r) r (-t) t n f * V) (G i) = some (ps i)) (hfront : faceFront (ps 0) (ps 1) (ps 2))
    {u v : V3} (hu : NotOutside (fun j => fromEye V (G j)) (fromEye V u)) (hv : InTriangle G v) :
    ¬ Hides (glmOrtho (-r) r (-t) t n f * V) V u v := by
  have hN := (ortho_front_face hr ht hV hps).mp hfront
  obtain ⟨s, hs, hs1, rfl⟩ := hv
  rintro ⟨hd, p, q, hp, hq, hx, hy⟩
  have onplane : ∑ i, s i * (((fromEye V (G 1)).sub (fromEye V (G 0))).cross
      ((fromEye V (G 2)).sub (fromEye V (G 0)))).dot ((fromEye V (G i)).sub (fromEye V (G 0))) = 0 := by
    simp only [Fin.sum_univ_three, V3.sub, V3.cross, V3.dot]
    ring
  rw [← plane_mix _ _ (fun i => fromEye V (G i)) s hs1, ← fromEye_mix V G s hs1] at onplane
  rw [screenOf_ortho hr ht hV] at hp hq
  unfold eyeDistance at hd
  unfold NotOutside at hu
  generalize fromEye V ⟨∑ i, s i * (G i).x, ∑ i, s i * (G i).y, ∑ i, s i * (G i).z⟩ = W at *
  generalize fromEye V u = U at *
  rw [← Option.some.inj hp, ← Option.some.inj hq] at hx hy
  have hx' : W.x = U.x := (div_left_inj' hr.ne').mp hx
  have hy' : W.y = U.y := (div_left_inj' ht.ne').mp hy
  simp only at hu
  generalize (((fromEye V (G 1)).sub (fromEye V (G 0))).cross ((fromEye V (G 2)).sub (fromEye V (G 0)))) = N at *
  generalize fromEye V (G 0) = g at *
  simp only [V3.dot, V3.sub] at hu onplane
  rw [hx', hy'] at onplane
  have := mul_pos hN (show 0 < U.z - W.z by linarith)
  nlinarith

/-- Of a convex mesh before the orthographic camera of the examples, whatever the events, no part of the solid hides
any part of a front face. -/
theorem camera_ortho_convex (theta phi zoom zdist scale xlim ylim : ℝ) (es : List CamEvent)
    (faces : List (Fin 3 → V3)) :
    let c := camRun (camInit true theta phi zoom zdist scale xlim ylim) es
    let T := c.proj * c.view * c.model
    ∀ G ∈ faces, ∃ ps : Fin 3 → V3, (∀ i, screenOf T (G i) = some (ps i)) ∧
      (faceFront (ps 0) (ps 1) (ps 2) → ∀ u v, InSolid faces u → InTriangle G v → ¬ Hides T (c.view * c.model) u v) := by
  intro c T G hG
  obtain ⟨hp, hv, hm⟩ : c.proj = glmOrtho (-1) 1 (-1) 1 1 100 ∧ c.view = 1 ∧ c.model = 1 :=
    orthoCam_run theta phi zoom zdist scale xlim ylim es
  have hA : Affine (1 : Mat4 ℝ) := by simp [Affine]
  have he : ∀ v : V3, fromEye 1 v = v := by intro v; ext <;> simp [fromEye]
  have hT : T = glmOrtho (-1) 1 (-1) 1 1 100 * 1 := by
    change c.proj * c.view * c.model = _
    rw [hp, hv, hm, Matrix.mul_one]
  rw [hT, hv, hm, Matrix.mul_one 1]
  refine ⟨_, fun i => screenOf_ortho one_pos one_pos hA (G i), fun hfront u v hu hv => ?_⟩
  refine ortho_face_unhidden one_pos one_pos hA (fun i => screenOf_ortho one_pos one_pos hA (G i)) hfront ?_ hv
  simp only [he]
  exact hu G hG

/-- A front face and a back face. -/
example : 0 < ((V3.sub ⟨1, 0, -2⟩ ⟨0, 0, -2⟩).cross (V3.sub ⟨0, 1, 3⟩ ⟨0, 0, -2⟩)).z ∧
    ¬ 0 < ((V3.sub ⟨0, 1, 3⟩ ⟨0, 0, -2⟩).cross (V3.sub ⟨1, 0, -2⟩ ⟨0, 0, -2⟩)).z := by
  norm_num [V3.sub, V3.cross]

end Verif
