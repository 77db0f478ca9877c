import Verif.Spec.FrontFace
import Verif.Lemmas.Clip
/-
Lemmas for Props/FrontFace.
-/

namespace Verif

theorem faceZ_projected {k l : ℝ} (hk : k ≠ 0) (hl : l ≠ 0) {a b c p q r : V3} (ha : a.z ≠ 0) (hb : b.z ≠ 0)
    (hc : c.z ≠ 0) (hp : p.x = a.x / k / -a.z ∧ p.y = a.y / l / -a.z) (hq : q.x = b.x / k / -b.z ∧ q.y = b.y / l / -b.z)
    (hr : r.x = c.x / k / -c.z ∧ r.y = c.y / l / -c.z) :
    faceZ p q r * (k * l * (-a.z * -b.z * -c.z)) =
      -((b.sub a).cross (c.sub a)).dot ((⟨0, 0, 0⟩ : V3).sub a) := by
  unfold faceZ
  rw [hp.1, hp.2, hq.1, hq.2, hr.1, hr.2]
  simp only [V3.sub, V3.cross, V3.dot]
  field_simp
  ring

/-- What a camera does: it turns, scales and moves along the direction of view. -/
theorem turned_form {q : Quat} (hq : q.dot q = 1) (zdist scale : ℝ) :
    ∃ r0 r1 r2 : V3, r0.dot r2 = 0 ∧ r1.dot r2 = 0 ∧ r2.dot r2 = 1 ∧ r0.cross r1 = r2 ∧
      ∀ v, fromEye (glmTranslate 0 0 (-zdist) * glmScale scale scale scale * q.rotmatrix.transpose) v =
        ⟨scale * r0.dot v, scale * r1.dot v, scale * r2.dot v - zdist⟩ := by
  have e : glmTranslate 0 0 (-zdist) * glmScale scale scale scale =
      (!![scale, 0, 0, 0; 0, scale, 0, 0; 0, 0, scale, -zdist; 0, 0, 0, 1] : Mat4 ℝ) := by
    unfold glmTranslate glmScale transposeIf
    ext i j
    fin_cases i <;> fin_cases j <;> simp [Matrix.mul_apply, Fin.sum_univ_four]
  rw [e]
  obtain ⟨x, y, z, w⟩ := q
  simp only [Quat.dot] at hq
  refine ⟨⟨1 - 2 * (y * y + z * z), 2 * (x * y + z * w), 2 * (z * x - y * w)⟩,
    ⟨2 * (x * y - z * w), 1 - 2 * (z * z + x * x), 2 * (y * z + x * w)⟩,
    ⟨2 * (z * x + y * w), 2 * (y * z - x * w), 1 - 2 * (y * y + x * x)⟩, ?_, ?_, ?_, ?_, ?_⟩
  · simp only [V3.dot]
    linear_combination (-4 * x * z) * hq
  · simp only [V3.dot]
    linear_combination (-4 * y * z) * hq
  · simp only [V3.dot]
    linear_combination (4 * (x * x + y * y)) * hq
  · ext
    · simp only [V3.cross]
      linear_combination (4 * x * z) * hq
    · simp only [V3.cross]
      linear_combination (4 * y * z) * hq
    · simp only [V3.cross]
      linear_combination (4 * z * z) * hq
  · intro v
    ext
    all_goals
      simp only [fromEye, Matrix.mulVec, dotProduct, Fin.sum_univ_four, Matrix.mul_apply, Matrix.transpose_apply]
      simp [Quat.rotmatrix, V3.dot]
      ring

theorem triple_turned (r0 r1 r2 u v w : V3) (s : ℝ) :
    ((⟨s * r0.dot u, s * r1.dot u, s * r2.dot u⟩ : V3).cross ⟨s * r0.dot v, s * r1.dot v, s * r2.dot v⟩).dot
      ⟨s * r0.dot w, s * r1.dot w, s * r2.dot w⟩ = s ^ 3 * ((r0.cross r1).dot r2 * (u.cross v).dot w) := by
  simp only [V3.cross, V3.dot]
  ring

/-- Seen from the scene, a camera has an eye at some place. -/
theorem camera_eye {q : Quat} (hq : q.dot q = 1) (zdist : ℝ) {scale : ℝ} (hs : 0 < scale) : ∃ eye : V3,
    fromEye (glmTranslate 0 0 (-zdist) * glmScale scale scale scale * q.rotmatrix.transpose) eye = ⟨0, 0, 0⟩ ∧
    ∀ a b c : V3,
      TowardsEye (fromEye (glmTranslate 0 0 (-zdist) * glmScale scale scale scale * q.rotmatrix.transpose) a)
        (fromEye (glmTranslate 0 0 (-zdist) * glmScale scale scale scale * q.rotmatrix.transpose) b)
        (fromEye (glmTranslate 0 0 (-zdist) * glmScale scale scale scale * q.rotmatrix.transpose) c) ↔
      0 < ((b.sub a).cross (c.sub a)).dot (eye.sub a) := by
  obtain ⟨r0, r1, r2, h02, h12, h22, hcr, hV⟩ := turned_form hq zdist scale
  have k : ∀ r : V3, r.dot (V3.smul (zdist / scale) r2) = zdist / scale * r.dot r2 := by
    intro r
    simp only [V3.dot, V3.smul]
    ring
  have h0 : fromEye (glmTranslate 0 0 (-zdist) * glmScale scale scale scale * q.rotmatrix.transpose)
      (V3.smul (zdist / scale) r2) = ⟨0, 0, 0⟩ := by
    rw [hV, k, k, k, h02, h12, h22]
    ext
    · simp
    · simp
    · simp only
      field_simp
      ring
  refine ⟨V3.smul (zdist / scale) r2, h0, fun a b c => ?_⟩
  have hd : ∀ u v, (fromEye (glmTranslate 0 0 (-zdist) * glmScale scale scale scale * q.rotmatrix.transpose) u).sub
      (fromEye (glmTranslate 0 0 (-zdist) * glmScale scale scale scale * q.rotmatrix.transpose) v) =
      ⟨scale * r0.dot (u.sub v), scale * r1.dot (u.sub v), scale * r2.dot (u.sub v)⟩ := by
    intro u v
    rw [hV, hV]
    ext
    all_goals
      simp only [V3.sub, V3.dot]
      ring
  unfold TowardsEye
  rw [← h0, hd, hd, hd, triple_turned, hcr, h22, one_mul]
  exact mul_pos_iff_of_pos_left (by positivity)

end Verif
