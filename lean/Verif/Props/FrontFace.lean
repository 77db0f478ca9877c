import Verif.Lemmas.FrontFace
/-
C116: a front face is one whose outside is seen.
-/

namespace Verif

open Matrix

/-- What `frontback` tells of a projected triangle: the side towards the eye, but for a change with every corner that
is behind the eye. -/
theorem front_face_iff {fovy aspect n f : ℝ} (h0 : 0 < fovy) (h1 : fovy < 180) (ha : 0 < aspect) (hn : 0 < n)
    (hf : n < f) {V : Mat4 ℝ} (hV : Affine V) {a b c p q r : V3}
    (hp : screenOf (glmPerspective fovy aspect n f * V) a = some p)
    (hq : screenOf (glmPerspective fovy aspect n f * V) b = some q)
    (hr : screenOf (glmPerspective fovy aspect n f * V) c = some r) :
    (0 < -(fromEye V a).z * -(fromEye V b).z * -(fromEye V c).z →
      (faceFront p q r ↔ TowardsEye (fromEye V a) (fromEye V b) (fromEye V c))) ∧
    (-(fromEye V a).z * -(fromEye V b).z * -(fromEye V c).z < 0 →
      (faceFront p q r ↔ TowardsEye (fromEye V c) (fromEye V b) (fromEye V a))) := by
  have ht := half_tan_pos h0 h1
  rw [screenOf_perspective h0 h1 ha hn hf hV] at hp hq hr
  split at hp
  · cases hp
  rename_i za
  split at hq
  · cases hq
  rename_i zb
  split at hr
  · cases hr
  rename_i zc
  have hk := mul_pos ha ht
  have e := faceZ_projected hk.ne' ht.ne' za zb zc (p := p) (q := q) (r := r)
    (by rw [← Option.some.inj hp]; exact ⟨rfl, rfl⟩) (by rw [← Option.some.inj hq]; exact ⟨rfl, rfl⟩)
    (by rw [← Option.some.inj hr]; exact ⟨rfl, rfl⟩)
  have hkl := mul_pos hk ht
  constructor
  · intro hs
    have hpos := mul_pos hkl hs
    unfold faceFront TowardsEye
    constructor
    · intro h
      have := mul_neg_of_neg_of_pos h hpos
      rw [e] at this
      linarith
    · intro h
      by_contra hc
      have := mul_nonneg (not_lt.mp hc) hpos.le
      rw [e] at this
      linarith
  · intro hs
    have hneg := mul_neg_of_pos_of_neg hkl hs
    have e' : ((((fromEye V b).sub (fromEye V c)).cross ((fromEye V a).sub (fromEye V c))).dot
        ((⟨0, 0, 0⟩ : V3).sub (fromEye V c))) = -((((fromEye V b).sub (fromEye V a)).cross
        ((fromEye V c).sub (fromEye V a))).dot ((⟨0, 0, 0⟩ : V3).sub (fromEye V a))) := by
      simp only [V3.sub, V3.cross, V3.dot]
      ring
    unfold faceFront TowardsEye
    rw [e']
    constructor
    · intro h
      have := mul_pos_of_neg_of_neg h hneg
      rw [e] at this
      linarith
    · intro h
      by_contra hc
      have := mul_nonpos_of_nonneg_of_nonpos (not_lt.mp hc) hneg.le
      rw [e] at this
      linarith

/-- **C116, for faces in front of the eye.** -/
theorem front_face_partial {fovy aspect n f : ℝ} (h0 : 0 < fovy) (h1 : fovy < 180) (ha : 0 < aspect) (hn : 0 < n)
    (hf : n < f) {V : Mat4 ℝ} (hV : Affine V) {a b c p q r : V3} (za : (fromEye V a).z < 0) (zb : (fromEye V b).z < 0)
    (zc : (fromEye V c).z < 0)
    (hp : screenOf (glmPerspective fovy aspect n f * V) a = some p)
    (hq : screenOf (glmPerspective fovy aspect n f * V) b = some q)
    (hr : screenOf (glmPerspective fovy aspect n f * V) c = some r) :
    faceFront p q r ↔ TowardsEye (fromEye V a) (fromEye V b) (fromEye V c) :=
  (front_face_iff h0 h1 ha hn hf hV hp hq hr).1
    (mul_pos (mul_pos (neg_pos.mpr za) (neg_pos.mpr zb)) (neg_pos.mpr zc))

/-- **C116 for the cameras of the examples.** -/
theorem camera_front_faces (theta phi zoom zdist scale xlim ylim : ℝ) (es : List CamEvent) (R : ℝ) (hR : 0 ≤ R)
    (hs : 0 ≤ scale) (hn : 1 ≤ zdist - scale * R) (hf : zdist + scale * R ≤ 100) (vs : Fin 3 → V3)
    (hvs : ∀ i, (vs i).x ^ 2 + (vs i).y ^ 2 + (vs i).z ^ 2 ≤ R ^ 2) :
    let c := camRun (camInit false theta phi zoom zdist scale xlim ylim) es
    ∃ ps : Fin 3 → V3, (∀ i, screenOf (c.proj * c.view * c.model) (vs i) = some (ps i)) ∧
      (faceFront (ps 0) (ps 1) (ps 2) ↔ TowardsEye (fromEye (c.view * c.model) (vs 0))
        (fromEye (c.view * c.model) (vs 1)) (fromEye (c.view * c.model) (vs 2))) := by
  intro c
  have k := fun i => camera_between theta phi zoom zdist scale xlim ylim es R hR hs hn hf (vs i) (hvs i)
  have k' := fun i => camera_ahead theta phi zoom zdist scale xlim ylim es R hR hs hn hf (vs i) (hvs i)
  choose ps hps using fun i => screenOf_ahead (k' i).ne'
  refine ⟨ps, hps, ?_⟩
  have hz : ∀ i, (fromEye (c.view * c.model) (vs i)).z < 0 := fun i => by
    have := (k i).2.2.1
    change 1 ≤ -(fromEye (c.view * c.model) (vs i)).z at this
    linarith
  have hps' : ∀ i, screenOf (glmPerspective 35 1 1 100 * (c.view * c.model)) (vs i) = some (ps i) := fun i => by
    rw [← hps i, Matrix.mul_assoc, (k 0).1]
  exact front_face_partial (by norm_num) (by norm_num) (by norm_num) (by norm_num) (by norm_num) (k 0).2.1 (hz 0) (hz 1)
    (hz 2) (hps' 0) (hps' 1) (hps' 2)

/-- The same in the coordinates of the scene: at any moment the camera has an eye at some place, and a face of the scene
is a front face just when the eye is on its outside. -/
theorem camera_front_faces_scene (theta phi zoom zdist scale xlim ylim : ℝ) (es : List CamEvent) (R : ℝ) (hR : 0 ≤ R)
    (hs : 0 < scale) (hn : 1 ≤ zdist - scale * R) (hf : zdist + scale * R ≤ 100) :
    let c := camRun (camInit false theta phi zoom zdist scale xlim ylim) es
    ∃ eye : V3, fromEye (c.view * c.model) eye = ⟨0, 0, 0⟩ ∧ ∀ vs : Fin 3 → V3,
      (∀ i, (vs i).x ^ 2 + (vs i).y ^ 2 + (vs i).z ^ 2 ≤ R ^ 2) →
      ∃ ps : Fin 3 → V3, (∀ i, screenOf (c.proj * c.view * c.model) (vs i) = some (ps i)) ∧
        (faceFront (ps 0) (ps 1) (ps 2) ↔
          0 < (((vs 1).sub (vs 0)).cross ((vs 2).sub (vs 0))).dot (eye.sub (vs 0))) := by
  intro c
  obtain ⟨-, hview, b, _, hok, hm⟩ := camOk_run zdist scale es _ (camOk_init theta phi zoom zdist scale xlim ylim)
  change c.view = _ at hview
  change c.model = _ at hm
  obtain ⟨eye, h0, h⟩ := camera_eye hok.1 zdist hs
  rw [← hok.2, ← hm, ← hview] at h0 h
  refine ⟨eye, h0, fun vs hvs => ?_⟩
  obtain ⟨ps, hps, hface⟩ := camera_front_faces theta phi zoom zdist scale xlim ylim es R hR hs.le hn hf vs hvs
  exact ⟨ps, hps, hface.trans (h _ _ _)⟩

/-- The default camera, and scenes as large as the cube from -1 to 1. -/
example : (0 : ℝ) ≤ 7 / 4 ∧ (0 : ℝ) < 1 ∧ (1 : ℝ) ≤ 5 - 1 * (7 / 4) ∧ (5 : ℝ) + 1 * (7 / 4) ≤ 100 := by norm_num

/-- A face whose outside is towards the eye, and the same face with its corners in the other order. -/
example : TowardsEye ⟨0, 0, -2⟩ ⟨1, 0, -3⟩ ⟨0, 1, -2⟩ ∧ ¬ TowardsEye ⟨0, 0, -2⟩ ⟨0, 1, -2⟩ ⟨1, 0, -3⟩ := by
  simp [TowardsEye, V3.sub, V3.cross, V3.dot]

/-- **C116 fails** for every perspective: with one corner behind the eye, a face is told to be a front face although
its inside is seen. -/
theorem front_face_fails {fovy aspect n f : ℝ} (h0 : 0 < fovy) (h1 : fovy < 180) (ha : 0 < aspect) (hn : 0 < n)
    (hf : n < f) : ∃ a b c p q r : V3, screenOf (glmPerspective fovy aspect n f) a = some p ∧
      screenOf (glmPerspective fovy aspect n f) b = some q ∧ screenOf (glmPerspective fovy aspect n f) c = some r ∧
      faceFront p q r ∧ ¬ TowardsEye a b c := by
  have hA : Affine (1 : Mat4 ℝ) := by simp [Affine]
  have he : ∀ v : V3, fromEye 1 v = v := by intro v; ext <;> simp [fromEye]
  have hpl : ∀ v : V3, v.z ≠ 0 → ∃ p, screenOf (glmPerspective fovy aspect n f * 1) v = some p := by
    intro v hv
    rw [screenOf_perspective h0 h1 ha hn hf hA, he, if_neg hv]
    exact ⟨_, rfl⟩
  obtain ⟨p, hp⟩ := hpl ⟨1, 0, -2⟩ (by norm_num)
  obtain ⟨q, hq⟩ := hpl ⟨0, 1, -2⟩ (by norm_num)
  obtain ⟨r, hr⟩ := hpl ⟨0, 0, 1⟩ (by norm_num)
  have h := (front_face_iff h0 h1 ha hn hf hA hp hq hr).2
  simp only [he, Matrix.mul_one] at h hp hq hr
  have ht : TowardsEye ⟨0, 0, 1⟩ ⟨0, 1, -2⟩ ⟨1, 0, -2⟩ := by
    norm_num [TowardsEye, V3.sub, V3.cross, V3.dot]
  refine ⟨_, _, _, p, q, r, hp, hq, hr, (h (by norm_num)).mpr ht, ?_⟩
  norm_num [TowardsEye, V3.sub, V3.cross, V3.dot]

end Verif
