import Mathlib.Tactic.FieldSimp
import Mathlib.Tactic.Linarith
import Mathlib.Tactic.LinearCombination
import Verif.Spec.Clip
import Verif.Lemmas.Glm
import Verif.Lemmas.Trackball
/-
Lemmas for Props/Clip.
-/

namespace Verif

open Matrix

theorem affine_mulVec {V : Mat4 ℝ} (h : Affine V) (v : V3) :
    V *ᵥ ![v.x, v.y, v.z, 1] = ![(fromEye V v).x, (fromEye V v).y, (fromEye V v).z, 1] := by
  ext i
  fin_cases i
  · rfl
  · rfl
  · rfl
  · obtain ⟨h0, h1, h2, h3⟩ := h
    simp [Matrix.mulVec, dotProduct, Fin.sum_univ_four, h0, h1, h2, h3]

theorem perspective_mulVec {fovy aspect n f : ℝ} (h0 : 0 < fovy) (h1 : fovy < 180) (ha : 0 < aspect) (hn : 0 < n)
    (hf : n < f) {V : Mat4 ℝ} (hV : Affine V) (v : V3) :
    (glmPerspective fovy aspect n f * V) *ᵥ ![v.x, v.y, v.z, 1] =
      ![(fromEye V v).x / (aspect * Real.tan (fovy / 2 * (Real.pi / 180))),
        (fromEye V v).y / Real.tan (fovy / 2 * (Real.pi / 180)),
        (-(f + n) * (fromEye V v).z - 2 * n * f) / (f - n), -(fromEye V v).z] := by
  have ht := tan_pos h0 h1
  have he : fovy / 2 * (Real.pi / 180) = 1 / 2 * radians fovy := by unfold radians; ring
  rw [← Matrix.mulVec_mulVec, affine_mulVec hV]
  simp only [glmPerspective, he]
  generalize Real.tan (1 / 2 * radians fovy) = T at *
  have hfn : 0 < f - n := by linarith
  unfold glmFrustum transposeIf
  rw [if_neg (by simp), mulVec4]
  ext i
  fin_cases i <;> simp <;> field_simp <;> ring

theorem screenOf_perspective {fovy aspect n f : ℝ} (h0 : 0 < fovy) (h1 : fovy < 180) (ha : 0 < aspect) (hn : 0 < n)
    (hf : n < f) {V : Mat4 ℝ} (hV : Affine V) (v : V3) :
    screenOf (glmPerspective fovy aspect n f * V) v =
      if (fromEye V v).z = 0 then none else
        some ⟨(fromEye V v).x / (aspect * Real.tan (fovy / 2 * (Real.pi / 180))) / -(fromEye V v).z,
          (fromEye V v).y / Real.tan (fovy / 2 * (Real.pi / 180)) / -(fromEye V v).z,
          (-(f + n) * (fromEye V v).z - 2 * n * f) / (f - n) / -(fromEye V v).z⟩ := by
  unfold screenOf
  rw [perspective_mulVec h0 h1 ha hn hf hV v]
  simp

theorem half_tan_pos {fovy : ℝ} (h0 : 0 < fovy) (h1 : fovy < 180) : 0 < Real.tan (fovy / 2 * (Real.pi / 180)) := by
  have he : fovy / 2 * (Real.pi / 180) = 1 / 2 * radians fovy := by unfold radians; ring
  rw [he]
  exact tan_pos h0 h1

theorem quotient_in_window {x c z : ℝ} (hc : 0 < c) (hz : z ≠ 0) :
    (-1 ≤ x / c / -z ∧ x / c / -z ≤ 1) ↔ |x| ≤ |z| * c := by
  rw [← abs_le, abs_div, abs_div, abs_neg, abs_of_pos hc, div_le_one (abs_pos.mpr hz), div_le_iff₀ hc]

/-- What a camera keeps while it is turned. -/
def CamOk (zdist scale : ℝ) (c : Camera) : Prop :=
  c.proj = glmPerspective 35 1 1 100 ∧ c.view = glmTranslate 0 0 (-zdist) * glmScale scale scale scale ∧
    ∃ b, c.ball = some b ∧ BallOk b ∧ c.model = b.model.transpose

theorem camOk_run (zdist scale : ℝ) (es : List CamEvent) :
    ∀ c : Camera, CamOk zdist scale c → CamOk zdist scale (camRun c es) := by
  induction es with
  | nil => intro c h; exact h
  | cons e es ih =>
    intro c h
    refine ih _ ?_
    cases e with
    | scroll here button => simp only [camStep]; split <;> exact h
    | press here mx my => simp only [camStep]; split <;> exact h
    | motion here mx my =>
      simp only [camStep]
      split
      · rename_i px py b hm hb
        obtain ⟨hp, hv, b', hb', hok, _⟩ := h
        rw [hb] at hb'
        cases hb'
        exact ⟨hp, hv, _, rfl, ballOk_drag hok mx my (mx - px) (my - py), rfl⟩
      · exact h
    | release => exact h

theorem camOk_init (theta phi zoom zdist scale xlim ylim : ℝ) :
    CamOk zdist scale (camInit false theta phi zoom zdist scale xlim ylim) := by
  simp only [camInit, camLimits, CamOk]
  exact ⟨rfl, rfl, _, rfl, ballOk_orient _ theta phi, rfl⟩

theorem orthoCam_run (theta phi zoom zdist scale xlim ylim : ℝ) (es : List CamEvent) :
    let c := camRun (camInit true theta phi zoom zdist scale xlim ylim) es
    c.proj = glmOrtho (-1) 1 (-1) 1 1 100 ∧ c.view = 1 ∧ c.model = 1 := by
  have hrun : ∀ (es : List CamEvent) (c : Camera),
      (c.ball = none ∧ c.proj = glmOrtho (-1) 1 (-1) 1 1 100 ∧ c.view = 1 ∧ c.model = 1) →
      (camRun c es).proj = glmOrtho (-1) 1 (-1) 1 1 100 ∧ (camRun c es).view = 1 ∧ (camRun c es).model = 1 := by
    intro es
    induction es with
    | nil => intro c h; exact h.2
    | cons e es ih =>
      intro c h
      refine ih _ ?_
      cases e with
      | scroll here button => simp only [camStep]; split <;> exact h
      | press here mx my => simp only [camStep]; split <;> exact h
      | motion here mx my =>
        simp only [camStep]
        split
        · rename_i hb
          rw [h.1] at hb
          cases hb
        · exact h
      | release => exact h
  apply hrun
  simp [camInit, camLimits]

theorem turned_depth {q : Quat} (hq : q.dot q = 1) (zdist scale : ℝ) (v : V3) :
    Affine (glmTranslate 0 0 (-zdist) * glmScale scale scale scale * q.rotmatrix.transpose) ∧
      ∃ d : ℝ, d ^ 2 ≤ v.x ^ 2 + v.y ^ 2 + v.z ^ 2 ∧
        (fromEye (glmTranslate 0 0 (-zdist) * glmScale scale scale scale * q.rotmatrix.transpose) v).z =
          scale * d - zdist := by
  have hr := (Quat.rotmatrix_rotation hq).1
  have e : glmTranslate 0 0 (-zdist) * glmScale scale scale scale =
      (!![scale, 0, 0, 0; 0, scale, 0, 0; 0, 0, scale, -zdist; 0, 0, 0, 1] : Mat4 ℝ) := by
    unfold glmTranslate glmScale transposeIf
    ext i j
    fin_cases i <;> fin_cases j <;> simp [Matrix.mul_apply, Fin.sum_univ_four]
  rw [e]
  have h22 := congrFun (congrFun hr 2) 2
  simp only [Matrix.mul_apply, Matrix.transpose_apply, Fin.sum_univ_four, Matrix.one_apply_eq] at h22
  have h32 : q.rotmatrix 3 2 = 0 := by simp [Quat.rotmatrix]
  refine ⟨?_, q.rotmatrix 0 2 * v.x + q.rotmatrix 1 2 * v.y + q.rotmatrix 2 2 * v.z, ?_, ?_⟩
  · unfold Affine
    simp [Matrix.mul_apply, Fin.sum_univ_four, Quat.rotmatrix]
  · rw [h32] at h22
    generalize q.rotmatrix 0 2 = a at *
    generalize q.rotmatrix 1 2 = b at *
    generalize q.rotmatrix 2 2 = c at *
    nlinarith [sq_nonneg (a * v.y - b * v.x), sq_nonneg (a * v.z - c * v.x), sq_nonneg (b * v.z - c * v.y)]
  · simp only [fromEye, Matrix.mulVec, dotProduct, Fin.sum_univ_four, Matrix.mul_apply, Matrix.transpose_apply]
    simp [Quat.rotmatrix]
    ring

theorem camera_between (theta phi zoom zdist scale xlim ylim : ℝ) (es : List CamEvent) (R : ℝ) (hR : 0 ≤ R)
    (hs : 0 ≤ scale) (hn : 1 ≤ zdist - scale * R) (hf : zdist + scale * R ≤ 100) (v : V3)
    (hv : v.x ^ 2 + v.y ^ 2 + v.z ^ 2 ≤ R ^ 2) :
    let c := camRun (camInit false theta phi zoom zdist scale xlim ylim) es
    c.proj = glmPerspective 35 1 1 100 ∧ Affine (c.view * c.model) ∧
      BetweenPlanes 1 100 (fromEye (c.view * c.model) v) := by
  intro c
  obtain ⟨hp, hview, b, _, hok, hm⟩ := camOk_run zdist scale es _ (camOk_init theta phi zoom zdist scale xlim ylim)
  change c.proj = _ at hp
  change c.view = _ at hview
  change c.model = _ at hm
  obtain ⟨hA, hz⟩ := turned_depth hok.1 zdist scale v
  rw [← hok.2, ← hm, ← hview] at hA hz
  refine ⟨hp, hA, ?_⟩
  obtain ⟨d, hd, hz⟩ := hz
  have hd' : |d| ≤ R := abs_le_of_sq_le_sq (by linarith) hR
  rw [abs_le] at hd'
  have h1 := mul_le_mul_of_nonneg_left hd'.1 hs
  have h2 := mul_le_mul_of_nonneg_left hd'.2 hs
  unfold BetweenPlanes
  rw [hz]
  constructor <;> linarith

theorem camera_ahead (theta phi zoom zdist scale xlim ylim : ℝ) (es : List CamEvent) (R : ℝ) (hR : 0 ≤ R)
    (hs : 0 ≤ scale) (hn : 1 ≤ zdist - scale * R) (hf : zdist + scale * R ≤ 100) (v : V3)
    (hv : v.x ^ 2 + v.y ^ 2 + v.z ^ 2 ≤ R ^ 2) :
    let c := camRun (camInit false theta phi zoom zdist scale xlim ylim) es
    0 < ahead (c.proj * c.view * c.model) v := by
  intro c
  obtain ⟨hp, hA, h1⟩ := camera_between theta phi zoom zdist scale xlim ylim es R hR hs hn hf v hv
  unfold ahead
  rw [Matrix.mul_assoc, hp,
    perspective_mulVec (by norm_num) (by norm_num) (by norm_num) (by norm_num) (by norm_num) hA v]
  have := h1.1
  simp
  linarith

theorem screenOf_ahead {T : Mat4 ℝ} {v : V3} (h : ahead T v ≠ 0) : ∃ p, screenOf T v = some p := by
  unfold screenOf
  exact ⟨_, if_neg h⟩

/-! ### Segments -/

theorem screenOf_some {T : Mat4 ℝ} {v p : V3} (h : screenOf T v = some p) :
    p.x = (T *ᵥ ![v.x, v.y, v.z, 1]) 0 / ahead T v ∧ p.y = (T *ᵥ ![v.x, v.y, v.z, 1]) 1 / ahead T v := by
  unfold screenOf at h
  simp only at h
  split at h
  · cases h
  · cases h
    exact ⟨rfl, rfl⟩

theorem mulVec_on (T : Mat4 ℝ) (a b : V3) (t : ℝ) (i : Fin 4) :
    (T *ᵥ ![a.x + t * (b.x - a.x), a.y + t * (b.y - a.y), a.z + t * (b.z - a.z), 1]) i =
      (1 - t) * (T *ᵥ ![a.x, a.y, a.z, 1]) i + t * (T *ᵥ ![b.x, b.y, b.z, 1]) i := by
  simp only [Matrix.mulVec, dotProduct, Fin.sum_univ_four]
  simp
  ring

theorem ahead_on (T : Mat4 ℝ) (a b : V3) (t : ℝ) :
    (T *ᵥ ![a.x + t * (b.x - a.x), a.y + t * (b.y - a.y), a.z + t * (b.z - a.z), 1]) 3 =
      (1 - t) * ahead T a + t * ahead T b := mulVec_on T a b t 3

theorem screenOf_on (T : Mat4 ℝ) (a b : V3) {t : ℝ} (h : (1 - t) * ahead T a + t * ahead T b ≠ 0) :
    screenOf T ⟨a.x + t * (b.x - a.x), a.y + t * (b.y - a.y), a.z + t * (b.z - a.z)⟩ =
      some ⟨((1 - t) * (T *ᵥ ![a.x, a.y, a.z, 1]) 0 + t * (T *ᵥ ![b.x, b.y, b.z, 1]) 0) /
          ((1 - t) * ahead T a + t * ahead T b),
        ((1 - t) * (T *ᵥ ![a.x, a.y, a.z, 1]) 1 + t * (T *ᵥ ![b.x, b.y, b.z, 1]) 1) /
          ((1 - t) * ahead T a + t * ahead T b),
        ((1 - t) * (T *ᵥ ![a.x, a.y, a.z, 1]) 2 + t * (T *ᵥ ![b.x, b.y, b.z, 1]) 2) /
          ((1 - t) * ahead T a + t * ahead T b)⟩ := by
  unfold screenOf
  simp only [mulVec_on]
  exact if_neg h

theorem mix_sign {α β t : ℝ} (h : 0 < α * β) (h0 : 0 ≤ t) (h1 : t ≤ 1) : 0 < α * ((1 - t) * α + t * β) := by
  have ha : 0 < α ^ 2 := by
    have : α ≠ 0 := fun e => by simp [e] at h
    positivity
  rcases eq_or_lt_of_le h0 with rfl | h0
  · nlinarith
  · nlinarith [mul_pos h0 h, mul_nonneg (sub_nonneg.mpr h1) ha.le]

theorem mix_ne_zero {α β t : ℝ} (h : 0 < α * β) (h0 : 0 ≤ t) (h1 : t ≤ 1) : (1 - t) * α + t * β ≠ 0 := by
  intro e
  have := mix_sign h h0 h1
  rw [e] at this
  simp at this

theorem mix_ratio {α β t : ℝ} (h : 0 < α * β) (h0 : 0 ≤ t) (h1 : t ≤ 1) :
    0 ≤ t * β / ((1 - t) * α + t * β) ∧ t * β / ((1 - t) * α + t * β) ≤ 1 := by
  have hw := mix_ne_zero h h0 h1
  have hs := mix_sign h h0 h1
  have ha : α ≠ 0 := fun e => by simp [e] at h
  set w := (1 - t) * α + t * β with hwdef
  have hm : 0 < w * β := by
    have : 0 < (α * w) * (α * β) := mul_pos hs h
    have e : (α * w) * (α * β) = α ^ 2 * (w * β) := by ring
    rw [e] at this
    exact pos_of_mul_pos_right this (sq_nonneg α)
  have hw2 : 0 < w ^ 2 := by positivity
  have e1 : t * β / w = t * (w * β) / w ^ 2 := by field_simp
  have e2 : 1 - t * β / w = (1 - t) * (α * w) / w ^ 2 := by
    field_simp
    rw [hwdef]
    ring
  refine ⟨by rw [e1]; positivity, ?_⟩
  have : 0 ≤ 1 - t * β / w := by
    rw [e2]
    have := sub_nonneg.mpr h1
    positivity
  linarith

theorem place_mix {α β t : ℝ} (ha : α ≠ 0) (hb : β ≠ 0) (hw : (1 - t) * α + t * β ≠ 0) (X Y : ℝ) :
    ((1 - t) * X + t * Y) / ((1 - t) * α + t * β) =
      X / α + t * β / ((1 - t) * α + t * β) * (Y / β - X / α) := by
  have e : (1 - t) * X + t * Y = X / α * ((1 - t) * α + t * β) + t * β * (Y / β - X / α) := by
    field_simp
    ring
  rw [e, add_div, mul_div_assoc, div_self hw, mul_one, mul_div_right_comm]

theorem mix_place {α β s : ℝ} (ha : α ≠ 0) (hb : β ≠ 0) (hD : (1 - s) * β + s * α ≠ 0) (X Y : ℝ) :
    ((1 - s * α / ((1 - s) * β + s * α)) * X + s * α / ((1 - s) * β + s * α) * Y) /
        ((1 - s * α / ((1 - s) * β + s * α)) * α + s * α / ((1 - s) * β + s * α) * β) =
      X / α + s * (Y / β - X / α) := by
  set D := (1 - s) * β + s * α with hDdef
  have e1 : 1 - s * α / D = (1 - s) * β / D := by
    field_simp
    rw [hDdef]
    ring
  rw [e1]
  have e2 : (1 - s) * β / D * α + s * α / D * β = α * β / D := by
    field_simp
    ring
  rw [e2]
  field_simp
  ring

theorem mix_outside {α β t : ℝ} (h : α * β < 0) (h0 : 0 < t) (h1 : t < 1) (hw : (1 - t) * α + t * β ≠ 0)
    (hs0 : 0 ≤ t * β / ((1 - t) * α + t * β)) (hs1 : t * β / ((1 - t) * α + t * β) ≤ 1) : False := by
  set w := (1 - t) * α + t * β with hwdef
  have hw2 : 0 < w ^ 2 := by positivity
  have e1 : t * β / w * w ^ 2 = t * (β * w) := by field_simp
  have e2 : (1 - t * β / w) * w ^ 2 = (1 - t) * (α * w) := by
    have : t * β / w * w = t * β := div_mul_cancel₀ _ hw
    have e : (1 - t * β / w) * w ^ 2 = (w - t * β / w * w) * w := by ring
    rw [e, this, hwdef]
    ring
  have k1 : 0 ≤ t * (β * w) := by rw [← e1]; exact mul_nonneg hs0 hw2.le
  have k2 : 0 ≤ (1 - t) * (α * w) := by rw [← e2]; exact mul_nonneg (by linarith) hw2.le
  have m1 : 0 ≤ β * w := nonneg_of_mul_nonneg_right k1 h0
  have m2 : 0 ≤ α * w := nonneg_of_mul_nonneg_right k2 (by linarith)
  have m3 := mul_nonneg m1 m2
  have e3 : β * w * (α * w) = α * β * w ^ 2 := by ring
  rw [e3] at m3
  nlinarith [mul_neg_of_neg_of_pos h hw2]

end Verif
