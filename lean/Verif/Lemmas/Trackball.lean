import Verif.Model.Trackball
import Verif.Lemmas.Glm
import Mathlib.Tactic.NormNum
/-
Lemmas on the quaternions of the trackball.
-/

namespace Verif

open Matrix

namespace Quat

theorem ext' {p q : Quat} (hx : p.x = q.x) (hy : p.y = q.y) (hz : p.z = q.z) (hw : p.w = q.w) :
    p = q := by
  cases p; cases q; simp_all

theorem dot_qAdd (p q : Quat) : (p.qAdd q).dot (p.qAdd q) = p.dot p * q.dot q := by
  simp only [qAdd, dot, vec, V3.smul, V3.cross, V3.dot]
  ring

theorem normalize_of_unit {q : Quat} (h : q.dot q = 1) : q.normalize = q := by
  unfold normalize
  simp [h, Real.sqrt_one]

theorem rotmatrix_rotation {q : Quat} (h : q.dot q = 1) : IsRotation q.rotmatrix := by
  obtain ⟨x, y, z, w⟩ := q
  simp only [dot] at h
  have e : rotmatrix ⟨x, y, z, w⟩ = quatMat w (-x) (-y) (-z) := by
    ext i j
    fin_cases i <;> fin_cases j <;> simp [rotmatrix, quatMat] <;>
      first | ring1 | linear_combination h | linear_combination -h
  rw [e]
  apply quatMat_rotation
  linear_combination h

theorem rotmatrix_qAdd {p q : Quat} (hp : p.dot p = 1) (hq : q.dot q = 1) :
    (p.qAdd q).rotmatrix = q.rotmatrix * p.rotmatrix := by
  have key : ∀ {r : Quat}, r.dot r = 1 → r.rotmatrix = quatMat r.w (-r.x) (-r.y) (-r.z) := by
    rintro ⟨x, y, z, w⟩ h
    simp only [dot] at h
    ext i j
    fin_cases i <;> fin_cases j <;> simp [rotmatrix, quatMat] <;>
      first | ring1 | linear_combination h | linear_combination -h
  have hpq : (p.qAdd q).dot (p.qAdd q) = 1 := by rw [dot_qAdd, hp, hq, one_mul]
  rw [key hp, key hq, key hpq, quatMat_mul]
  congr 1 <;> simp only [qAdd, vec, V3.smul, V3.cross, V3.dot] <;> ring

theorem rotmatrix_neg (q : Quat) :
    rotmatrix ⟨-q.x, -q.y, -q.z, -q.w⟩ = q.rotmatrix := by
  simp only [rotmatrix, neg_mul_neg]

theorem fromAxisAngle_unit {v : V3} (h : v.norm ≠ 0) (phi : ℝ) :
    (fromAxisAngle v phi).dot (fromAxisAngle v phi) = 1 := by
  have hn := norm_sq v
  have hs := Real.sin_sq_add_cos_sq (phi / 2)
  simp only [fromAxisAngle, vNormalize, if_neg h, V3.smul, dot, V3.dot] at hn ⊢
  have : v.norm * v.norm * (1 / v.norm) * (1 / v.norm) = 1 := by field_simp
  linear_combination hs + Real.sin (phi / 2) ^ 2 * this - Real.sin (phi / 2) ^ 2 * (1 / v.norm) *
    (1 / v.norm) * hn

end Quat

/-! ### The axis of a drag is not 0 -/

theorem ballC_pos : 0 < ballC := by unfold ballC; norm_num
theorem ballS_eq : ballS = 2 * ballC := by unfold ballS ballC; norm_num
theorem ballC_key : 1 ≤ 16 * ballC ^ 6 * (1 - ballC ^ 2) := by unfold ballC; norm_num
theorem ballC_lt : ballC ^ 2 < 1 := by unfold ballC; norm_num
theorem ballSize_pos : 0 < ballSize := by unfold ballSize; norm_num

/-- The height of the trackball at a distance from its centre. -/
noncomputable def ballHeight (r d : ℝ) : ℝ :=
  if d < r * ballC then Real.sqrt (r * r - d * d) else (r / ballS) * (r / ballS) / d

theorem ballHeight_pos {r d : ℝ} (hr : 0 < r) (hd : 0 ≤ d) : 0 < ballHeight r d := by
  unfold ballHeight
  have hc := ballC_pos
  have hc2 := ballC_lt
  split
  · rename_i h
    apply Real.sqrt_pos.2
    have : d * d < (r * ballC) * (r * ballC) := by nlinarith
    nlinarith [mul_pos hr hr]
  · rename_i h
    have : 0 < r * ballC := mul_pos hr hc
    have hs : 0 < ballS := by rw [ballS_eq]; linarith
    have : 0 < d := by linarith
    exact div_pos (mul_pos (div_pos hr hs) (div_pos hr hs)) this

theorem ballHeight_antitone {r d e : ℝ} (hr : 0 < r) (hd : 0 ≤ d) (h : d ≤ e) :
    ballHeight r e ≤ ballHeight r d := by
  unfold ballHeight
  have hc := ballC_pos
  have hrc : 0 < r * ballC := mul_pos hr hc
  split
  · rename_i he
    rw [if_pos (by linarith)]
    apply Real.sqrt_le_sqrt
    nlinarith
  · rename_i he
    rw [not_lt] at he
    have he0 : 0 < e := by linarith
    split
    · rename_i hd'
      have h1 : r / ballS * (r / ballS) / e ≤ r / ballS * (r / ballS) / (r * ballC) := by
        apply div_le_div_of_nonneg_left (mul_self_nonneg _) hrc he
      refine h1.trans ?_
      apply Real.le_sqrt_of_sq_le
      rw [ballS_eq]
      have h2 : (r / (2 * ballC) * (r / (2 * ballC)) / (r * ballC)) ^ 2 =
          r * r / (16 * ballC ^ 6) := by
        field_simp; norm_num
      rw [h2]
      have h3 : r * r / (16 * ballC ^ 6) ≤ r * r * (1 - ballC ^ 2) := by
        rw [div_le_iff₀ (by positivity)]
        nlinarith [mul_le_mul_of_nonneg_left ballC_key (mul_self_nonneg r)]
      have h4 : d * d ≤ (r * ballC) * (r * ballC) := by nlinarith
      nlinarith
    · rename_i hd'
      rw [not_lt] at hd'
      have hd0 : 0 < d := by linarith
      exact div_le_div_of_nonneg_left (mul_self_nonneg _) hd0 h

theorem ballProject_eq (r x y : ℝ) :
    ballProject r x y = ballHeight r (Real.sqrt (x * x + y * y)) := rfl

/-- The points of the trackball are all in different directions. -/
theorem ball_axis {x y x' y' : ℝ} (h : ((ballPoint x' y').cross (ballPoint x y)).norm = 0) :
    x' = x ∧ y' = y := by
  have h0 : (ballPoint x' y').cross (ballPoint x y) = ⟨0, 0, 0⟩ := by
    by_contra hne
    exact (norm_ne_zero _).2 hne h
  simp only [ballPoint, V3.cross, V3.mk.injEq, ballProject_eq] at h0
  obtain ⟨hy, hx, -⟩ := h0
  set d := Real.sqrt (x * x + y * y) with hd
  set d' := Real.sqrt (x' * x' + y' * y') with hd'
  have hd0 : 0 ≤ d := Real.sqrt_nonneg _
  have hd0' : 0 ≤ d' := Real.sqrt_nonneg _
  have hdd : d * d = x * x + y * y :=
    Real.mul_self_sqrt (by nlinarith [mul_self_nonneg x, mul_self_nonneg y])
  have hdd' : d' * d' = x' * x' + y' * y' :=
    Real.mul_self_sqrt (by nlinarith [mul_self_nonneg x', mul_self_nonneg y'])
  have hz := ballHeight_pos ballSize_pos hd0
  have hz' := ballHeight_pos ballSize_pos hd0'
  have hprop : ballHeight ballSize d * d' = ballHeight ballSize d' * d := by
    have hsq : (ballHeight ballSize d * d') ^ 2 = (ballHeight ballSize d' * d) ^ 2 := by
      have e1 : (ballHeight ballSize d * d') ^ 2 =
        (ballHeight ballSize d) ^ 2 * (x' * x' + y' * y') := by rw [← hdd']; ring
      have e2 : (ballHeight ballSize d' * d) ^ 2 =
        (ballHeight ballSize d') ^ 2 * (x * x + y * y) := by rw [← hdd]; ring
      rw [e1, e2]
      linear_combination (ballHeight ballSize d * y' + ballHeight ballSize d' * y) * hy -
        (ballHeight ballSize d * x' + ballHeight ballSize d' * x) * hx
    exact (sq_eq_sq₀ (by positivity) (by positivity)).1 hsq
  have heq : d' = d := by
    rcases lt_trichotomy d' d with hlt | heq | hgt
    · have := ballHeight_antitone ballSize_pos hd0' hlt.le
      nlinarith
    · exact heq
    · have := ballHeight_antitone ballSize_pos hd0 hgt.le
      nlinarith
  rw [heq] at hx hy
  constructor
  · apply mul_left_cancel₀ hz.ne'
    linear_combination -hx
  · apply mul_left_cancel₀ hz.ne'
    linear_combination hy

theorem ballRotate_unit (x y dx dy : ℝ) :
    (ballRotate x y dx dy).dot (ballRotate x y dx dy) = 1 := by
  unfold ballRotate
  split
  · simp [Quat.dot]
  · rename_i h
    apply Quat.fromAxisAngle_unit
    intro h0
    obtain ⟨h1, h2⟩ := ball_axis h0
    exact h ⟨by linarith, by linarith⟩

/-- What every trackball satisfies. -/
def BallOk (b : Ball) : Prop := b.rotation.dot b.rotation = 1 ∧ b.model = b.rotation.rotmatrix

theorem ballOk_orient (b : Ball) (theta phi : ℝ) : BallOk (ballOrient b theta phi) := by
  refine ⟨?_, rfl⟩
  simp only [ballOrient]
  rw [Quat.dot_qAdd]
  have h1 := Real.sin_sq_add_cos_sq (1 / 2 * (theta * (Real.pi / 180)))
  have h2 := Real.sin_sq_add_cos_sq (1 / 2 * (phi * (Real.pi / 180)))
  simp only [Quat.dot]
  set s := Real.sin (1 / 2 * (theta * (Real.pi / 180)))
  set c := Real.cos (1 / 2 * (theta * (Real.pi / 180)))
  linear_combination (s ^ 2 + c ^ 2) * h2 + h1

theorem ballOk_drag {b : Ball} (h : BallOk b) (x y dx dy : ℝ) : BallOk (ballDrag b x y dx dy) := by
  have hu : ((ballRotate x y dx dy).qAdd b.rotation).dot
      ((ballRotate x y dx dy).qAdd b.rotation) = 1 := by
    rw [Quat.dot_qAdd, ballRotate_unit, h.1, one_mul]
  unfold ballDrag
  simp only
  split
  · exact ⟨by rw [Quat.normalize_of_unit hu]; exact hu, rfl⟩
  · exact ⟨hu, rfl⟩

theorem ballOk_step {b : Ball} (h : BallOk b) (op : BallOp) : BallOk (ballStep b op).1 := by
  cases op with
  | drag x y dx dy => exact ballOk_drag h x y dx dy
  | setTheta t => exact ballOk_orient _ _ _
  | setPhi t => exact ballOk_orient _ _ _
  | getTheta =>
    simp only [ballStep]
    cases ballOrientation b with
    | ok p => exact h
    | error e => exact h
  | getPhi =>
    simp only [ballStep]
    cases ballOrientation b with
    | ok p => exact h
    | error e => exact h

theorem ballOk_run {b : Ball} (h : BallOk b) (ops : List BallOp) : BallOk (ballRun b ops) := by
  induction ops generalizing b with
  | nil => exact h
  | cons op ops ih => exact ih (ballOk_step h op)

theorem orient_rotation (b : Ball) (theta phi : ℝ) :
    (ballOrient b theta phi).rotation =
      ⟨Real.sin (radians theta / 2) * Real.cos (radians phi / 2),
       Real.sin (radians theta / 2) * Real.sin (radians phi / 2),
       Real.cos (radians theta / 2) * Real.sin (radians phi / 2),
       Real.cos (radians theta / 2) * Real.cos (radians phi / 2)⟩ := by
  have e : ∀ t, 1 / 2 * (t * (Real.pi / 180)) = radians t / 2 := by
    intro t; unfold radians; ring
  simp only [ballOrient, e]
  apply Quat.ext' <;> simp [Quat.qAdd, Quat.vec, V3.smul, V3.cross, V3.dot] <;> ring

theorem orient_model (b : Ball) (theta phi : ℝ) :
    (ballOrient b theta phi).model = glmZrotate phi * glmXrotate theta := by
  have h1 := sq_add_sq (radians theta / 2)
  have h2 := sq_add_sq (radians phi / 2)
  have e : ∀ t, 1 / 2 * (t * (Real.pi / 180)) = radians t / 2 := by
    intro t; unfold radians; ring
  simp only [ballOrient, e]
  rw [Quat.rotmatrix_qAdd]
  · have c1 := cos_half (radians theta)
    have s1 := sin_half (radians theta)
    have c2 := cos_half (radians phi)
    have s2 := sin_half (radians phi)
    congr 1
    · ext i j
      fin_cases i <;> fin_cases j <;> simp [Quat.rotmatrix, glmZrotate, transposeIf] <;>
        first | linear_combination -s2 | linear_combination s2 | linear_combination -h2 - c2
    · ext i j
      fin_cases i <;> fin_cases j <;> simp [Quat.rotmatrix, glmXrotate, transposeIf] <;>
        first | linear_combination -s1 | linear_combination s1 | linear_combination -h1 - c1
  · simp only [Quat.dot]; linear_combination h1
  · simp only [Quat.dot]; linear_combination h2

theorem fmod360_spec (x : ℝ) : ∃ k : ℤ, fmod360 x = x - 360 * k := by
  unfold fmod360
  split
  · exact ⟨_, rfl⟩
  · exact ⟨-⌊-x / 360⌋, by push_cast; ring⟩

theorem fmod360_small {x : ℝ} (h : |x| < 360) : fmod360 x = x := by
  rw [abs_lt] at h
  unfold fmod360
  split
  · rename_i h0
    have : ⌊x / 360⌋ = 0 := by
      rw [Int.floor_eq_iff]
      constructor
      · norm_num; positivity
      · norm_num; linarith
    rw [this]; norm_num
  · rename_i h0
    rw [not_le] at h0
    have : ⌊-x / 360⌋ = 0 := by
      rw [Int.floor_eq_iff]
      constructor
      · norm_num; linarith
      · norm_num; linarith
    rw [this]; norm_num

theorem rotate_period (x : ℝ) :
    glmXrotate (fmod360 x) = glmXrotate x ∧ glmZrotate (fmod360 x) = glmZrotate x := by
  obtain ⟨k, hk⟩ := fmod360_spec x
  have : radians (fmod360 x) = radians x - k * (2 * Real.pi) := by
    rw [hk]; unfold radians; ring
  simp only [glmXrotate, glmZrotate, this, Real.cos_sub_int_mul_two_pi,
    Real.sin_sub_int_mul_two_pi, and_self]

/-- What is read of angles that were set. -/
theorem orientation_angles {theta phi : ℝ} (b : Ball) (ct : Real.cos (radians theta) ≠ 0)
    (cp : Real.cos (radians phi) ≠ 0) :
    ballOrientation (ballOrient b theta phi) =
      .ok (Real.arctan (Real.sin (radians theta) / Real.cos (radians theta)) * 180 / Real.pi,
        Real.arctan (Real.sin (radians phi) / Real.cos (radians phi)) * 180 / Real.pi) := by
  have h1 := sq_add_sq (radians theta / 2)
  have h2 := sq_add_sq (radians phi / 2)
  have hct := cos_half (radians theta)
  have hst := sin_half (radians theta)
  have hcp := cos_half (radians phi)
  have hsp := sin_half (radians phi)
  unfold ballOrientation
  rw [orient_rotation]
  simp only
  generalize Real.sin (radians theta / 2) = s at *
  generalize Real.cos (radians theta / 2) = c at *
  generalize Real.sin (radians phi / 2) = s' at *
  generalize Real.cos (radians phi / 2) = c' at *
  have d1 : 1 - 2 * (s * s' * (s * s') + c * s' * (c * s')) = Real.cos (radians phi) := by
    rw [hcp]
    linear_combination -2 * s' * s' * h1 - h2
  have d2 : 1 - 2 * (c * s' * (c * s') + c * c' * (c * c')) = -Real.cos (radians theta) := by
    rw [hct]
    linear_combination -2 * c * c * h2 - h1
  have n1 : 2 * (s * c' * (s * s') + c * s' * (c * c')) = Real.sin (radians phi) := by
    rw [hsp]
    linear_combination 2 * s' * c' * h1
  have n2 : 2 * (s * c' * (c * c') + s * s' * (c * s')) = Real.sin (radians theta) := by
    rw [hst]
    linear_combination 2 * s * c * h2
  rw [d1, d2, n1, n2, if_neg cp, if_neg (neg_ne_zero.2 ct), div_neg, Real.arctan_neg]
  congr 2
  ring

theorem orientation_orient {theta phi : ℝ} (ht : |theta| < 90) (hp : |phi| < 90) (b : Ball) :
    ballOrientation (ballOrient b theta phi) = .ok (theta, phi) := by
  have hpi := Real.pi_pos
  rw [abs_lt] at ht hp
  have hr : ∀ {t : ℝ}, -90 < t ∧ t < 90 →
      -(Real.pi / 2) < radians t ∧ radians t < Real.pi / 2 := by
    rintro t ⟨h1, h2⟩
    unfold radians
    constructor <;> nlinarith
  have rt := hr ht
  have rp := hr hp
  have ct := Real.cos_pos_of_mem_Ioo rt
  have cp := Real.cos_pos_of_mem_Ioo rp
  have back : ∀ t, radians t * 180 / Real.pi = t := by
    intro t; unfold radians; field_simp
  rw [orientation_angles b ct.ne' cp.ne', ← Real.tan_eq_sin_div_cos, ← Real.tan_eq_sin_div_cos,
    Real.arctan_tan rt.1 rt.2, Real.arctan_tan rp.1 rp.2, back, back]

theorem drag_model {b : Ball} (h : BallOk b) (x y dx dy : ℝ) :
    (ballDrag b x y dx dy).model = b.model * (ballRotate x y dx dy).rotmatrix := by
  have hu : ((ballRotate x y dx dy).qAdd b.rotation).dot
      ((ballRotate x y dx dy).qAdd b.rotation) = 1 := by
    rw [Quat.dot_qAdd, ballRotate_unit, h.1, one_mul]
  unfold ballDrag
  simp only
  split
  · simp only [Quat.normalize_of_unit hu]
    rw [Quat.rotmatrix_qAdd (ballRotate_unit x y dx dy) h.1, h.2]
  · simp only
    rw [Quat.rotmatrix_qAdd (ballRotate_unit x y dx dy) h.1, h.2]

/-- The point of the trackball near its centre. -/
theorem ballPoint_inside {x y : ℝ} (h : x ^ 2 + y ^ 2 ≤ 8 / 25) :
    (ballPoint x y).z = Real.sqrt (16 / 25 - x ^ 2 - y ^ 2) := by
  simp only [ballPoint, ballProject]
  have h0 : 0 ≤ x * x + y * y := by nlinarith [mul_self_nonneg x, mul_self_nonneg y]
  rw [if_pos, Real.mul_self_sqrt h0]
  · congr 1; unfold ballSize; ring
  · rw [Real.sqrt_lt' (mul_pos ballSize_pos ballC_pos)]
    have : (8 : ℝ) / 25 < (ballSize * ballC) ^ 2 := by unfold ballSize ballC; norm_num
    nlinarith

/-- Half way from a point of the sphere to another. -/
theorem turn_takes {a b : V3} {C : ℝ} (ha : a.dot a = 1) (hb : b.dot b = 1) (hC : C ≠ 0)
    (hCC : 2 * C * C = 1 + a.dot b) :
    let m := b.cross a
    (Quat.rotmatrix ⟨m.x / (2 * C), m.y / (2 * C), m.z / (2 * C), C⟩).transpose *ᵥ a.point =
      b.point := by
  intro m
  obtain ⟨k, hk⟩ : ∃ k, k = 1 / (2 * C) := ⟨_, rfl⟩
  have hkC : 2 * k * C = 1 := by rw [hk]; field_simp
  set c := a.dot b with hc
  have hk2 : 2 * k * k * (1 + c) = 1 := by
    rw [← hCC]; linear_combination (2 * k * C + 1) * hkC
  have hmm : m.dot m = 1 - c * c := by
    simp only [m, V3.cross, V3.dot] at ha hb hc ⊢
    rw [hc]
    linear_combination (b.x * b.x + b.y * b.y + b.z * b.z) * ha + hb
  have hmk : 2 * k * k * m.dot m = 1 - c := by rw [hmm]; linear_combination (1 - c) * hk2
  have hma : m.dot a = 0 := by simp only [m, V3.cross, V3.dot]; ring
  have hx : m.y * a.z - m.z * a.y = c * a.x - b.x := by
    simp only [m, V3.cross, V3.dot] at ha hc ⊢
    rw [hc]; linear_combination -b.x * ha
  have hy : m.z * a.x - m.x * a.z = c * a.y - b.y := by
    simp only [m, V3.cross, V3.dot] at ha hc ⊢
    rw [hc]; linear_combination -b.y * ha
  have hz : m.x * a.y - m.y * a.x = c * a.z - b.z := by
    simp only [m, V3.cross, V3.dot] at ha hc ⊢
    rw [hc]; linear_combination -b.z * ha
  have e : ∀ t, t / (2 * C) = k * t := by intro t; rw [hk]; ring
  simp only [e]
  clear_value m c
  simp only [V3.dot] at hmk hma
  ext i
  fin_cases i
  · simp [Quat.rotmatrix, Matrix.mulVec, dotProduct, Fin.sum_univ_four, V3.point]
    linear_combination 2 * k * k * m.x * hma - a.x * hmk - hx - (m.y * a.z - m.z * a.y) * hkC
  · simp [Quat.rotmatrix, Matrix.mulVec, dotProduct, Fin.sum_univ_four, V3.point]
    linear_combination 2 * k * k * m.y * hma - a.y * hmk - hy - (m.z * a.x - m.x * a.z) * hkC
  · simp [Quat.rotmatrix, Matrix.mulVec, dotProduct, Fin.sum_univ_four, V3.point]
    linear_combination 2 * k * k * m.z * hma - a.z * hmk - hz - (m.x * a.y - m.y * a.x) * hkC
  · simp [Quat.rotmatrix, Matrix.mulVec, dotProduct, Fin.sum_univ_four, V3.point]

theorem rotmatrix_linear (q : Quat) {u v : V3} {r : ℝ} (hr : r ≠ 0)
    (h : q.rotmatrix.transpose *ᵥ (V3.smul (1 / r) u).point = (V3.smul (1 / r) v).point) :
    q.rotmatrix.transpose *ᵥ u.point = v.point := by
  ext i
  have := congrFun h i
  fin_cases i <;>
    simp [Quat.rotmatrix, Matrix.mulVec, dotProduct, Fin.sum_univ_four, V3.point, V3.smul] at this ⊢
  all_goals
    field_simp at this
    linear_combination this

/-- The rotation of a drag near the centre takes the first point of the ball to the second. -/
theorem ballRotate_takes {x y dx dy : ℝ} (h1 : x ^ 2 + y ^ 2 ≤ 8 / 25)
    (h2 : (x + dx) ^ 2 + (y + dy) ^ 2 ≤ 8 / 25) :
    (ballRotate x y dx dy).rotmatrix.transpose *ᵥ (ballPoint x y).point =
      (ballPoint (x + dx) (y + dy)).point := by
  by_cases h0 : dx = 0 ∧ dy = 0
  · obtain ⟨rfl, rfl⟩ := h0
    simp only [ballRotate, and_self, if_true, add_zero]
    ext i
    fin_cases i <;>
      simp [Quat.rotmatrix, Matrix.mulVec, dotProduct, Fin.sum_univ_four, V3.point]
  have hz1 := ballPoint_inside h1
  have hz2 := ballPoint_inside h2
  have hax : ((ballPoint (x + dx) (y + dy)).cross (ballPoint x y)).norm ≠ 0 := by
    intro h
    obtain ⟨e1, e2⟩ := ball_axis h
    exact h0 ⟨by linarith, by linarith⟩
  have p1 : 0 < (ballPoint x y).z := by rw [hz1]; exact Real.sqrt_pos.2 (by linarith)
  have p2 : 0 < (ballPoint (x + dx) (y + dy)).z := by rw [hz2]; exact Real.sqrt_pos.2 (by linarith)
  have s1 : (ballPoint x y).z * (ballPoint x y).z = 16 / 25 - x ^ 2 - y ^ 2 := by
    rw [hz1]; exact Real.mul_self_sqrt (by linarith)
  have s2 : (ballPoint (x + dx) (y + dy)).z * (ballPoint (x + dx) (y + dy)).z =
      16 / 25 - (x + dx) ^ 2 - (y + dy) ^ 2 := by
    rw [hz2]; exact Real.mul_self_sqrt (by linarith)
  have x1 : (ballPoint x y).x = x := rfl
  have y1 : (ballPoint x y).y = y := rfl
  have x2 : (ballPoint (x + dx) (y + dy)).x = x + dx := rfl
  have y2 : (ballPoint (x + dx) (y + dy)).y = y + dy := rfl
  simp only [ballRotate, if_neg h0]
  generalize ballPoint x y = u at *
  generalize ballPoint (x + dx) (y + dy) = v at *
  have huu : u.dot u = 16 / 25 := by simp only [V3.dot, x1, y1]; linear_combination s1
  have hvv : v.dot v = 16 / 25 := by simp only [V3.dot, x2, y2]; linear_combination s2
  have hpos : 0 ≤ u.x * v.x + u.y * v.y + u.z * v.z := by
    have b1 : 8 / 25 ≤ u.z * u.z := by linarith
    have b2 : 8 / 25 ≤ v.z * v.z := by linarith
    have b3 : 8 / 25 ≤ u.z * v.z := by
      have := mul_le_mul b1 b2 (by norm_num) (by positivity)
      have h3 : (8 / 25 : ℝ) ^ 2 ≤ (u.z * v.z) ^ 2 := by linarith
      exact (sq_le_sq₀ (by norm_num) (by positivity)).1 h3
    have b4 : (u.x * v.x + u.y * v.y) ^ 2 ≤ (8 / 25) ^ 2 := by
      have c1 : u.x ^ 2 + u.y ^ 2 ≤ 8 / 25 := by rw [x1, y1]; exact h1
      have c2 : v.x ^ 2 + v.y ^ 2 ≤ 8 / 25 := by rw [x2, y2]; exact h2
      nlinarith [sq_nonneg (u.x * v.y - u.y * v.x), sq_nonneg u.x, sq_nonneg u.y, sq_nonneg v.x,
        sq_nonneg v.y, mul_nonneg (sub_nonneg.2 c1) (add_nonneg (sq_nonneg v.x) (sq_nonneg v.y))]
    have b5 := abs_le_of_sq_le_sq b4 (by norm_num)
    rw [abs_le] at b5
    linarith [b5.1]
  set N := (v.cross u).norm with hN
  have hN0 : 0 ≤ N := Real.sqrt_nonneg _
  have hNN : N * N = (16 / 25) * (16 / 25) - (u.dot v) * (u.dot v) := by
    rw [hN, norm_sq]
    have : (v.cross u).dot (v.cross u) = u.dot u * v.dot v - u.dot v * u.dot v := by
      simp only [V3.cross, V3.dot]; ring
    rw [this, huu, hvv]
  set t := (u.sub v).norm / (2 * ballSize) with ht
  have ht0 : 0 ≤ t := div_nonneg (Real.sqrt_nonneg _) (by linarith [ballSize_pos])
  have hp : 0 ≤ u.dot v := hpos
  have htt : t * t = 1 / 2 - 25 / 32 * u.dot v := by
    have e1 := norm_sq (u.sub v)
    have e2 : (u.sub v).dot (u.sub v) = u.dot u + v.dot v - 2 * u.dot v := by
      simp only [V3.sub, V3.dot]; ring
    rw [e2, huu, hvv] at e1
    rw [ht]
    unfold ballSize
    linear_combination (25 / 64) * e1
  have ht1 : t ≤ 1 := by nlinarith
  rw [if_neg (by linarith : ¬ t > 1), if_neg (by linarith : ¬ t < -1)]
  have hsin : Real.sin (2 * Real.arcsin t / 2) = t := by
    rw [mul_div_cancel_left₀ _ (two_ne_zero), Real.sin_arcsin (by linarith) ht1]
  have hcos : Real.cos (2 * Real.arcsin t / 2) = Real.sqrt (1 - t ^ 2) := by
    rw [mul_div_cancel_left₀ _ (two_ne_zero), Real.cos_arcsin]
  set C := Real.sqrt (1 - t ^ 2) with hC
  have hCC : C * C = 1 / 2 + 25 / 32 * u.dot v := by
    rw [hC, Real.mul_self_sqrt (by nlinarith)]; linear_combination -htt
  have hC0 : 0 ≤ C := Real.sqrt_nonneg _
  have hCne : C ≠ 0 := by rintro h; rw [h] at hCC; linarith
  have hNt : N = 2 * C * t * (16 / 25) := by
    have : N ^ 2 = (2 * C * t * (16 / 25)) ^ 2 := by
      linear_combination hNN - 4 * (16 / 25) ^ 2 * t * t * hCC - 4 * (16 / 25) ^ 2 *
        (1 / 2 + 25 / 32 * u.dot v) * htt
    exact (sq_eq_sq₀ hN0 (by positivity)).1 this
  have htne : t ≠ 0 := by rintro h; rw [h] at hNt; apply hax; linarith
  apply rotmatrix_linear _ (r := 4 / 5) (by norm_num)
  have key := turn_takes (a := V3.smul (1 / (4 / 5)) u) (b := V3.smul (1 / (4 / 5)) v) (C := C)
    (by simp only [V3.smul, V3.dot] at huu ⊢; linear_combination (25 / 16) * huu)
    (by simp only [V3.smul, V3.dot] at hvv ⊢; linear_combination (25 / 16) * hvv) hCne
    (by simp only [V3.smul, V3.dot] at hCC ⊢; linear_combination 2 * hCC)
  rw [← key]
  congr 3
  simp only [Quat.fromAxisAngle, Quat.vNormalize, if_neg hax, ← hN, hsin, hcos]
  apply Quat.ext' <;> simp only [V3.smul, V3.cross]
  · rw [hNt]; field_simp; ring
  · rw [hNt]; field_simp; ring
  · rw [hNt]; field_simp; ring

end Verif
