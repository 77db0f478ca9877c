import Verif.Lemmas.Trackball
/-
C43, C49 and C56: the trackball and the camera.
-/

namespace Verif

open Matrix

/-! ### C43 -/

/-- Whatever is done with a trackball, its matrix is a rotation. -/
theorem ball_rotation (theta phi : ℝ) (ops : List BallOp) :
    IsRotation (ballRun (ballInit theta phi) ops).model := by
  have h := ballOk_run (ballOk_orient _ theta phi : BallOk (ballInit theta phi)) ops
  unfold ballInit
  rw [h.2]
  exact Quat.rotmatrix_rotation h.1

/-- The correction against rounding errors, made now and then, gives a unit quaternion in the
direction of the old one, so that it changes no rotation when there is nothing to correct. -/
theorem ball_normalize (q : Quat) (h : q.dot q ≠ 0) :
    q.normalize.dot q.normalize = 1 ∧
    ∃ k > 0, q.normalize = ⟨k * q.x, k * q.y, k * q.z, k * q.w⟩ := by
  have h0 : 0 ≤ q.dot q := by
    simp only [Quat.dot]
    nlinarith [mul_self_nonneg q.x, mul_self_nonneg q.y, mul_self_nonneg q.z, mul_self_nonneg q.w]
  have hp : 0 < q.dot q := lt_of_le_of_ne h0 (Ne.symm h)
  have hs : Real.sqrt (q.dot q) ≠ 0 := (Real.sqrt_pos.2 hp).ne'
  have hk : (1 / Real.sqrt (q.dot q)) ^ 2 * q.dot q = 1 := by
    have := Real.mul_self_sqrt h0
    field_simp
    linear_combination -this
  have he : q.normalize = ⟨1 / Real.sqrt (q.dot q) * q.x, 1 / Real.sqrt (q.dot q) * q.y,
      1 / Real.sqrt (q.dot q) * q.z, 1 / Real.sqrt (q.dot q) * q.w⟩ := by
    unfold Quat.normalize
    simp only [if_neg hs]
    refine Quat.ext' ?_ ?_ ?_ ?_ <;> ring
  refine ⟨?_, _, by positivity, he⟩
  rw [he]
  generalize 1 / Real.sqrt (q.dot q) = k at hk
  simp only [Quat.dot] at hk ⊢
  linear_combination hk

/-- The angles given to a trackball, or set later, are turns about the first axis by `theta` and
then about the third by `phi`, for all angles. -/
theorem ball_angles (b : Ball) (theta phi : ℝ) :
    (ballInit theta phi).model = glmZrotate phi * glmXrotate theta ∧
    (ballStep b (.setTheta theta)).1.model = glmZrotate b.phi * glmXrotate theta ∧
    (ballStep b (.setPhi phi)).1.model = glmZrotate phi * glmXrotate b.theta := by
  refine ⟨orient_model _ _ _, ?_, ?_⟩ <;> simp only [ballStep, orient_model]
  · rw [(rotate_period b.phi).2, (rotate_period theta).1]
  · rw [(rotate_period phi).2, (rotate_period b.theta).1]

/-- Angles between -90 and 90 degrees are read back. -/
theorem ball_read_back_partial {theta phi : ℝ} (ht : |theta| < 90) (hp : |phi| < 90) :
    (ballStep (ballInit theta phi) .getTheta).2 = .ok (some theta) ∧
    (ballStep (ballInit theta phi) .getPhi).2 = .ok (some phi) := by
  have h := orientation_orient ht hp ⟨⟨0, 0, 0, 1⟩, 0, 0, 0, 0⟩
  simp only [ballStep, ballInit, h, and_self]

/-- So are angles that are set one after the other, whatever was done before. -/
theorem ball_set_read_back_partial {theta phi : ℝ} (ht : |theta| < 90) (hp : |phi| < 90) (b : Ball) :
    let b' := ballRun b [.setTheta theta, .setPhi phi]
    (ballStep b' .getTheta).2 = .ok (some theta) ∧ (ballStep b' .getPhi).2 = .ok (some phi) := by
  have e1 := fmod360_small (x := theta) (by linarith)
  have e2 := fmod360_small (x := phi) (by linarith)
  simp only [ballRun, List.foldl, ballStep, e1, e2]
  have : (ballOrient b theta (fmod360 b.phi)).theta = theta := rfl
  rw [this, e1, orientation_orient ht hp]
  exact ⟨rfl, rfl⟩

example : |(30 : ℝ)| < 90 ∧ |(-60 : ℝ)| < 90 := by
  constructor <;> rw [abs_lt] <;> norm_num

/-- Larger angles are not: 135 degrees is read as -45. -/
theorem ball_read_back_fails : (ballStep (ballInit 135 0) .getTheta).2 = .ok (some (-45)) := by
  have r : radians 135 = Real.pi - Real.pi / 4 := by unfold radians; ring
  have hct : Real.cos (radians 135) = -(Real.sqrt 2 / 2) := by
    rw [r, Real.cos_pi_sub, Real.cos_pi_div_four]
  have hst : Real.sin (radians 135) = Real.sqrt 2 / 2 := by
    rw [r, Real.sin_pi_sub, Real.sin_pi_div_four]
  have h2 : Real.sqrt 2 / 2 ≠ 0 := by positivity
  have h := orientation_angles (theta := 135) (phi := 0) ⟨⟨0, 0, 0, 1⟩, 0, 0, 0, 0⟩
    (by rw [hct]; simp) (by simp [radians])
  rw [hct, hst, div_neg, div_self h2, Real.arctan_neg, Real.arctan_one] at h
  have hpi := Real.pi_ne_zero
  have e : -(Real.pi / 4) * 180 / Real.pi = -45 := by field_simp; norm_num
  rw [e] at h
  simp only [ballStep, ballInit, h]

/-- Setting an angle forgets the drags made since the other angle was read or set. -/
theorem ball_set_forgets (b : Ball) (ds : List (ℝ × ℝ × ℝ × ℝ)) (theta : ℝ) :
    (ballRun b (ds.map (fun d => .drag d.1 d.2.1 d.2.2.1 d.2.2.2) ++ [.setTheta theta])).model =
      (ballRun b [.setTheta theta]).model := by
  have h : ∀ (ds : List (ℝ × ℝ × ℝ × ℝ)) (b : Ball),
      (ballRun b (ds.map (fun d => .drag d.1 d.2.1 d.2.2.1 d.2.2.2))).phi = b.phi := by
    intro ds
    induction ds with
    | nil => intro b; rfl
    | cons d ds ih =>
      intro b
      exact ih (ballDrag b d.1 d.2.1 d.2.2.1 d.2.2.2)
  have e : ∀ b : Ball, (ballRun b [.setTheta theta]).model = glmZrotate b.phi * glmXrotate theta :=
    fun b => (ball_angles b theta 0).2.1
  have e' : ∀ ops, ballRun b (ops ++ [.setTheta theta]) = ballRun (ballRun b ops) [.setTheta theta] :=
    fun ops => List.foldl_append
  rw [e', e, e, h]

/-! ### C56 -/

/-- A drag near the centre takes what is under the pointer along with the pointer: the point of the
scene that was seen at the first place of the ball is seen at the second. -/
theorem ball_drag_follows (theta phi : ℝ) (ops : List BallOp) {x y dx dy : ℝ}
    (h1 : x ^ 2 + y ^ 2 ≤ 8 / 25) (h2 : (x + dx) ^ 2 + (y + dy) ^ 2 ≤ 8 / 25) (p : Fin 4 → ℝ) :
    let b := ballRun (ballInit theta phi) ops
    b.model.transpose *ᵥ p = onBall x y →
    (ballStep b (.drag x y dx dy)).1.model.transpose *ᵥ p = onBall (x + dx) (y + dy) := by
  intro b hp
  have hb : BallOk b := ballOk_run (ballOk_orient _ theta phi : BallOk (ballInit theta phi)) ops
  have e : ∀ {x y : ℝ}, x ^ 2 + y ^ 2 ≤ 8 / 25 → onBall x y = (ballPoint x y).point := by
    intro x y h
    unfold onBall
    rw [← ballPoint_inside h]
    rfl
  simp only [ballStep]
  rw [drag_model hb, Matrix.transpose_mul, ← Matrix.mulVec_mulVec, hp, e h1, e h2,
    ballRotate_takes h1 h2]

/-- A drag composes a rotation with the matrix, and a drag that goes nowhere changes nothing. -/
theorem ball_drag_composes (theta phi : ℝ) (ops : List BallOp) (x y dx dy : ℝ) :
    let b := ballRun (ballInit theta phi) ops
    (∃ R, IsRotation R ∧ (ballStep b (.drag x y dx dy)).1.model = b.model * R) ∧
    (ballStep b (.drag x y 0 0)).1.model = b.model := by
  intro b
  have hb : BallOk b := ballOk_run (ballOk_orient _ theta phi : BallOk (ballInit theta phi)) ops
  simp only [ballStep]
  refine ⟨⟨_, Quat.rotmatrix_rotation (ballRotate_unit x y dx dy), drag_model hb x y dx dy⟩, ?_⟩
  rw [drag_model hb]
  have : (ballRotate x y 0 0).rotmatrix = 1 := by
    simp only [ballRotate, and_self, if_true]
    ext i j
    fin_cases i <;> fin_cases j <;> simp [Quat.rotmatrix]
  rw [this, mul_one]

example : ((1 : ℝ) / 4) ^ 2 + (1 / 5) ^ 2 ≤ 8 / 25 := by norm_num

/-- The camera gives the trackball the place the pointer has come to, and not the one it left. So
what is under the pointer does not follow it: after a drag from the centre to 1/4, the point that
was seen at the centre is not seen at 1/4. -/
theorem camera_drag_follows_fails :
    let c := camInit false 0 0 1 5 1 1 1
    c.model *ᵥ onBall 0 0 = onBall 0 0 ∧
    (camRun c [.press true 0 0, .motion true (1 / 4) 0]).model *ᵥ onBall 0 0 ≠ onBall (1 / 4) 0 := by
  have hm : (ballInit 0 0).model = 1 := by
    rw [(ball_angles (ballInit 0 0) 0 0).1]
    ext i j
    fin_cases i <;> fin_cases j <;>
      simp [glmZrotate, glmXrotate, radians, transposeIf, Matrix.mul_apply, Fin.sum_univ_four]
  have hb : BallOk (ballInit 0 0) := ballOk_orient _ 0 0
  constructor
  · simp [camInit, camLimits, hm]
  · have hcm : (camRun (camInit false 0 0 1 5 1 1 1) [.press true 0 0, .motion true (1 / 4) 0]).model =
        (ballRotate (1 / 4) 0 (1 / 4) 0).rotmatrix.transpose := by
      simp [camRun, camInit, camLimits, camStep, drag_model hb, hm]
    rw [hcm]
    intro h
    have hr := Quat.rotmatrix_rotation (ballRotate_unit (1 / 4) 0 (1 / 4) 0)
    have hk := ballRotate_takes (x := 1 / 4) (y := 0) (dx := 1 / 4) (dy := 0) (by norm_num)
      (by norm_num)
    have e : ∀ {x y : ℝ}, x ^ 2 + y ^ 2 ≤ 8 / 25 → (ballPoint x y).point = onBall x y := by
      intro x y h
      unfold onBall
      rw [← ballPoint_inside h]
      rfl
    rw [e (by norm_num), e (by norm_num)] at hk
    generalize (ballRotate (1 / 4) 0 (1 / 4) 0).rotmatrix = R at *
    have hdot : ∀ u v : Fin 4 → ℝ,
        (R.transpose *ᵥ u) ⬝ᵥ (R.transpose *ᵥ v) = u ⬝ᵥ v := by
      intro u v
      rw [Matrix.dotProduct_mulVec, Matrix.vecMul_transpose, Matrix.mulVec_mulVec,
        mul_eq_one_comm.1 hr.1, Matrix.one_mulVec]
    have hd := hdot (onBall 0 0) (onBall (1 / 4) 0)
    rw [hk, h] at hd
    have z0 : Real.sqrt (16 / 25) = 4 / 5 := by
      rw [show (16 : ℝ) / 25 = (4 / 5) * (4 / 5) by norm_num]
      exact Real.sqrt_mul_self (by norm_num)
    simp [onBall, pt, dotProduct, Fin.sum_univ_four] at hd
    norm_num at hd
    rw [← Real.sqrt_div (by norm_num), ← Real.sqrt_div (by norm_num), ← Real.sqrt_div (by norm_num),
      z0] at hd
    have b1 : (3 : ℝ) / 4 ≤ Real.sqrt (231 / 400) := Real.le_sqrt_of_sq_le (by norm_num)
    have b2 : Real.sqrt (39 / 100) ≤ 63 / 100 := Real.sqrt_le_iff.2 ⟨by norm_num, by norm_num⟩
    nlinarith

/-! ### C49 -/

/-- The zoom stays between its bounds, and the shape of the view stays as it was, whatever events
come. -/
theorem camera_zoom (ortho : Bool) (theta phi zdist scale : ℝ) {zoom xlim ylim : ℝ}
    (h1 : 1 / 10 ≤ zoom) (h2 : zoom ≤ 5) (hx : 0 < xlim) (es : List CamEvent) :
    let c := camRun (camInit ortho theta phi zoom zdist scale xlim ylim) es
    1 / 10 ≤ c.zoom ∧ c.zoom ≤ 5 ∧ c.xlim = c.zoom ∧ c.ylim / c.xlim = ylim / xlim := by
  have hlim : ∀ c : Camera, 1 / 10 ≤ c.zoom → c.zoom ≤ 5 → c.ylim / c.xlim = ylim / xlim →
      1 / 10 ≤ (camLimits c).zoom ∧ (camLimits c).zoom ≤ 5 ∧
      (camLimits c).xlim = (camLimits c).zoom ∧
      (camLimits c).ylim / (camLimits c).xlim = ylim / xlim := by
    intro c a b r
    refine ⟨a, b, rfl, ?_⟩
    have : c.zoom ≠ 0 := by intro h; rw [h] at a; norm_num at a
    simp only [camLimits, r]
    field_simp
  have hstep : ∀ (c : Camera) (e : CamEvent), (1 / 10 ≤ c.zoom ∧ c.zoom ≤ 5 ∧ c.xlim = c.zoom ∧
      c.ylim / c.xlim = ylim / xlim) → (1 / 10 ≤ (camStep c e).zoom ∧ (camStep c e).zoom ≤ 5 ∧
      (camStep c e).xlim = (camStep c e).zoom ∧
      (camStep c e).ylim / (camStep c e).xlim = ylim / xlim) := by
    rintro c e ⟨a, b, x, r⟩
    cases e with
    | scroll here button =>
      simp only [camStep]
      split
      · exact ⟨a, b, x, r⟩
      · refine hlim _ ?_ ?_ r
        · simp only [zoomMin, zoomMax]
          split
          · exact le_max_right _ _
          · split
            · exact le_min (by linarith) (by norm_num)
            · exact a
        · simp only [zoomMin, zoomMax]
          split
          · exact max_le (by linarith) (by norm_num)
          · split
            · exact min_le_right _ _
            · exact b
    | press here mx my =>
      simp only [camStep]
      split <;> exact ⟨a, b, x, r⟩
    | motion here mx my =>
      simp only [camStep]
      split <;> exact ⟨a, b, x, r⟩
    | release => exact ⟨a, b, x, r⟩
  have hrun : ∀ (es : List CamEvent) (c : Camera), (1 / 10 ≤ c.zoom ∧ c.zoom ≤ 5 ∧
      c.xlim = c.zoom ∧ c.ylim / c.xlim = ylim / xlim) →
      (1 / 10 ≤ (camRun c es).zoom ∧ (camRun c es).zoom ≤ 5 ∧
      (camRun c es).xlim = (camRun c es).zoom ∧
      (camRun c es).ylim / (camRun c es).xlim = ylim / xlim) := by
    intro es
    induction es with
    | nil => intro c h; exact h
    | cons e es ih => intro c h; exact ih _ (hstep c e h)
  apply hrun
  cases ortho
  · exact hlim _ h1 h2 rfl
  · exact hlim _ h1 h2 rfl

example : (1 : ℝ) / 10 ≤ 1 ∧ (1 : ℝ) ≤ 5 ∧ (0 : ℝ) < 1 := by norm_num

/-- Scrolling up shows less and scrolling down shows more, by a tenth, between the bounds. -/
theorem camera_scroll (c : Camera) :
    (9 / 10 * c.zoom ≥ 1 / 10 → (camStep c (.scroll true "up")).xlim = 9 / 10 * c.zoom) ∧
    (11 / 10 * c.zoom ≤ 5 → (camStep c (.scroll true "down")).xlim = 11 / 10 * c.zoom) ∧
    camStep c (.scroll false "up") = c ∧ camStep c (.scroll false "down") = c := by
  refine ⟨fun h => ?_, fun h => ?_, rfl, rfl⟩
  · simp [camStep, camLimits, zoomMin]
    norm_num at h
    linarith
  · simp [camStep, camLimits, zoomMax]
    linarith

/-- Whatever events come, the model matrix of the camera is a rotation, that of its trackball. -/
theorem camera_rotation (ortho : Bool) (theta phi zoom zdist scale xlim ylim : ℝ)
    (es : List CamEvent) :
    IsRotation (camRun (camInit ortho theta phi zoom zdist scale xlim ylim) es).model := by
  have hrun : ∀ (es : List CamEvent) (c : Camera),
      (IsRotation c.model ∧ ∀ b, c.ball = some b → BallOk b) → IsRotation (camRun c es).model := by
    intro es
    induction es with
    | nil => intro c h; exact h.1
    | cons e es ih =>
      intro c h
      refine ih _ ?_
      cases e with
      | scroll here button => simp only [camStep]; split <;> exact h
      | press here mx my => simp only [camStep]; split <;> exact h
      | motion here mx my =>
        simp only [camStep]
        split
        · rename_i px py b hm hb
          have hok := ballOk_drag (h.2 b hb) mx my (mx - px) (my - py)
          refine ⟨?_, ?_⟩
          · simp only
            rw [hok.2]
            exact (Quat.rotmatrix_rotation hok.1).transpose
          · intro b' hb'
            simp only [Option.some.injEq] at hb'
            subst hb'
            exact hok
        · exact h
      | release => exact h
  apply hrun
  cases ortho
  · have hok : BallOk (ballInit theta phi) := ballOk_orient _ theta phi
    refine ⟨?_, ?_⟩
    · simp only [camInit, camLimits]
      rw [if_neg (by simp)]
      simp only
      rw [hok.2]
      exact (Quat.rotmatrix_rotation hok.1).transpose
    · intro b hb
      simp [camInit, camLimits] at hb
      subst hb
      exact hok
  · refine ⟨?_, ?_⟩
    · simp [camInit, camLimits, IsRotation]
    · intro b hb
      simp [camInit, camLimits] at hb

end Verif
