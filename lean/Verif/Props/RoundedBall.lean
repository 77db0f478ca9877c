import Verif.Spec.RoundedBall
import Verif.Props.Trackball
/-
C103: rounding does not deform a scene that is turned, however long.
-/

namespace Verif

theorem Quat.size_nonneg (q : Quat) : 0 ≤ q.size := Real.sqrt_nonneg _

theorem Quat.dot_nonneg (q : Quat) : 0 ≤ q.dot q := by
  simp only [Quat.dot]
  nlinarith [mul_self_nonneg q.x, mul_self_nonneg q.y, mul_self_nonneg q.z, mul_self_nonneg q.w]

theorem Quat.size_sq (q : Quat) : q.size ^ 2 = q.dot q := Real.sq_sqrt q.dot_nonneg

/-- Within the bounds of `n` errors. -/
def Near (ε : ℝ) (n : Nat) (x : ℝ) : Prop := (1 - ε) ^ n ≤ x ∧ x ≤ (1 + ε) ^ n

theorem Near.of_abs {ε x : ℝ} (h : |x - 1| ≤ ε) : Near ε 1 x := by
  have := abs_le.mp h
  constructor <;> simp only [pow_one] <;> linarith [this.1, this.2]

theorem Near.mono {ε x : ℝ} {m n : Nat} (h0 : 0 ≤ ε) (h1 : ε < 1) (hmn : m ≤ n) (h : Near ε m x) :
    Near ε n x :=
  ⟨(pow_le_pow_of_le_one (by linarith) (by linarith) hmn).trans h.1,
    h.2.trans (pow_le_pow_right₀ (by linarith) hmn)⟩

theorem Near.mul {ε x y : ℝ} {m n : Nat} (h0 : 0 ≤ ε) (h1 : ε < 1) (hx : Near ε m x) (hy : Near ε n y) :
    Near ε (m + n) (x * y) := by
  have p1 : 0 ≤ (1 - ε) ^ m := pow_nonneg (by linarith) _
  have p2 : 0 ≤ (1 - ε) ^ n := pow_nonneg (by linarith) _
  have p3 : 0 ≤ (1 + ε) ^ m := pow_nonneg (by linarith) _
  refine ⟨?_, ?_⟩ <;> rw [pow_add]
  · exact mul_le_mul hx.1 hy.1 p2 (p1.trans hx.1)
  · exact mul_le_mul hx.2 hy.2 (p2.trans hy.1) p3

theorem Near.err {ε x y : ℝ} {n : Nat} (h0 : 0 ≤ ε) (h1 : ε < 1) (hx : Near ε n x)
    (h : |y - x| ≤ ε * x) : Near ε (n + 1) y := by
  have p1 : 0 ≤ (1 - ε) ^ n := pow_nonneg (by linarith) _
  obtain ⟨a, b⟩ := abs_le.mp h
  refine ⟨?_, ?_⟩ <;> rw [pow_succ]
  · nlinarith [mul_le_mul_of_nonneg_right hx.1 (by linarith : 0 ≤ 1 - ε)]
  · nlinarith [mul_le_mul_of_nonneg_right hx.2 (by linarith : 0 ≤ 1 + ε)]

theorem ball_step_near {F : BallFloats} {ε : ℝ} (hF : F.Within ε) (h0 : 0 ≤ ε) (h1 : ε < 1)
    {b : BallCount} (hb : Near ε (2 * b.count + 1) b.rotation.size ∧ b.count ≤ 97) (u : BallUse) :
    Near ε (2 * (F.step b u).count + 1) (F.step b u).rotation.size ∧ (F.step b u).count ≤ 97 := by
  cases u with
  | drag x y dx dy =>
    have ht := Near.of_abs (hF.turn x y dx dy)
    have hp : Near ε (2 * (b.count + 1) + 1) (F.prod (F.turn x y dx dy) b.rotation).size := by
      have := (ht.mul h0 h1 hb.1).err h0 h1 (hF.prod _ _)
      rwa [show 1 + (2 * b.count + 1) + 1 = 2 * (b.count + 1) + 1 by ring] at this
    simp only [BallFloats.step]
    split
    · refine ⟨Near.of_abs (hF.unit _ ?_), by norm_num⟩
      have : 0 < (1 - ε) ^ (2 * (b.count + 1) + 1) := pow_pos (by linarith) _
      exact (lt_of_lt_of_le this hp.1).ne'
    · exact ⟨hp, by simp only; omega⟩
  | orient theta phi =>
    exact ⟨(Near.of_abs (hF.orient theta phi)).mono h0 h1 (by simp only [BallFloats.step]; omega), hb.2⟩

/-- **C103.** However floats are rounded and however long a trackball is used, its quaternion has the length
1 up to 195 roundings: after 98 drags it is normalised. -/
theorem ball_size_rounded {F : BallFloats} {ε : ℝ} (hF : F.Within ε) (h1 : ε < 1) (theta phi : ℝ)
    (us : List BallUse) :
    (1 - ε) ^ 195 ≤ (F.run theta phi us).rotation.size ∧
      (F.run theta phi us).rotation.size ≤ (1 + ε) ^ 195 := by
  have h0 : 0 ≤ ε := (abs_nonneg _).trans (hF.orient 0 0)
  have key : ∀ (us : List BallUse) (b : BallCount),
      Near ε (2 * b.count + 1) b.rotation.size ∧ b.count ≤ 97 →
      Near ε (2 * (us.foldl F.step b).count + 1) (us.foldl F.step b).rotation.size ∧
        (us.foldl F.step b).count ≤ 97 := by
    intro us
    induction us with
    | nil => intro b h; exact h
    | cons u us ih => intro b h; exact ih _ (ball_step_near hF h0 h1 h u)
  obtain ⟨a, b⟩ := key us ⟨F.orient theta phi, 0⟩ ⟨Near.of_abs (hF.orient theta phi), by norm_num⟩
  exact a.mono h0 h1 (by omega)

/-- The matrix of a quaternion that has not the length 1: a rotation, and a part of what it moves. -/
theorem rotmatrix_near (q : Quat) (h : q.size ≠ 0) :
    ∃ R, IsRotation R ∧ ∀ i j : Fin 4,
      q.rotmatrix i j = R i j + (q.size ^ 2 - 1) * (R i j - (1 : Mat4 ℝ) i j) := by
  have hs := q.size_sq
  have e : ((1 : ℝ) / q.size) ^ 2 * q.dot q = 1 := by rw [← hs]; field_simp
  refine ⟨Quat.rotmatrix ⟨1 / q.size * q.x, 1 / q.size * q.y, 1 / q.size * q.z, 1 / q.size * q.w⟩,
    Quat.rotmatrix_rotation ?_, ?_⟩
  · simp only [Quat.dot] at e ⊢
    linear_combination e
  · intro i j
    have e2 : q.size ^ 2 * (1 / q.size) ^ 2 = 1 := by field_simp
    generalize 1 / q.size = k at e2
    generalize q.size ^ 2 = N at e2
    fin_cases i <;> fin_cases j <;> simp [Quat.rotmatrix, Matrix.one_apply] <;>
      first
        | linear_combination 2 * (q.y * q.y + q.z * q.z) * e2
        | linear_combination 2 * (q.z * q.z + q.x * q.x) * e2
        | linear_combination 2 * (q.y * q.y + q.x * q.x) * e2
        | linear_combination -2 * (q.x * q.y - q.z * q.w) * e2
        | linear_combination -2 * (q.z * q.x + q.y * q.w) * e2
        | linear_combination -2 * (q.x * q.y + q.z * q.w) * e2
        | linear_combination -2 * (q.y * q.z - q.x * q.w) * e2
        | linear_combination -2 * (q.z * q.x - q.y * q.w) * e2
        | linear_combination -2 * (q.y * q.z + q.x * q.w) * e2

/-- **C103.** With lengths computed to 14 digits, the matrix of a trackball is a rotation, and a part of at
most `4·10⁻¹²` of what the rotation moves: no history of drags and angles deforms the scene visibly. -/
theorem ball_rounded {F : BallFloats} (hF : F.Within (1 / 10 ^ 14)) (theta phi : ℝ)
    (us : List BallUse) :
    ∃ R k, IsRotation R ∧ |k| ≤ 4 / 10 ^ 12 ∧ ∀ i j : Fin 4,
      (F.run theta phi us).rotation.rotmatrix i j = R i j + k * (R i j - (1 : Mat4 ℝ) i j) := by
  obtain ⟨a, b⟩ := ball_size_rounded hF (by norm_num) theta phi us
  generalize (F.run theta phi us).rotation = q at a b
  have hp : (0 : ℝ) < (1 - 1 / 10 ^ 14) ^ 195 := pow_pos (by norm_num) _
  have hq : 0 < q.size := lt_of_lt_of_le hp a
  obtain ⟨R, hR, e⟩ := rotmatrix_near q hq.ne'
  refine ⟨R, q.size ^ 2 - 1, hR, abs_le.mpr ⟨?_, ?_⟩, e⟩
  · have : ((1 - 1 / 10 ^ 14 : ℝ) ^ 195) ^ 2 ≤ q.size ^ 2 := pow_le_pow_left₀ hp.le a 2
    have n : (1 - 4 / 10 ^ 12 : ℝ) ≤ ((1 - 1 / 10 ^ 14 : ℝ) ^ 195) ^ 2 := by norm_num
    linarith
  · have : q.size ^ 2 ≤ ((1 + 1 / 10 ^ 14 : ℝ) ^ 195) ^ 2 := pow_le_pow_left₀ hq.le b 2
    have n : ((1 + 1 / 10 ^ 14 : ℝ) ^ 195) ^ 2 ≤ (1 + 4 / 10 ^ 12 : ℝ) := by norm_num
    linarith

theorem Quat.size_of_unit {q : Quat} (h : q.dot q = 1) : q.size = 1 := by rw [Quat.size, h, Real.sqrt_one]

theorem stretched_within {δ : ℝ} (h : 0 ≤ δ) : (BallFloats.stretched δ).Within δ where
  turn x y dx dy := by
    rw [show (BallFloats.stretched δ).turn x y dx dy = ballRotate x y dx dy from rfl,
      Quat.size_of_unit (ballRotate_unit x y dx dy)]
    simpa using h
  prod p q := by
    have e : ((BallFloats.stretched δ).prod p q).size = (1 + δ) * (p.size * q.size) := by
      have : ((BallFloats.stretched δ).prod p q).dot ((BallFloats.stretched δ).prod p q)
          = ((1 + δ) * (p.size * q.size)) ^ 2 := by
        have := Quat.dot_qAdd p q
        rw [mul_pow, mul_pow, Quat.size_sq, Quat.size_sq, ← this]
        simp only [BallFloats.stretched, Quat.dot]
        ring
      rw [Quat.size, this]
      exact Real.sqrt_sq (mul_nonneg (by linarith) (mul_nonneg p.size_nonneg q.size_nonneg))
    rw [e, show (1 + δ) * (p.size * q.size) - p.size * q.size = δ * (p.size * q.size) by ring,
      abs_of_nonneg (mul_nonneg h (mul_nonneg p.size_nonneg q.size_nonneg))]
  unit q hq := by
    have : (Quat.normalize q).dot (Quat.normalize q) = 1 := (ball_normalize q (by
      intro h0
      exact hq (by rw [Quat.size, h0, Real.sqrt_zero]))).1
    rw [show (BallFloats.stretched δ).unit q = q.normalize from rfl, Quat.size_of_unit this]
    simpa using h
  orient theta phi := by
    rw [show (BallFloats.stretched δ).orient theta phi = (ballInit theta phi).rotation from rfl,
      Quat.size_of_unit (q := (ballInit theta phi).rotation) (ballOk_orient _ _ _).1]
    simpa using h

/-- Products that come out longer every time meet the hypotheses. -/
example : (BallFloats.stretched (1 / 10 ^ 14)).Within (1 / 10 ^ 14) := stretched_within (by norm_num)

/-- Without rounding this is the trackball of Model/Trackball.lean: here its drags. -/
theorem stretched_zero (b : Ball) (x y dx dy : ℝ) :
    (BallFloats.stretched 0).step ⟨b.rotation, b.count⟩ (.drag x y dx dy)
      = ⟨(ballDrag b x y dx dy).rotation, (ballDrag b x y dx dy).count⟩ := by
  simp only [BallFloats.step, BallFloats.stretched, ballDrag, add_zero, one_mul]
  split <;> rfl

/-- The error is there: a trackball is longer after a drag that does not move, and is so until it is
normalised, which is what bounds the error. -/
example : ((BallFloats.stretched 1).run 0 0 [.drag 0 0 0 0, .drag 0 0 0 0]).rotation = ⟨0, 0, 0, 4⟩ := by
  simp [BallFloats.run, BallFloats.step, BallFloats.stretched, ballInit, ballOrient, ballRotate, Quat.qAdd,
    Quat.vec, V3.smul, V3.cross, V3.dot]
  norm_num

end Verif
