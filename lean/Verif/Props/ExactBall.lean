import Verif.Spec.Exact
import Verif.Props.Trackball
/-
C43: the angles that are read from a trackball, for all angles.
-/

namespace Verif

theorem cos_radians_eq_zero {t : ℝ} : Real.cos (radians t) = 0 ↔ Upright t := by
  have hpi := Real.pi_pos.ne'
  rw [Real.cos_eq_zero_iff]
  constructor
  · rintro ⟨k, hk⟩
    refine ⟨k, ?_⟩
    unfold radians at hk
    field_simp at hk
    linarith
  · rintro ⟨k, rfl⟩
    refine ⟨k, ?_⟩
    unfold radians
    field_simp
    ring

/-- The angle a tangent gives back. -/
theorem arctan_tan_angle {t : ℝ} (h : ¬ Upright t) :
    ∃ u : ℝ, Real.arctan (Real.sin (radians t) / Real.cos (radians t)) * 180 / Real.pi = u ∧ |u| < 90 ∧
      ∃ k : ℤ, t = u + 180 * k := by
  have hpi := Real.pi_pos
  obtain ⟨k, hk⟩ : ∃ k : ℤ, k = round (t / 180) := ⟨_, rfl⟩
  obtain ⟨u, hu⟩ : ∃ u, u = t - 180 * k := ⟨_, rfl⟩
  have htu : t = u + 180 * k := by rw [hu]; ring
  have hround := abs_sub_round (t / 180)
  rw [← hk] at hround
  have hle : |u| ≤ 90 := by
    rw [abs_le] at hround ⊢
    constructor <;> linarith [hround.1, hround.2]
  have hne : u ≠ 90 ∧ u ≠ -90 := by
    constructor
    · intro h90
      exact h ⟨k, by rw [htu, h90]⟩
    · intro h90
      refine h ⟨k - 1, ?_⟩
      rw [htu, h90]
      push_cast
      ring
  have hlt : |u| < 90 := by
    refine lt_of_le_of_ne hle fun e => ?_
    rcases abs_choice u with h1 | h1
    · exact hne.1 (h1.symm.trans e)
    · exact hne.2 (by linarith)
  refine ⟨u, ?_, hlt, k, htu⟩
  have hr : radians t = radians u + k * Real.pi := by
    rw [htu]
    unfold radians
    ring
  rw [← Real.tan_eq_sin_div_cos, hr, Real.tan_add_int_mul_pi]
  rw [abs_lt] at hlt
  have h1 : -(Real.pi / 2) < radians u := by unfold radians; nlinarith [hlt.1]
  have h2 : radians u < Real.pi / 2 := by unfold radians; nlinarith [hlt.2]
  rw [Real.arctan_tan h1 h2]
  unfold radians
  field_simp

theorem orientation_upright {theta phi : ℝ} (b : Ball) (h : Upright theta ∨ Upright phi) :
    ballOrientation (ballOrient b theta phi) = .error .zeroDivision := by
  have h1 := sq_add_sq (radians theta / 2)
  have h2 := sq_add_sq (radians phi / 2)
  have hct := cos_half (radians theta)
  have hcp := cos_half (radians phi)
  have h0 : Real.cos (radians theta) = 0 ∨ Real.cos (radians phi) = 0 :=
    h.imp cos_radians_eq_zero.2 cos_radians_eq_zero.2
  unfold ballOrientation
  rw [orient_rotation]
  simp only
  generalize Real.sin (radians theta / 2) = s at *
  generalize Real.cos (radians theta / 2) = c at *
  generalize Real.sin (radians phi / 2) = s' at *
  generalize Real.cos (radians phi / 2) = c' at *
  have d1 : 1 - 2 * (s * s' * (s * s') + c * s' * (c * s')) = Real.cos (radians phi) := by
    rw [hcp]
    linear_combination -2 * s' * s' * h1 - h2
  have d2 : 1 - 2 * (c * s' * (c * s') + c * c' * (c * c')) = -Real.cos (radians theta) := by
    rw [hct]
    linear_combination -2 * c * c * h2 - h1
  rw [d1, d2]
  rcases h0 with h0 | h0
  · rw [h0, neg_zero, if_pos rfl]
    split <;> rfl
  · rw [if_pos h0]

/-- **C43.** The angles read from a new trackball, for all angles: each is the angle given up to half turns,
brought between -90 and 90 degrees; both raise `ZeroDivisionError` when one of the angles given is an odd
multiple of 90 degrees. -/
theorem ball_read_any (theta phi : ℝ) :
    (Upright theta ∨ Upright phi →
      (ballStep (ballInit theta phi) .getTheta).2 = .error .zeroDivision ∧
      (ballStep (ballInit theta phi) .getPhi).2 = .error .zeroDivision) ∧
    (¬ Upright theta → ¬ Upright phi → ∃ t p : ℝ,
      (ballStep (ballInit theta phi) .getTheta).2 = .ok (some t) ∧
      (ballStep (ballInit theta phi) .getPhi).2 = .ok (some p) ∧
      |t| < 90 ∧ |p| < 90 ∧ (∃ k : ℤ, theta = t + 180 * k) ∧ ∃ k : ℤ, phi = p + 180 * k) := by
  constructor
  · intro h
    have := orientation_upright ⟨⟨0, 0, 0, 1⟩, 0, 0, 0, 0⟩ h
    simp only [ballStep, ballInit, this, and_self]
  · intro ht hp
    obtain ⟨t, h1, h2, h3⟩ := arctan_tan_angle ht
    obtain ⟨p, h4, h5, h6⟩ := arctan_tan_angle hp
    refine ⟨t, p, ?_, ?_, h2, h5, h3, h6⟩ <;>
      simp only [ballStep, ballInit, orientation_angles _ (fun h => ht (cos_radians_eq_zero.1 h))
        (fun h => hp (cos_radians_eq_zero.1 h)), h1, h4]

/-- **C43.** An angle is read back just when it is between -90 and 90 degrees and the other is no odd
multiple of 90. -/
theorem ball_read_back_iff (theta phi : ℝ) :
    ((ballStep (ballInit theta phi) .getTheta).2 = .ok (some theta) ↔ |theta| < 90 ∧ ¬ Upright phi) ∧
    ((ballStep (ballInit theta phi) .getPhi).2 = .ok (some phi) ↔ |phi| < 90 ∧ ¬ Upright theta) := by
  have hno : ∀ t : ℝ, |t| < 90 → ¬ Upright t := by
    rintro t ht ⟨k, rfl⟩
    rw [abs_lt] at ht
    have h1 : (-1 : ℝ) < k := by linarith [ht.1]
    have h2 : (k : ℝ) < 0 := by linarith [ht.2]
    have h3 : (-1 : ℤ) < k := by exact_mod_cast h1
    have h4 : k < (0 : ℤ) := by exact_mod_cast h2
    omega
  have hsame : ∀ t u : ℝ, |t| < 90 → |u| < 90 → (∃ k : ℤ, t = u + 180 * k) → u = t := by
    rintro t u ht hu ⟨k, hk⟩
    rw [abs_lt] at ht hu
    have h1 : (-1 : ℝ) < k := by linarith [ht.1, hu.2]
    have h2 : (k : ℝ) < 1 := by linarith [ht.2, hu.1]
    have h3 : (-1 : ℤ) < k := by exact_mod_cast h1
    have h4 : k < (1 : ℤ) := by exact_mod_cast h2
    have : k = 0 := by omega
    rw [hk, this]
    simp
  obtain ⟨ha, hb⟩ := ball_read_any theta phi
  by_cases hu : Upright theta ∨ Upright phi
  · obtain ⟨h1, h2⟩ := ha hu
    rw [h1, h2]
    simp only [reduceCtorEq, false_iff]
    refine ⟨?_, ?_⟩
    · rintro ⟨h3, h4⟩
      exact hu.elim (hno _ h3) h4
    · rintro ⟨h3, h4⟩
      exact hu.elim h4 (hno _ h3)
  · have hut : ¬ Upright theta := fun h => hu (.inl h)
    have hup : ¬ Upright phi := fun h => hu (.inr h)
    obtain ⟨t, p, h1, h2, h3, h4, h5, h6⟩ := hb hut hup
    rw [h1, h2]
    simp only [Except.ok.injEq, Option.some.injEq]
    refine ⟨⟨fun h => ⟨h ▸ h3, hup⟩, fun h => hsame _ _ h.1 h3 h5⟩,
      ⟨fun h => ⟨h ▸ h4, hut⟩, fun h => hsame _ _ h.1 h4 h6⟩⟩

example : Upright 270 ∧ ¬ Upright 135 := by
  refine ⟨⟨1, by norm_num⟩, ?_⟩
  rintro ⟨k, hk⟩
  have : (4 * k : ℝ) = 1 := by linarith
  have : (4 * k : ℤ) = 1 := by exact_mod_cast this
  omega

end Verif
