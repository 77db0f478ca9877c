import Verif.Spec.SvgArc
import Verif.Lemmas.Svg
import Mathlib.Tactic.Linarith
import Mathlib.Tactic.FieldSimp
import Mathlib.Tactic.LinearCombination
import Mathlib.Analysis.SpecialFunctions.Trigonometric.Deriv
/-
Lemmas on elliptical arcs.
-/

namespace Verif

open Real

theorem toRad_toDeg (x : ℝ) : toRad (toDeg x) = x := by
  unfold toRad toDeg
  field_simp

theorem toRad_neg (x : ℝ) : toRad (-x) = -toRad x := by unfold toRad; ring

theorem toRad_add (x y : ℝ) : toRad (x + y) = toRad x + toRad y := by unfold toRad; ring

theorem toRad_mod360 (x : ℝ) : toRad (mod360 x) = toRad x - (⌊x / 360⌋ : ℤ) * (2 * π) := by
  unfold toRad mod360; ring

theorem mod360_range (x : ℝ) : 0 ≤ mod360 x ∧ mod360 x < 360 := by
  unfold mod360
  have h1 := Int.floor_le (x / 360)
  have h2 := Int.lt_floor_add_one (x / 360)
  constructor <;> linarith

theorem cos_mod360 (x : ℝ) : cos (toRad (mod360 x)) = cos (toRad x) := by
  rw [toRad_mod360, cos_sub_int_mul_two_pi]

theorem sin_mod360 (x : ℝ) : sin (toRad (mod360 x)) = sin (toRad x) := by
  rw [toRad_mod360, sin_sub_int_mul_two_pi]

/-- The angle of a unit vector, as computed from the arc cosine and the sign of the sine. -/
theorem signed_angle {x y : ℝ} (h : x * x + y * y = 1) :
    cos (toRad (if y < 0 then -toDeg (arccos x) else toDeg (arccos x))) = x ∧
      sin (toRad (if y < 0 then -toDeg (arccos x) else toDeg (arccos x))) = y := by
  have hx1 : -1 ≤ x := by nlinarith [mul_self_nonneg y]
  have hx2 : x ≤ 1 := by nlinarith [mul_self_nonneg y]
  have hs : sin (arccos x) = |y| := by
    rw [sin_arccos, show 1 - x ^ 2 = y ^ 2 by nlinarith, sqrt_sq_eq_abs]
  by_cases hy : y < 0
  · simp only [hy, if_true, toRad_neg, toRad_toDeg, cos_neg, sin_neg, cos_arccos hx1 hx2, hs,
      abs_of_neg hy, neg_neg, and_self]
  · simp only [hy, if_false, toRad_toDeg, cos_arccos hx1 hx2, hs, abs_of_nonneg (not_lt.1 hy),
      and_self]

theorem arcTheta_spec {u : Pt ℝ} (h : u.1 * u.1 + u.2 * u.2 = 1) :
    ∃ th, arcTheta u = .ok th ∧ cos (toRad th) = u.1 ∧ sin (toRad th) = u.2 := by
  have hx1 : -1 ≤ u.1 := by nlinarith [mul_self_nonneg u.2]
  have hx2 : u.1 ≤ 1 := by nlinarith [mul_self_nonneg u.2]
  refine ⟨mod360 (if u.2 < 0 then -toDeg (arccos u.1) else toDeg (arccos u.1)), ?_, ?_, ?_⟩
  · simp only [arcTheta, h, sqrt_one, div_one]
    rw [if_neg one_ne_zero, if_neg (by rintro (h | h) <;> linarith)]
  · rw [cos_mod360, (signed_angle h).1]
  · rw [sin_mod360, (signed_angle h).2]

theorem arcDelta_spec {u v : Pt ℝ} (hu : u.1 * u.1 + u.2 * u.2 = 1)
    (hv : v.1 * v.1 + v.2 * v.2 = 1) (hne : u ≠ v) (sweep : ℝ) :
    ∃ d, arcDelta u v sweep = .ok d ∧ cos (toRad d) = u.1 * v.1 + u.2 * v.2 ∧
      sin (toRad d) = u.1 * v.2 - u.2 * v.1 ∧ (sweep ≠ 0 → 0 < d ∧ d < 360) ∧
      (sweep = 0 → -360 < d ∧ d < 0) := by
  have hd : (u.1 * v.1 + u.2 * v.2) * (u.1 * v.1 + u.2 * v.2) +
      (u.1 * v.2 - u.2 * v.1) * (u.1 * v.2 - u.2 * v.1) = 1 := by
    have : (u.1 * v.1 + u.2 * v.2) * (u.1 * v.1 + u.2 * v.2) +
      (u.1 * v.2 - u.2 * v.1) * (u.1 * v.2 - u.2 * v.1) =
      (u.1 * u.1 + u.2 * u.2) * (v.1 * v.1 + v.2 * v.2) := by ring
    rw [this, hu, hv, mul_one]
  have hx1 : -1 ≤ u.1 * v.1 + u.2 * v.2 := by
    nlinarith [mul_self_nonneg (u.1 * v.2 - u.2 * v.1)]
  have hx2 : u.1 * v.1 + u.2 * v.2 ≤ 1 := by
    nlinarith [mul_self_nonneg (u.1 * v.2 - u.2 * v.1)]
  obtain ⟨h1, h2⟩ := signed_angle hd
  set A := (if u.1 * v.2 - u.2 * v.1 < 0 then -toDeg (arccos (u.1 * v.1 + u.2 * v.2))
    else toDeg (arccos (u.1 * v.1 + u.2 * v.2))) with hA
  obtain ⟨hr1, hr2⟩ := mod360_range A
  have h0 : mod360 A ≠ 0 := by
    intro h0
    have hc := cos_mod360 A
    rw [h0, h1] at hc
    simp only [toRad, zero_mul, zero_div, cos_zero] at hc
    apply hne
    have e1 : (u.1 - v.1) * (u.1 - v.1) + (u.2 - v.2) * (u.2 - v.2) = 0 := by nlinarith
    have e2 := mul_self_nonneg (u.1 - v.1)
    have e3 := mul_self_nonneg (u.2 - v.2)
    ext
    · exact sub_eq_zero.1 (mul_self_eq_zero.1 (by linarith))
    · exact sub_eq_zero.1 (mul_self_eq_zero.1 (by linarith))
  have hpos : 0 < mod360 A := lt_of_le_of_ne hr1 (Ne.symm h0)
  refine ⟨if sweep = 0 then mod360 A - 360 else mod360 A, ?_, ?_, ?_, ?_, ?_⟩
  · simp only [arcDelta, hu, hv, mul_one, sqrt_one, div_one, max_eq_left hx1, min_eq_left hx2]
    rw [if_neg one_ne_zero, ← hA, if_pos hpos]
  · split
    · rw [show mod360 A - 360 = mod360 A + -360 by ring, toRad_add,
        show toRad (-360) = -(2 * π) by unfold toRad; ring, ← sub_eq_add_neg, cos_sub_two_pi,
        cos_mod360, h1]
    · rw [cos_mod360, h1]
  · split
    · rw [show mod360 A - 360 = mod360 A + -360 by ring, toRad_add,
        show toRad (-360) = -(2 * π) by unfold toRad; ring, ← sub_eq_add_neg, sin_sub_two_pi,
        sin_mod360, h2]
    · rw [sin_mod360, h2]
  · intro hs; rw [if_neg hs]; exact ⟨hpos, hr2⟩
  · intro hs; rw [if_pos hs]; constructor <;> linarith

/-- The half chord is not zero. -/
theorem arcPrim_ne {p q : Pt ℝ} (h : p ≠ q) (rot : ℝ) :
    0 < (arcPrim p rot q).1 * (arcPrim p rot q).1 + (arcPrim p rot q).2 * (arcPrim p rot q).2 := by
  have e : (arcPrim p rot q).1 * (arcPrim p rot q).1 +
      (arcPrim p rot q).2 * (arcPrim p rot q).2 =
      ((p.1 - q.1) * (p.1 - q.1) + (p.2 - q.2) * (p.2 - q.2)) / 4 := by
    simp only [arcPrim]
    linear_combination ((p.1 - q.1) * (p.1 - q.1) + (p.2 - q.2) * (p.2 - q.2)) / 4 *
      (sin_sq_add_cos_sq (toRad rot))
  rw [e]
  have e2 := mul_self_nonneg (p.1 - q.1)
  have e3 := mul_self_nonneg (p.2 - q.2)
  have : (p.1 - q.1) * (p.1 - q.1) + (p.2 - q.2) * (p.2 - q.2) ≠ 0 := by
    intro h0
    apply h
    ext
    · exact sub_eq_zero.1 (mul_self_eq_zero.1 (by linarith))
    · exact sub_eq_zero.1 (mul_self_eq_zero.1 (by linarith))
  have : 0 < (p.1 - q.1) * (p.1 - q.1) + (p.2 - q.2) * (p.2 - q.2) :=
    lt_of_le_of_ne (by linarith) (Ne.symm this)
  linarith

/-- How far the half chord exceeds the radii. -/
noncomputable def excess (r p : Pt ℝ) : ℝ := p.1 * p.1 / (r.1 * r.1) + p.2 * p.2 / (r.2 * r.2)

/-- The radii are enlarged by the least factor for which the chord fits. -/
theorem arcRadius_spec {r p : Pt ℝ} (h1 : r.1 ≠ 0) (h2 : r.2 ≠ 0) :
    ∃ k, 1 ≤ k ∧ arcRadius r p = .ok (k * |r.1|, k * |r.2|) ∧
      excess (k * |r.1|, k * |r.2|) p ≤ 1 ∧
      ∀ k', 1 ≤ k' → excess (k' * |r.1|, k' * |r.2|) p ≤ 1 → k ≤ k' := by
  have a1 : 0 < |r.1| := abs_pos.2 h1
  have a2 : 0 < |r.2| := abs_pos.2 h2
  have hk : ∀ k : ℝ, 0 < k → excess (k * |r.1|, k * |r.2|) p = excess (|r.1|, |r.2|) p / (k * k) := by
    intro k hk
    simp only [excess]
    field_simp
  have hn : ¬ (|r.1| * |r.1| = 0 ∨ |r.2| * |r.2| = 0) := by
    rintro (h | h)
    · exact (mul_pos a1 a1).ne' h
    · exact (mul_pos a2 a2).ne' h
  have hunf : arcRadius r p = if excess (|r.1|, |r.2|) p > 1 then
      .ok (|r.1| * √(excess (|r.1|, |r.2|) p), |r.2| * √(excess (|r.1|, |r.2|) p))
      else .ok (|r.1|, |r.2|) := by
    simp only [arcRadius, if_neg hn, excess]
    congr
  rw [hunf]
  generalize excess (|r.1|, |r.2|) p = L at hk ⊢
  by_cases hL : L > 1
  · refine ⟨√L, ?_, ?_, ?_, ?_⟩
    · rw [show (1 : ℝ) = √1 by simp]; exact sqrt_le_sqrt hL.le
    · rw [if_pos hL, mul_comm, mul_comm |r.2|]
    · rw [hk _ (sqrt_pos.2 (by linarith)), mul_self_sqrt (by linarith), div_self (by linarith)]
    · intro k' h1 h2
      rw [hk k' (by linarith), div_le_one (by nlinarith)] at h2
      rw [show k' = √(k' * k') from (sqrt_mul_self (by linarith)).symm]
      exact sqrt_le_sqrt h2
  · refine ⟨1, le_rfl, ?_, ?_, fun k' h _ => h⟩
    · rw [if_neg hL, one_mul, one_mul]
    · rw [hk 1 one_pos]; simpa using not_lt.1 hL

/-- The centre is where the end points are on the ellipse. -/
theorem arcCprim_spec {r p : Pt ℝ} (h1 : 0 < r.1) (h2 : 0 < r.2)
    (hp : 0 < p.1 * p.1 + p.2 * p.2) (hL : excess r p ≤ 1) (large sweep : ℝ) :
    ∃ q : Pt ℝ, arcCprim r p large sweep = .ok q ∧
      ((p.1 - q.1) / r.1) * ((p.1 - q.1) / r.1) + ((p.2 - q.2) / r.2) * ((p.2 - q.2) / r.2) = 1 ∧
      ((-p.1 - q.1) / r.1) * ((-p.1 - q.1) / r.1) +
        ((-p.2 - q.2) / r.2) * ((-p.2 - q.2) / r.2) = 1 ∧
      (large = sweep → ((p.1 - q.1) / r.1) * ((-p.2 - q.2) / r.2) -
        ((p.2 - q.2) / r.2) * ((-p.1 - q.1) / r.1) ≤ 0) ∧
      (large ≠ sweep → 0 ≤ ((p.1 - q.1) / r.1) * ((-p.2 - q.2) / r.2) -
        ((p.2 - q.2) / r.2) * ((-p.1 - q.1) / r.1)) := by
  have n1 : r.1 ≠ 0 := h1.ne'
  have n2 : r.2 ≠ 0 := h2.ne'
  set L := excess r p with hLdef
  have hLe : L = p.1 * p.1 / (r.1 * r.1) + p.2 * p.2 / (r.2 * r.2) := rfl
  have ht : r.1 * r.1 * (p.2 * p.2) + r.2 * r.2 * (p.1 * p.1) = r.1 * r.1 * (r.2 * r.2) * L := by
    rw [hLe]; field_simp; ring
  have hLpos : 0 < L := by
    have h3 : 0 ≤ p.1 * p.1 := mul_self_nonneg _
    have h4 : 0 ≤ p.2 * p.2 := mul_self_nonneg _
    have h5 : 0 < r.1 * r.1 := mul_pos h1 h1
    have h6 : 0 < r.2 * r.2 := mul_pos h2 h2
    rw [hLe]
    rcases h3.lt_or_eq with h | h
    · have := div_pos h h5
      have := div_nonneg h4 h6.le
      linarith
    · have := div_pos (show 0 < p.2 * p.2 by linarith) h6
      have := div_nonneg h3 h5.le
      linarith
  have hne : r.1 * r.1 * (p.2 * p.2) + r.2 * r.2 * (p.1 * p.1) ≠ 0 := by
    rw [ht]; positivity
  have hquot : (r.1 * r.1 * (r.2 * r.2) - r.1 * r.1 * (p.2 * p.2) - r.2 * r.2 * (p.1 * p.1)) /
      (r.1 * r.1 * (p.2 * p.2) + r.2 * r.2 * (p.1 * p.1)) = (1 - L) / L := by
    rw [show r.1 * r.1 * (r.2 * r.2) - r.1 * r.1 * (p.2 * p.2) - r.2 * r.2 * (p.1 * p.1) =
      r.1 * r.1 * (r.2 * r.2) * (1 - L) by linear_combination -ht, ht]
    rw [mul_div_mul_left _ _ (by positivity)]
  have hq0 : 0 ≤ (1 - L) / L := div_nonneg (by linarith) hLpos.le
  set c0 := √((1 - L) / L) with hc0
  have hc0n : 0 ≤ c0 := sqrt_nonneg _
  have hc0s : c0 * c0 = (1 - L) / L := mul_self_sqrt hq0
  set c := if large = sweep then -c0 else c0 with hc
  have hcs : L * (1 + c * c) = 1 := by
    have : c * c = (1 - L) / L := by
      rw [hc]; split
      · rw [neg_mul_neg, hc0s]
      · exact hc0s
    rw [this]; field_simp; ring
  have hun : arcCprim r p large sweep = .ok (c * r.1 * p.2 / r.2, -c * r.2 * p.1 / r.1) := by
    simp only [arcCprim, if_neg hne, hquot, abs_of_nonneg hq0, ← hc0, ← hc]
  have e1 : (p.1 - c * r.1 * p.2 / r.2) / r.1 = p.1 / r.1 - c * (p.2 / r.2) := by field_simp
  have e2 : (p.2 - -c * r.2 * p.1 / r.1) / r.2 = p.2 / r.2 + c * (p.1 / r.1) := by field_simp; ring
  have e3 : (-p.1 - c * r.1 * p.2 / r.2) / r.1 = -(p.1 / r.1) - c * (p.2 / r.2) := by
    field_simp
  have e4 : (-p.2 - -c * r.2 * p.1 / r.1) / r.2 = -(p.2 / r.2) + c * (p.1 / r.1) := by
    field_simp; ring
  have hLe' : L = p.1 / r.1 * (p.1 / r.1) + p.2 / r.2 * (p.2 / r.2) := by
    rw [hLe]; field_simp
  refine ⟨_, hun, ?_, ?_, ?_, ?_⟩
  · simp only [e1, e2]
    rw [hLe'] at hcs
    linear_combination hcs
  · simp only [e3, e4]
    rw [hLe'] at hcs
    linear_combination hcs
  · intro h
    simp only [e1, e2, e3, e4]
    have : (p.1 / r.1 - c * (p.2 / r.2)) * (-(p.2 / r.2) + c * (p.1 / r.1)) -
        (p.2 / r.2 + c * (p.1 / r.1)) * (-(p.1 / r.1) - c * (p.2 / r.2)) = 2 * c * L := by
      rw [hLe']; ring
    rw [this, hc, if_pos h]
    nlinarith [mul_nonneg hc0n hLpos.le]
  · intro h
    simp only [e1, e2, e3, e4]
    have : (p.1 / r.1 - c * (p.2 / r.2)) * (-(p.2 / r.2) + c * (p.1 / r.1)) -
        (p.2 / r.2 + c * (p.1 / r.1)) * (-(p.1 / r.1) - c * (p.2 / r.2)) = 2 * c * L := by
      rw [hLe']; ring
    rw [this, hc, if_neg h]
    nlinarith [mul_nonneg hc0n hLpos.le]

/-- The chord of an ellipse fits it. -/
theorem excess_of_through {e : Ellipse} (h1 : e.rx ≠ 0) (h2 : e.ry ≠ 0) {p q : Pt ℝ}
    (hp : e.through p) (hq : e.through q) :
    excess (e.rx, e.ry) (arcPrim p e.rotation q) ≤ 1 := by
  obtain ⟨s, rfl⟩ := hp
  obtain ⟨t, rfl⟩ := hq
  have e1 : (arcPrim (e.pt s) e.rotation (e.pt t)).1 = e.rx * (cos s - cos t) / 2 := by
    simp only [arcPrim, Ellipse.pt]
    linear_combination (e.rx * (cos s - cos t) / 2) * sin_sq_add_cos_sq (toRad e.rotation)
  have e2 : (arcPrim (e.pt s) e.rotation (e.pt t)).2 = e.ry * (sin s - sin t) / 2 := by
    simp only [arcPrim, Ellipse.pt]
    linear_combination (e.ry * (sin s - sin t) / 2) * sin_sq_add_cos_sq (toRad e.rotation)
  have e3 : excess (e.rx, e.ry) (arcPrim (e.pt s) e.rotation (e.pt t)) =
      ((cos s - cos t) * (cos s - cos t) + (sin s - sin t) * (sin s - sin t)) / 4 := by
    simp only [excess, e1, e2]
    field_simp
    ring
  rw [e3]
  nlinarith [sin_sq_add_cos_sq s, sin_sq_add_cos_sq t, sq_nonneg (cos s + cos t),
    sq_nonneg (sin s + sin t)]

/-- The conversion to a centre. -/
theorem endpointToCenter_spec {p r q : Pt ℝ} (rot large sweep : ℝ) (hpq : p ≠ q) (h1 : r.1 ≠ 0)
    (h2 : r.2 ≠ 0) :
    ∃ k c th d, endpointToCenter p r rot large sweep q =
        .ok ⟨(k * |r.1|, k * |r.2|), c, th, th + d⟩ ∧ 1 ≤ k ∧
      (∀ k' c', 1 ≤ k' → Ellipse.through ⟨c', rot, k' * |r.1|, k' * |r.2|⟩ p →
        Ellipse.through ⟨c', rot, k' * |r.1|, k' * |r.2|⟩ q → k ≤ k') ∧
      Ellipse.pt ⟨c, rot, k * |r.1|, k * |r.2|⟩ (toRad th) = p ∧
      Ellipse.pt ⟨c, rot, k * |r.1|, k * |r.2|⟩ (toRad (th + d)) = q ∧
      (sweep ≠ 0 → 0 < d ∧ d < 360) ∧ (sweep = 0 → -360 < d ∧ d < 0) ∧
      (large = sweep → sin (toRad d) ≤ 0) ∧ (large ≠ sweep → 0 ≤ sin (toRad d)) := by
  obtain ⟨k, hk1, hr, hex, hmin⟩ := arcRadius_spec (p := arcPrim p rot q) h1 h2
  have a1 : 0 < k * |r.1| := mul_pos (by linarith) (abs_pos.2 h1)
  have a2 : 0 < k * |r.2| := mul_pos (by linarith) (abs_pos.2 h2)
  obtain ⟨m, hm, hu, hv, hs1, hs2⟩ := arcCprim_spec (r := (k * |r.1|, k * |r.2|)) a1 a2
    (arcPrim_ne hpq rot) hex large sweep
  generalize hP : arcPrim p rot q = P at *
  simp only at hu hv hs1 hs2
  generalize hX : k * |r.1| = X at *
  generalize hY : k * |r.2| = Y at *
  have n1 : X ≠ 0 := a1.ne'
  have n2 : Y ≠ 0 := a2.ne'
  obtain ⟨th, ht, hct, hst⟩ := arcTheta_spec (u := ((P.1 - m.1) / X, (P.2 - m.2) / Y)) hu
  have hne : (((P.1 - m.1) / X, (P.2 - m.2) / Y) : Pt ℝ) ≠
      ((-P.1 - m.1) / X, (-P.2 - m.2) / Y) := by
    intro h
    simp only [Prod.mk.injEq] at h
    have g1 : P.1 = 0 := by
      have := h.1
      field_simp at this
      linarith
    have g2 : P.2 = 0 := by
      have := h.2
      field_simp at this
      linarith
    have := arcPrim_ne hpq rot
    rw [hP, g1, g2] at this
    simp at this
  obtain ⟨d, hd, hcd, hsd, hd1, hd2⟩ := arcDelta_spec
    (u := ((P.1 - m.1) / X, (P.2 - m.2) / Y)) (v := ((-P.1 - m.1) / X, (-P.2 - m.2) / Y))
    hu hv hne sweep
  simp only at hct hst hcd hsd
  have hcd' : cos (toRad (th + d)) = (-P.1 - m.1) / X := by
    rw [toRad_add, cos_add, hct, hst, hcd, hsd]
    linear_combination ((-P.1 - m.1) / X) * hu
  have hsd' : sin (toRad (th + d)) = (-P.2 - m.2) / Y := by
    rw [toRad_add, sin_add, hct, hst, hcd, hsd]
    linear_combination ((-P.2 - m.2) / Y) * hu
  have p1 : P.1 = cos (toRad rot) * ((p.1 - q.1) / 2) + sin (toRad rot) * ((p.2 - q.2) / 2) := by
    rw [← hP]; rfl
  have p2 : P.2 = -sin (toRad rot) * ((p.1 - q.1) / 2) + cos (toRad rot) * ((p.2 - q.2) / 2) := by
    rw [← hP]; rfl
  have hsc := sin_sq_add_cos_sq (toRad rot)
  refine ⟨k, ((cos (toRad rot) * m.1 - sin (toRad rot) * m.2) + (p.1 + q.1) / 2,
    (sin (toRad rot) * m.1 + cos (toRad rot) * m.2) + (p.2 + q.2) / 2), th, d, ?_, hk1, ?_, ?_, ?_, hd1, hd2, ?_, ?_⟩
  · simp only [endpointToCenter, hP, hr, hm, ht, hd, bind, Except.bind, pure, Except.pure]
    rw [hX, hY]
  · intro k' c' hk' hp' hq'
    apply hmin k' hk'
    have := excess_of_through (e := ⟨c', rot, k' * |r.1|, k' * |r.2|⟩)
      (mul_pos (by linarith) (abs_pos.2 h1)).ne' (mul_pos (by linarith) (abs_pos.2 h2)).ne' hp' hq'
    simpa only [hP] using this
  · simp only [Ellipse.pt, hX, hY, hct, hst, mul_div_cancel₀ _ n1, mul_div_cancel₀ _ n2]
    ext
    · simp only [p1, p2]
      linear_combination ((p.1 - q.1) / 2) * hsc
    · simp only [p1, p2]
      linear_combination ((p.2 - q.2) / 2) * hsc
  · simp only [Ellipse.pt, hX, hY, hcd', hsd', mul_div_cancel₀ _ n1, mul_div_cancel₀ _ n2]
    ext
    · simp only [p1, p2]
      linear_combination (-(p.1 - q.1) / 2) * hsc
    · simp only [p1, p2]
      linear_combination (-(p.2 - q.2) / 2) * hsc
  · intro h; rw [hsd]; exact hs1 h
  · intro h; rw [hsd]; exact hs2 h

theorem chain_succ (n : Nat) (P C D : Nat → Pt ℝ) :
    chain (n + 1) P C D = chain n P C D ++ [C n, D n, P (n + 1)] := by
  simp [chain, List.range_succ]

theorem chain_succ' (n : Nat) (P C D : Nat → Pt ℝ) :
    chain (n + 1) P C D = P 0 :: C 0 :: D 0 ::
      chain n (fun i => P (i + 1)) (fun i => C (i + 1)) (fun i => D (i + 1)) := by
  simp [chain, List.range_succ_eq_map, List.flatMap_map]

theorem chain_length (n : Nat) (P C D : Nat → Pt ℝ) : (chain n P C D).length = 3 * n + 1 := by
  induction n with
  | zero => rfl
  | succ n ih => rw [chain_succ, List.length_append, ih]; simp; omega

theorem chain_congr {n : Nat} {P P' C C' D D' : Nat → Pt ℝ} (hP : ∀ i ≤ n, P i = P' i)
    (hC : ∀ i < n, C i = C' i) (hD : ∀ i < n, D i = D' i) : chain n P C D = chain n P' C' D' := by
  induction n with
  | zero => simp [chain, hP 0 le_rfl]
  | succ n ih =>
    rw [chain_succ, chain_succ, ih (fun i hi => hP i (by omega)) (fun i hi => hC i (by omega))
      (fun i hi => hD i (by omega)), hC n (by omega), hD n (by omega), hP (n + 1) le_rfl]

theorem chain_reverse (n : Nat) (P C D : Nat → Pt ℝ) :
    (chain n P C D).reverse =
      chain n (fun i => P (n - i)) (fun i => D (n - 1 - i)) (fun i => C (n - 1 - i)) := by
  induction n with
  | zero => rfl
  | succ n ih =>
    rw [chain_succ, List.reverse_append, ih, chain_succ']
    simp only [List.reverse_cons, List.reverse_nil, List.nil_append, List.cons_append,
      Nat.sub_zero, Nat.add_sub_cancel, Nat.reduceSubDiff]
    congr 3
    apply chain_congr
    · intro i _; rfl
    · intro i _
      congr 1
      omega
    · intro i _
      congr 1
      omega

theorem chain_map (f : Pt ℝ → Pt ℝ) (n : Nat) (P C D : Nat → Pt ℝ) :
    (chain n P C D).map f = chain n (fun i => f (P i)) (fun i => f (C i)) (fun i => f (D i)) := by
  simp [chain, List.map_flatMap]

/-- The spec's chain. -/
theorem ellipse_chain (e : Ellipse) (n : Nat) (t d a : ℝ) :
    e.chain n t d a = chain n (fun i => e.pt (t + i * (d / n)))
      (fun i => ((e.pt (t + i * (d / n))).1 + a * (e.dir (t + i * (d / n))).1,
        (e.pt (t + i * (d / n))).2 + a * (e.dir (t + i * (d / n))).2))
      (fun i => ((e.pt (t + (i + 1 : ℝ) * (d / n))).1 - a * (e.dir (t + (i + 1 : ℝ) * (d / n))).1,
        (e.pt (t + (i + 1 : ℝ) * (d / n))).2 - a * (e.dir (t + (i + 1 : ℝ) * (d / n))).2)) := by
  simp [Ellipse.chain, chain]

/-- The arc of the unit circle. -/
theorem unitArc_spec (t d : ℝ) (h0 : 0 < d) (h1 : d < 360) :
    ∃ (n : Nat) (a : ℝ), 1 ≤ n ∧ 0 < a ∧ toRad d / n ≤ π / 2 ∧ unitArc t (t + d) =
      chain n (fun i => (cos (toRad t + i * (toRad d / n)), sin (toRad t + i * (toRad d / n))))
        (fun i => (cos (toRad t + i * (toRad d / n)) + a * -sin (toRad t + i * (toRad d / n)),
          sin (toRad t + i * (toRad d / n)) + a * cos (toRad t + i * (toRad d / n))))
        (fun i => (cos (toRad t + (i + 1 : ℝ) * (toRad d / n)) -
            a * -sin (toRad t + (i + 1 : ℝ) * (toRad d / n)),
          sin (toRad t + (i + 1 : ℝ) * (toRad d / n)) -
            a * cos (toRad t + (i + 1 : ℝ) * (toRad d / n)))) := by
  have hfl : ⌊(t + d - t) / 360⌋ = 0 := by
    rw [Int.floor_eq_zero_iff]
    constructor
    · apply div_nonneg <;> linarith
    · rw [div_lt_one (by norm_num)]; linarith
  have heta : (if t + d ≠ t ∧ t + d - 360 * ((⌊(t + d - t) / 360⌋ : ℤ) : ℝ) ≤ t then
      t + d - 360 * ((⌊(t + d - t) / 360⌋ : ℤ) : ℝ) + 360
      else t + d - 360 * ((⌊(t + d - t) / 360⌋ : ℤ) : ℝ)) = t + d := by
    rw [hfl]
    simp only [Int.cast_zero, mul_zero, sub_zero]
    rw [if_neg]
    rintro ⟨-, h⟩; linarith
  have hd : toRad (t + d) - toRad t = toRad d := by rw [toRad_add]; ring
  have hpos : 0 < toRad d := by unfold toRad; have := pi_pos; positivity
  set n : Nat := 2 ^ ⌈toRad d / (π / 2)⌉₊ with hn
  have hn1 : 1 ≤ n := Nat.one_le_two_pow
  have hnpos : (0 : ℝ) < n := by exact_mod_cast hn1
  have hle : toRad d / n ≤ π / 2 := by
    rw [div_le_iff₀ hnpos]
    have h2 : toRad d / (π / 2) ≤ n := by
      calc toRad d / (π / 2) ≤ (⌈toRad d / (π / 2)⌉₊ : ℝ) := Nat.le_ceil _
        _ ≤ n := by exact_mod_cast (Nat.lt_two_pow_self).le
    rw [div_le_iff₀ (by have := pi_pos; positivity)] at h2
    linarith
  have hq : 0 < toRad d / n := div_pos hpos hnpos
  set a := sin (toRad d / n) * (√(4 + 3 * tan (toRad d / n / 2) * tan (toRad d / n / 2)) - 1) / 3
    with ha
  have hapos : 0 < a := by
    have hs : 0 < sin (toRad d / n) := sin_pos_of_pos_of_lt_pi hq (by have := pi_pos; linarith)
    have h4 : (2 : ℝ) ≤ √(4 + 3 * tan (toRad d / n / 2) * tan (toRad d / n / 2)) := by
      apply le_sqrt_of_sq_le
      nlinarith [mul_self_nonneg (tan (toRad d / n / 2))]
    rw [ha]
    have : 0 < sin (toRad d / n) * (√(4 + 3 * tan (toRad d / n / 2) * tan (toRad d / n / 2)) - 1) :=
      mul_pos hs (by linarith)
    linarith
  refine ⟨n, a, hn1, hapos, hle, ?_⟩
  simp only [unitArc, heta, hd, ← hn, ← ha, Nat.cast_add, Nat.cast_one]

theorem transform_pt (r c : Pt ℝ) (rot t : ℝ) :
    arcTransform r c rot (cos t, sin t) = Ellipse.pt ⟨c, rot, r.1, r.2⟩ t := by
  simp only [arcTransform, Ellipse.pt]
  ext <;> simp only <;> ring

theorem transform_ctl (r c : Pt ℝ) (rot t a : ℝ) :
    arcTransform r c rot (cos t + a * -sin t, sin t + a * cos t) =
      ((Ellipse.pt ⟨c, rot, r.1, r.2⟩ t).1 + a * (Ellipse.dir ⟨c, rot, r.1, r.2⟩ t).1,
        (Ellipse.pt ⟨c, rot, r.1, r.2⟩ t).2 + a * (Ellipse.dir ⟨c, rot, r.1, r.2⟩ t).2) := by
  simp only [arcTransform, Ellipse.pt, Ellipse.dir]
  ext <;> simp only <;> ring

theorem transform_ctl' (r c : Pt ℝ) (rot t a : ℝ) :
    arcTransform r c rot (cos t - a * -sin t, sin t - a * cos t) =
      ((Ellipse.pt ⟨c, rot, r.1, r.2⟩ t).1 - a * (Ellipse.dir ⟨c, rot, r.1, r.2⟩ t).1,
        (Ellipse.pt ⟨c, rot, r.1, r.2⟩ t).2 - a * (Ellipse.dir ⟨c, rot, r.1, r.2⟩ t).2) := by
  simp only [arcTransform, Ellipse.pt, Ellipse.dir]
  ext <;> simp only <;> ring

/-- An arc in the positive direction. -/
theorem arc_forward (r c : Pt ℝ) (rot t d : ℝ) (h0 : 0 < d) (h1 : d < 360) :
    ∃ (n : Nat) (a : ℝ), 1 ≤ n ∧ 0 < a ∧ toRad d / n ≤ π / 2 ∧
      (unitArc t (t + d)).map (arcTransform r c rot) =
        Ellipse.chain ⟨c, rot, r.1, r.2⟩ n (toRad t) (toRad d) a := by
  obtain ⟨n, a, hn, ha, hle, he⟩ := unitArc_spec t d h0 h1
  refine ⟨n, a, hn, ha, hle, ?_⟩
  rw [he, chain_map, ellipse_chain]
  simp only [transform_pt, transform_ctl, transform_ctl']

/-- An arc in the negative direction. -/
theorem arc_backward (r c : Pt ℝ) (rot t d : ℝ) (h0 : -360 < d) (h1 : d < 0) :
    ∃ (n : Nat) (a : ℝ), 1 ≤ n ∧ a < 0 ∧ -(toRad d / n) ≤ π / 2 ∧
      ((unitArc (t + d) t).map (arcTransform r c rot)).reverse =
        Ellipse.chain ⟨c, rot, r.1, r.2⟩ n (toRad t) (toRad d) a := by
  obtain ⟨n, a, hn, ha, hle, he⟩ := unitArc_spec (t + d) (-d) (by linarith) (by linarith)
  rw [add_neg_cancel_right] at he
  have hn0 : (n : ℝ) ≠ 0 := by
    have : (1 : ℝ) ≤ n := by exact_mod_cast hn
    linarith
  refine ⟨n, -a, hn, by linarith, by rw [← neg_div, ← toRad_neg]; exact hle, ?_⟩
  rw [he, chain_map, chain_reverse, ellipse_chain]
  simp only [transform_pt, transform_ctl, transform_ctl']
  have key : ∀ i : Nat, i ≤ n → toRad (t + d) + ((n - i : Nat) : ℝ) * (toRad (-d) / n) =
      toRad t + i * (toRad d / n) := by
    intro i hi
    rw [Nat.cast_sub hi, toRad_add, toRad_neg]
    field_simp
    ring
  apply chain_congr
  · intro i hi
    rw [key i hi]
  · intro i hi
    have e : ((n - 1 - i : Nat) : ℝ) + 1 = ((n - i : Nat) : ℝ) := by
      rw [show n - i = n - 1 - i + 1 by omega]; push_cast; ring
    rw [e, key i hi.le]
    ext <;> simp only <;> ring
  · intro i hi
    have e : n - 1 - i = n - (i + 1) := by omega
    rw [e, key (i + 1) (by omega)]
    push_cast
    ext <;> simp only <;> ring

end Verif
