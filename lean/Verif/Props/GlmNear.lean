import Verif.Lemmas.GlmNear
import Verif.Props.Glm
/-
C54, C55: the small number that `normalize` adds to lengths changes the matrices of `lookat` and
`align` by no more than the number itself, relative to the lengths of what they are given.
-/

namespace Verif

open Matrix

/-- With the small number, the view matrix is the one without it, with its three axes shortened: the
line of sight by at most the number over the distance of the eye, the horizontal axis by at most the
number times that distance over the length of the cross product of `up` and the line of sight, the
vertical one by at most the number over the product of the other two. -/
theorem lookat_near {eps : ℝ} (he : 0 ≤ eps) {eye center up : V3} (h : (eye.sub center).norm ≠ 0)
    (hup : (up.cross (eye.sub center)).norm ≠ 0) :
    ∃ p q r : ℝ, (0 < p ∧ p ≤ 1 ∧
        1 - p ≤ eps * (eps + (eye.sub center).norm) / (up.cross (eye.sub center)).norm) ∧
      (0 < q ∧ q ≤ 1 ∧ 1 - q ≤ eps / (p * r)) ∧
      (0 < r ∧ r ≤ 1 ∧ 1 - r ≤ eps / (eye.sub center).norm) ∧
      glmLookat eps eye center up = diagonal ![p, q, r, 1] * glmLookat 0 eye center up := by
  generalize hd : eye.sub center = d at *
  have hdn : 0 < d.norm := lt_of_le_of_ne (norm_nonneg' _) (Ne.symm h)
  have hun : 0 < (up.cross d).norm := lt_of_le_of_ne (norm_nonneg' _) (Ne.symm hup)
  set Z := glmNormalize 0 d with hZ
  set r := shrink eps d.norm with hr
  have hr0 : 0 < r := shrink_pos he hdn
  have hZe : glmNormalize eps d = V3.smul r Z := normalize_shrink d h
  have hZZ : Z.dot Z = 1 := normalize_unit h
  have hUZ : up.cross Z = V3.smul (1 / d.norm) (up.cross d) := by
    rw [hZ, glmNormalize, zero_add, cross_smul_right]
  have hUn : (up.cross Z).norm = (up.cross d).norm / d.norm := by
    rw [hUZ, norm_smul (by positivity)]; ring
  have hUpos : 0 < (up.cross Z).norm := by rw [hUn]; positivity
  set X := glmNormalize 0 (up.cross Z) with hX
  have hXX : X.dot X = 1 := normalize_unit hUpos.ne'
  have hwn : (up.cross (V3.smul r Z)).norm = r * (up.cross Z).norm := by
    rw [cross_smul_right, norm_smul hr0.le]
  have hw0 : 0 < (up.cross (V3.smul r Z)).norm := by rw [hwn]; positivity
  set p := shrink eps (up.cross (V3.smul r Z)).norm with hp
  have hp0 : 0 < p := shrink_pos he hw0
  have hXe : glmNormalize eps (up.cross (V3.smul r Z)) = V3.smul p X := by
    rw [normalize_shrink _ hw0.ne', cross_smul_right, normalize_smul hr0, ← cross_smul_right]
  have hZX : Z.dot X = 0 := by
    rw [hX, glmNormalize]
    simp only [V3.dot, V3.smul, V3.cross]
    ring
  have hYY : (Z.cross X).dot (Z.cross X) = 1 := by
    simp only [V3.dot, V3.cross] at hZZ hXX hZX ⊢
    linear_combination (X.x * X.x + X.y * X.y + X.z * X.z) * hZZ + hXX -
      (Z.x * X.x + Z.y * X.y + Z.z * X.z) * hZX
  have hYn : (Z.cross X).norm = 1 := norm_unit hYY
  have hvn : ((V3.smul r Z).cross (V3.smul p X)).norm = r * p := by
    rw [cross_smul, norm_smul (by positivity), hYn, mul_one]
  have hv0 : 0 < ((V3.smul r Z).cross (V3.smul p X)).norm := by rw [hvn]; positivity
  set q := shrink eps ((V3.smul r Z).cross (V3.smul p X)).norm with hq
  have hYe : glmNormalize eps ((V3.smul r Z).cross (V3.smul p X)) =
      V3.smul q (glmNormalize 0 (Z.cross X)) := by
    rw [normalize_shrink _ hv0.ne', cross_smul, normalize_smul (by positivity), ← cross_smul]
  refine ⟨p, q, r, ⟨hp0, shrink_le he hw0, ?_⟩, ⟨shrink_pos he hv0, shrink_le he hv0, ?_⟩,
    ⟨hr0, shrink_le he hdn, ?_⟩, ?_⟩
  · have := shrink_near he hw0
    rw [← hp] at this
    have e : eps / (up.cross (V3.smul r Z)).norm =
        eps * (eps + d.norm) / (up.cross d).norm := by
      rw [hwn, hUn, hr, shrink]
      have : 0 < eps + d.norm := by linarith
      field_simp
    rw [e] at this
    linarith
  · have := shrink_near he hv0
    rw [← hq, hvn, mul_comm r p] at this
    linarith
  · have := shrink_near he hdn
    rw [← hr] at this
    linarith
  · have e1 : glmLookat eps eye center up =
        !![(V3.smul p X).x, (V3.smul p X).y, (V3.smul p X).z, -(V3.smul p X).dot eye;
          (V3.smul q (glmNormalize 0 (Z.cross X))).x, (V3.smul q (glmNormalize 0 (Z.cross X))).y,
            (V3.smul q (glmNormalize 0 (Z.cross X))).z,
            -(V3.smul q (glmNormalize 0 (Z.cross X))).dot eye;
          (V3.smul r Z).x, (V3.smul r Z).y, (V3.smul r Z).z, -(V3.smul r Z).dot eye;
          0, 0, 0, 1] := by
      simp only [glmLookat, hd, hZe, hXe, hYe]
    have e2 : glmLookat 0 eye center up =
        !![X.x, X.y, X.z, -X.dot eye;
          (glmNormalize 0 (Z.cross X)).x, (glmNormalize 0 (Z.cross X)).y,
            (glmNormalize 0 (Z.cross X)).z, -(glmNormalize 0 (Z.cross X)).dot eye;
          Z.x, Z.y, Z.z, -Z.dot eye; 0, 0, 0, 1] := by
      simp only [glmLookat, hd, ← hZ, ← hX]
    rw [e1, e2]
    ext i j
    fin_cases i <;> fin_cases j <;> simp [V3.smul, V3.dot] <;> ring

/-- For an eye at a distance of 5 the line of sight is shortened by at most a fifth of the small number. -/
example : ∃ p q r : ℝ, 1 - r ≤ glmEps / 5 ∧
    glmLookat glmEps ⟨0, 0, 5⟩ ⟨0, 0, 0⟩ ⟨0, 1, 0⟩ =
      diagonal ![p, q, r, 1] * glmLookat 0 ⟨0, 0, 5⟩ ⟨0, 0, 0⟩ ⟨0, 1, 0⟩ := by
  have h : Real.sqrt (5 * 5) = 5 := Real.sqrt_mul_self (by norm_num)
  have h1 : (V3.sub ⟨0, 0, 5⟩ ⟨0, 0, 0⟩).norm = 5 := by simp [V3.norm, V3.sub, V3.dot, h]
  have h2 : (V3.cross ⟨0, 1, 0⟩ (V3.sub ⟨0, 0, 5⟩ ⟨0, 0, 0⟩)).norm = 5 := by
    simp [V3.norm, V3.sub, V3.cross, V3.dot, h]
  obtain ⟨p, q, r, -, -, hr, hm⟩ := lookat_near (eps := glmEps) (by unfold glmEps; norm_num)
    (h1 ▸ (by norm_num : (5 : ℝ) ≠ 0)) (h2 ▸ (by norm_num : (5 : ℝ) ≠ 0))
  exact ⟨p, q, r, by rw [← h1]; exact hr.2.2, hm⟩

/-- With the small number, every entry of the matrix of `align` is the one without it up to twice the
number over the lengths of the two vectors. -/
theorem align_near {eps : ℝ} (he : 0 ≤ eps) {U V : V3} (hU : U.norm ≠ 0) (hV : V.norm ≠ 0)
    (hUV : (U.cross V).norm ≠ 0) : ∃ M M0, glmAlign eps U V = some M ∧ glmAlign 0 U V = some M0 ∧
      ∀ i j, |M i j - M0 i j| ≤ 2 * (eps / U.norm + eps / V.norm) := by
  have hUn : 0 < U.norm := lt_of_le_of_ne (norm_nonneg' _) (Ne.symm hU)
  have hVn : 0 < V.norm := lt_of_le_of_ne (norm_nonneg' _) (Ne.symm hV)
  have ha := normalize_unit hU
  have hb := normalize_unit hV
  have hs : ((glmNormalize 0 U).cross (glmNormalize 0 V)).norm ≠ 0 := by
    unfold glmNormalize
    rw [cross_smul, norm_smul (by positivity)]
    simp only [zero_add]
    positivity
  have e1 := normalize_shrink (eps := eps) U hU
  have e2 := normalize_shrink (eps := eps) V hV
  set r1 := shrink eps U.norm
  set r2 := shrink eps V.norm
  have b1 : 0 < r1 ∧ r1 ≤ 1 ∧ 1 - eps / U.norm ≤ r1 :=
    ⟨shrink_pos he hUn, shrink_le he hUn, shrink_near he hUn⟩
  have b2 : 0 < r2 ∧ r2 ≤ 1 ∧ 1 - eps / V.norm ≤ r2 :=
    ⟨shrink_pos he hVn, shrink_le he hVn, shrink_near he hVn⟩
  have hbound : 1 - r1 * r2 ≤ eps / U.norm + eps / V.norm := by
    have : 1 - r1 * r2 = (1 - r1) + r1 * (1 - r2) := by ring
    have h2 : r1 * (1 - r2) ≤ 1 * (1 - r2) :=
      mul_le_mul_of_nonneg_right b1.2.1 (by linarith [b2.2.1])
    linarith [b1.2.2, b2.2.2]
  have hrho0 : 0 < r1 * r2 := mul_pos b1.1 b2.1
  have hrho1 : r1 * r2 ≤ 1 := by nlinarith [b1.1, b1.2.1, b2.1, b2.2.1]
  unfold glmAlign
  simp only [e1, e2, cross_smul, dot_smul, norm_smul hrho0.le]
  generalize glmNormalize 0 U = a at *
  generalize glmNormalize 0 V = b at *
  generalize r1 * r2 = rho at *
  have hsq := norm_sq (a.cross b)
  have hs0 : 0 < (a.cross b).norm := lt_of_le_of_ne (norm_nonneg' _) (Ne.symm hs)
  rw [if_neg (by positivity), if_neg hs]
  refine ⟨_, _, rfl, rfl, ?_⟩
  have hlag : (a.cross b).norm * (a.cross b).norm = 1 - a.dot b * a.dot b := by
    rw [hsq]
    simp only [V3.cross, V3.dot] at ha hb ⊢
    linear_combination (b.x * b.x + b.y * b.y + b.z * b.z) * ha + hb
  generalize a.dot b = c at *
  generalize a.cross b = v at *
  have hc1 : c ≤ 1 := by nlinarith
  have hc2 : -1 ≤ c := by nlinarith
  generalize v.norm = s at *
  have hs1 : s ≤ 1 := by nlinarith
  obtain ⟨x, y, z⟩ := v
  simp only [V3.dot] at hsq
  have hE : 0 ≤ eps / U.norm + eps / V.norm := by linarith
  generalize eps / U.norm + eps / V.norm = E at *
  simp only [V3.smul, transposeIf, Bool.false_eq_true, if_false]
  rw [align_matrix, align_matrix]
  exact align_entries hrho0 hrho1 hbound hE hs0 hs1 hc1 hc2 (by rw [sq, hsq]; ring)

/-- Two vectors of length 2 at a right angle. -/
example : ∃ M M0, glmAlign glmEps ⟨2, 0, 0⟩ ⟨0, 2, 0⟩ = some M ∧
    glmAlign 0 ⟨2, 0, 0⟩ ⟨0, 2, 0⟩ = some M0 ∧ ∀ i j, |M i j - M0 i j| ≤ 2 * glmEps := by
  have h : Real.sqrt (2 * 2) = 2 := Real.sqrt_mul_self (by norm_num)
  have h4 : Real.sqrt (2 * 2 * (2 * 2)) = 4 := by
    rw [show (2 : ℝ) * 2 * (2 * 2) = 4 * 4 by norm_num]; exact Real.sqrt_mul_self (by norm_num)
  have h1 : (V3.mk 2 0 0).norm = 2 := by simp [V3.norm, V3.dot, h]
  have h2 : (V3.mk 0 2 0).norm = 2 := by simp [V3.norm, V3.dot, h]
  have h3 : ((V3.mk 2 0 0).cross (V3.mk 0 2 0)).norm = 4 := by simp [V3.norm, V3.cross, V3.dot, h4]
  obtain ⟨M, M0, e1, e2, e3⟩ := align_near (eps := glmEps) (by unfold glmEps; norm_num)
    (U := ⟨2, 0, 0⟩) (V := ⟨0, 2, 0⟩) (by rw [h1]; norm_num) (by rw [h2]; norm_num)
    (by rw [h3]; norm_num)
  refine ⟨M, M0, e1, e2, fun i j => (e3 i j).trans ?_⟩
  rw [h1, h2]
  linarith

end Verif
