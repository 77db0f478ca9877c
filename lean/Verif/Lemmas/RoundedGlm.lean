import Verif.Spec.RoundedGlm
import Verif.Lemmas.NearBy
import Verif.Lemmas.Glm
import Mathlib.Tactic.FinCases
/-
Lemmas on rounded matrices.
-/

namespace Verif

open Matrix

/-- Entry by entry. -/
theorem mat4_rel {K : Type} {R : K → K → Prop}
    {a00 a01 a02 a03 a10 a11 a12 a13 a20 a21 a22 a23 a30 a31 a32 a33 b00 b01 b02 b03 b10 b11 b12 b13 b20
      b21 b22 b23 b30 b31 b32 b33 : K}
    (h00 : R a00 b00) (h01 : R a01 b01) (h02 : R a02 b02) (h03 : R a03 b03) (h10 : R a10 b10) (h11 : R a11
    b11) (h12 : R a12 b12) (h13 : R a13 b13) (h20 : R a20 b20) (h21 : R a21 b21) (h22 : R a22 b22) (h23 :
    R a23 b23) (h30 : R a30 b30) (h31 : R a31 b31) (h32 : R a32 b32) (h33 : R a33 b33) (i j : Fin 4) :
    R ((!![a00, a01, a02, a03; a10, a11, a12, a13; a20, a21, a22, a23; a30, a31, a32, a33] : Mat4 K) i j)
      ((!![b00, b01, b02, b03; b10, b11, b12, b13; b20, b21, b22, b23; b30, b31, b32, b33] : Mat4 K) i j) := by
  fin_cases i <;> fin_cases j <;> assumption

section
variable {K : Type} [Field K] [LinearOrder K] [IsStrictOrderedRing K] {u : K} (h0 : 0 ≤ u) (h1 : u < 1)
include h0 h1

theorem NearBy.neg {k : Nat} {x y : K} (h : NearBy u k x y) : NearBy u k (-x) (-y) := by
  obtain ⟨t, a, b, rfl⟩ := h
  exact ⟨t, a, b, by ring⟩

theorem frustum_near {fl st : K → K} (hfl : RoundsBy u fl) (hst : RoundsBy u st) {k k' : Nat}
    {l r b t l' r' b' t' : K} (n f : K)
    (hrl : NearBy u k (r - l) (r' - l')) (hrl' : NearBy u k' (r + l) (r' + l'))
    (htb : NearBy u k (t - b) (t' - b')) (htb' : NearBy u k' (t + b) (t' + b')) (i j : Fin 4) :
    NearBy u (k + k' + 5) (glmFrustum l r b t n f false i j) (frustumRounded fl st l' r' b' t' n f false i j) := by
  have R : ∀ {k : Nat} {x y : K}, NearBy u k x y → NearBy u (k + 1) x (fl y) := fun h => h.round h0 h1 hfl
  have S : ∀ {k : Nat} {x y : K}, NearBy u k x y → NearBy u (k + 1) x (st y) := fun h => h.round h0 h1 hst
  have r0 : ∀ x, NearBy u 0 x x := fun x => NearBy.refl h0 h1 x
  have z : ∀ x : K, NearBy u (k + k' + 5) x x := fun x => (r0 x).mono h0 h1 (by omega)
  have e00 := S (R ((R (r0 (2 * n))).div h0 h1 (R hrl)))
  have e02 := S (R ((R hrl').div h0 h1 (R hrl)))
  have e11 := S (R ((R (r0 (2 * n))).div h0 h1 (R htb)))
  have e21 := S (R ((R htb').div h0 h1 (R htb)))
  have e22 := S (R (((R (r0 (f + n))).neg h0 h1).div h0 h1 (R (r0 (f - n)))))
  have e23 := S (R ((R ((R (r0 (-2 * n))).mul h0 h1 (r0 f))).div h0 h1 (R (r0 (f - n)))))
  unfold glmFrustum frustumRounded transposeIf
  simp only [Bool.false_eq_true, if_false]
  exact mat4_rel (e00.mono h0 h1 (by omega)) (z _) (e02.mono h0 h1 (by omega)) (z _) (z _) (e11.mono h0
    h1 (by omega)) (z _) (z _) (z _) (e21.mono h0 h1 (by omega)) (e22.mono h0 h1 (by omega)) (e23.mono h0
    h1 (by omega)) (z _) (z _) (z _) (z _) i j

theorem ortho_near {fl st : K → K} (hfl : RoundsBy u fl) (hst : RoundsBy u st)
    (l r b t n f : K) (i j : Fin 4) :
    NearBy u 4 (glmOrtho l r b t n f false i j) (orthoRounded fl st l r b t n f false i j) := by
  have R : ∀ {k : Nat} {x y : K}, NearBy u k x y → NearBy u (k + 1) x (fl y) := fun h => h.round h0 h1 hfl
  have S : ∀ {k : Nat} {x y : K}, NearBy u k x y → NearBy u (k + 1) x (st y) := fun h => h.round h0 h1 hst
  have r0 : ∀ x, NearBy u 0 x x := fun x => NearBy.refl h0 h1 x
  have z : ∀ x : K, NearBy u 4 x x := fun x => (r0 x).mono h0 h1 (by omega)
  have a : ∀ x y : K, NearBy u 4 (x / y) (st (fl (x / fl y))) := fun x y =>
    (S (R ((r0 x).div h0 h1 (R (r0 y))))).mono h0 h1 (by omega)
  have c : ∀ x y : K, NearBy u 4 (-x / y) (st (fl (-fl x / fl y))) := fun x y =>
    (S (R (((R (r0 x)).neg h0 h1).div h0 h1 (R (r0 y))))).mono h0 h1 (by omega)
  unfold glmOrtho orthoRounded transposeIf
  simp only [Bool.false_eq_true, if_false]
  exact mat4_rel (a _ _) (z _) (c _ _) (z _) (z _) (a _ _) (z _) (c _ _) (z _) (z _) (a _ _) (c _ _)
    (z _) (z _) (z _) (z _) i j

end

theorem NearBy.of_within {u x y : ℝ} (h0 : 0 ≤ u) (h1 : u < 1) (h : WithinPart u x y) : NearBy u 1 x y := by
  have := (NearBy.refl h0 h1 x).round h0 h1 (fl := fun z => if z = x then y else z) (fun z => by
    by_cases hz : z = x
    · subst hz
      have h : |y - z| ≤ u * |z| := h
      simpa using h
    · simp only [hz, if_false, sub_self, abs_zero]; positivity)
  simpa using this

theorem perspective_near {u : ℝ} (h0 : 0 ≤ u) (h1 : u < 1) {fl st tn : ℝ → ℝ} (hfl : RoundsBy u fl)
    (hst : RoundsBy u st) (htn : TanWithin u tn) (fovy aspect n f : ℝ) (i j : Fin 4) :
    NearBy u 8 (glmPerspective fovy aspect n f false i j) (perspectiveRounded fl st tn fovy aspect n f false i j) := by
  have he : fovy / 2 * (Real.pi / 180) = 1 / 2 * radians fovy := by unfold radians; ring
  have ht := NearBy.of_within h0 h1 (htn fovy)
  rw [he] at ht
  have r0 : ∀ x : ℝ, NearBy u 0 x x := fun x => NearBy.refl h0 h1 x
  have hh := (ht.mul h0 h1 (r0 n)).round h0 h1 hfl
  have hw := (hh.mul h0 h1 (r0 aspect)).round h0 h1 hfl
  have dbl : ∀ {k : Nat} {x y : ℝ}, NearBy u k x y → NearBy u k (x - -x) (y - -y) := by
    rintro k x y ⟨t, a, b, rfl⟩
    exact ⟨t, a, b, by ring⟩
  have nul : ∀ {x y : ℝ}, NearBy u 0 (x + -x) (y + -y) := by
    intro x y
    rw [add_neg_cancel, add_neg_cancel]
    exact r0 0
  exact frustum_near h0 h1 hfl hst (k := 3) (k' := 0) n f (dbl hw) nul
    ((dbl hh).mono h0 h1 (by omega)) nul i j

/-- The zeros of a perspective. -/
structure Sparse (M : Mat4 ℝ) : Prop where
  z01 : M 0 1 = 0
  z02 : M 0 2 = 0
  z03 : M 0 3 = 0
  z10 : M 1 0 = 0
  z12 : M 1 2 = 0
  z13 : M 1 3 = 0
  z20 : M 2 0 = 0
  z21 : M 2 1 = 0
  z30 : M 3 0 = 0
  z31 : M 3 1 = 0
  m32 : M 3 2 = -1
  z33 : M 3 3 = 0

theorem Sparse.apply {M : Mat4 ℝ} (h : Sparse M) (x y z : ℝ) :
    M *ᵥ pt x y z = ![M 0 0 * x, M 1 1 * y, M 2 2 * z + M 2 3, -z] := by
  obtain ⟨h1, h2, h3, h4, h5, h6, h7, h8, h9, h10, h11, h12⟩ := h
  ext i
  fin_cases i <;>
    simp [Matrix.mulVec, dotProduct, Fin.sum_univ_four, pt, h1, h2, h3, h4, h5, h6, h7, h8, h9, h10, h11, h12]

theorem perspective_sparse (fovy aspect n f : ℝ) : Sparse (glmPerspective fovy aspect n f) := by
  constructor <;> simp [glmPerspective, glmFrustum, transposeIf]

theorem perspective_entries (fovy aspect n f : ℝ) :
    glmPerspective fovy aspect n f false 2 2 = -(f + n) / (f - n) ∧
    glmPerspective fovy aspect n f false 2 3 = -2 * n * f / (f - n) := by
  constructor <;> simp [glmPerspective, glmFrustum, transposeIf]

theorem near_zero {u : ℝ} {k : Nat} {x y : ℝ} (h : NearBy u k x y) (hx : x = 0) : y = 0 := by
  obtain ⟨t, -, -, rfl⟩ := h
  rw [hx, zero_mul]

theorem perspective_rounded_sparse {u : ℝ} (h0 : 0 ≤ u) (h1 : u < 1) {fl st tn : ℝ → ℝ} (hfl : RoundsBy u fl)
    (hst : RoundsBy u st) (htn : TanWithin u tn) (fovy aspect n f : ℝ) :
    Sparse (perspectiveRounded fl st tn fovy aspect n f) := by
  have N := fun i j => perspective_near h0 h1 hfl hst htn fovy aspect n f i j
  obtain ⟨a1, a2, a3, a4, a5, a6, a7, a8, a9, a10, -, a12⟩ := perspective_sparse fovy aspect n f
  exact ⟨near_zero (N _ _) a1, near_zero (N _ _) a2, near_zero (N _ _) a3, near_zero (N _ _) a4,
    near_zero (N _ _) a5, near_zero (N _ _) a6, near_zero (N _ _) a7, near_zero (N _ _) a8, near_zero (N _ _) a9,
    near_zero (N _ _) a10, by simp [perspectiveRounded, frustumRounded, transposeIf], near_zero (N _ _) a12⟩

end Verif
