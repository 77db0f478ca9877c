import Verif.Lemmas.Outward
import Verif.Lemmas.Shapes
/-
Lemmas for Props/Ball.
-/

namespace Verif

open Real

/-- The cosine is at most that of `d` from `d` up to the full turn less `d`. -/
theorem cos_le_cos_far {d x : ℝ} (h0 : 0 ≤ d) (h1 : d ≤ |x|) (h2 : |x| ≤ 2 * π - d) : cos x ≤ cos d := by
  rw [← cos_abs x]
  generalize |x| = y at *
  have e : cos d - cos y = 2 * sin ((y + d) / 2) * sin ((y - d) / 2) := by
    have := cos_sub_cos d y
    rw [this, show (d + y) / 2 = (y + d) / 2 by ring, show (d - y) / 2 = -((y - d) / 2) by ring, sin_neg]
    ring
  have s1 := sin_nonneg_of_nonneg_of_le_pi (x := (y + d) / 2) (by linarith) (by linarith)
  have s2 := sin_nonneg_of_nonneg_of_le_pi (x := (y - d) / 2) (by linarith) (by linarith)
  have := mul_nonneg (mul_nonneg zero_le_two s1) s2
  linarith

theorem cos_grid {d : ℝ} (h0 : 0 ≤ d) {n N : ℤ} (hn : n ≠ 0) (hN : |n| ≤ N) (hd : (N + 1) * d ≤ 2 * π) :
    cos (n * d) ≤ cos d := by
  have h1 : (1 : ℤ) ≤ |n| := Int.one_le_abs hn
  have h1' : (1 : ℝ) ≤ |(n : ℝ)| := by exact_mod_cast h1
  have hN' : |(n : ℝ)| ≤ N := by exact_mod_cast hN
  refine cos_le_cos_far h0 ?_ ?_
  · rw [abs_mul, abs_of_nonneg h0]
    nlinarith
  · rw [abs_mul, abs_of_nonneg h0]
    nlinarith

/-- A turn about the axis. -/
noncomputable def aboutAxis (f : ℝ) (v : V3) : V3 := ⟨v.x * cos f + v.y * sin f, -v.x * sin f + v.y * cos f, v.z⟩

theorem ballAt_turn (r s f x : ℝ) : ballAt r s (f + x) = aboutAxis f (ballAt r s x) := by
  simp only [ballAt, aboutAxis, sin_add, cos_add, V3.mk.injEq, and_true]
  constructor <;> ring

theorem side_turn (f : ℝ) (a b c w : V3) :
    sideOf ![aboutAxis f a, aboutAxis f b, aboutAxis f c] (aboutAxis f w) = sideOf ![a, b, c] w := by
  have h := sin_sq_add_cos_sq f
  have : sideOf ![aboutAxis f a, aboutAxis f b, aboutAxis f c] (aboutAxis f w) =
      (sin f ^ 2 + cos f ^ 2) * sideOf ![a, b, c] w := by
    simp only [sideOf_mk, aboutAxis, V3.sub, V3.cross, V3.dot]
    ring
  rw [this, h, one_mul]

theorem side_first (r t u d s x : ℝ) :
    sideOf ![ballAt r t (-d), ballAt r t d, ballAt r u d] (ballAt r s x) =
      2 * r ^ 3 * sin t * sin d * ((sin u - sin t) * cos d * (cos s - cos t) +
        (cos t - cos u) * (sin s * cos x - sin t * cos d)) := by
  simp only [sideOf_mk, ballAt, V3.sub, V3.cross, V3.dot, sin_neg, cos_neg]
  ring

theorem side_second (r t u d s x : ℝ) :
    sideOf ![ballAt r u d, ballAt r u (-d), ballAt r t (-d)] (ballAt r s x) =
      2 * r ^ 3 * sin u * sin d * ((sin u - sin t) * cos d * (cos s - cos u) +
        (cos t - cos u) * (sin s * cos x - sin u * cos d)) := by
  simp only [sideOf_mk, ballAt, V3.sub, V3.cross, V3.dot, sin_neg, cos_neg]
  ring

/-- The common bracket, for the corner of the cell at `m` plus or minus `h`. -/
theorem bracket_nonpos {m h d s x z : ℝ} (hz : cos (z - m) = cos h) (hm : 0 ≤ sin m) (hh : 0 ≤ sin h) (hd : 0 ≤ cos d)
    (hs : 0 ≤ sin s) (hx : cos x ≤ cos d) (hsm : cos (s - m) ≤ cos h) :
    (sin (m + h) - sin (m - h)) * cos d * (cos s - cos z) +
      (cos (m - h) - cos (m + h)) * (sin s * cos x - sin z * cos d) ≤ 0 := by
  have e1 : sin (m + h) - sin (m - h) = 2 * cos m * sin h := by
    rw [sin_add, sin_sub]
    ring
  have e2 : cos (m - h) - cos (m + h) = 2 * sin m * sin h := by
    rw [cos_add, cos_sub]
    ring
  rw [e1, e2]
  rw [cos_sub] at hz hsm
  have k1 : sin s * cos x ≤ sin s * cos d := mul_le_mul_of_nonneg_left hx hs
  have k2 : 2 * sin m * sin h * (sin s * cos x) ≤ 2 * sin m * sin h * (sin s * cos d) :=
    mul_le_mul_of_nonneg_left k1 (by positivity)
  have k3 : 2 * sin h * cos d * (cos s * cos m + sin s * sin m - cos h) ≤ 0 :=
    mul_nonpos_of_nonneg_of_nonpos (by positivity) (by linarith)
  have k4 : 2 * sin h * cos d * (cos z * cos m + sin z * sin m) = 2 * sin h * cos d * cos h := by rw [hz]
  linarith

theorem sphereVerts_mem {r : ℝ} {sl st : Nat} {v : V3} (hv : v ∈ sphereVerts r sl st) :
    ∃ k ≤ st, ∃ n ≤ sl, v = ballAt r (rowAngle st k) (colAngle sl n) := by
  obtain ⟨k, hk⟩ := List.getElem?_of_mem hv
  have hlen := (List.getElem?_eq_some_iff.1 hk).1
  rw [sphereVerts_length] at hlen
  have hj : k % (sl + 1) < sl + 1 := Nat.mod_lt _ (by omega)
  have hi : k / (sl + 1) < st + 1 := Nat.div_lt_of_lt_mul (by linarith)
  have hk' : k / (sl + 1) * (sl + 1) + k % (sl + 1) = k := Nat.div_add_mod' k (sl + 1)
  rw [← hk', sphereVerts_get r (by omega) (by omega)] at hk
  exact ⟨k / (sl + 1), by omega, k % (sl + 1), by omega, (Option.some.inj hk).symm⟩

/-- No vertex is on the outer side of the two faces of a cell. -/
theorem cell_notOutside {r : ℝ} (hr : 0 ≤ r) {sl st i j k n : Nat} (hs : 2 ≤ sl) (hi : i < st) (hj : j < sl)
    (hk : k ≤ st) (hn : n ≤ sl) :
    sideOf ![ballAt r (rowAngle st i) (colAngle sl j), ballAt r (rowAngle st i) (colAngle sl (j + 1)),
      ballAt r (rowAngle st (i + 1)) (colAngle sl (j + 1))] (ballAt r (rowAngle st k) (colAngle sl n)) ≤ 0 ∧
    sideOf ![ballAt r (rowAngle st (i + 1)) (colAngle sl (j + 1)), ballAt r (rowAngle st (i + 1)) (colAngle sl j),
      ballAt r (rowAngle st i) (colAngle sl j)] (ballAt r (rowAngle st k) (colAngle sl n)) ≤ 0 := by
  have hsk := sin_rowAngle_nonneg hk
  have hsi := sin_rowAngle_nonneg (st := st) (i := i) (by omega)
  have hsi1 := sin_rowAngle_nonneg (st := st) (i := i + 1) (by omega)
  have hsl : (2 : ℝ) ≤ sl := by exact_mod_cast hs
  have hst : (1 : ℝ) ≤ st := by exact_mod_cast (by omega : 1 ≤ st)
  have hpi := pi_pos
  obtain ⟨d, hd⟩ : ∃ d : ℝ, d = π / sl := ⟨_, rfl⟩
  obtain ⟨h, hh⟩ : ∃ h : ℝ, h = π / st / 2 := ⟨_, rfl⟩
  have hd' : sl * d = π := by rw [hd]; field_simp
  have hh' : 2 * st * h = π := by rw [hh]; field_simp
  have hd0 : 0 < d := by rw [hd]; positivity
  have hh0 : 0 < h := by rw [hh]; positivity
  have ecol : ∀ a : Nat, colAngle sl a = a * (2 * d) := fun a => by rw [colAngle_eq, hd]; ring
  have erow : ∀ a : Nat, rowAngle st a = a * (2 * h) := fun a => by rw [rowAngle_eq, hh]; ring
  obtain ⟨f, hf⟩ : ∃ f : ℝ, f = (2 * j + 1) * d := ⟨_, rfl⟩
  obtain ⟨m, hm⟩ : ∃ m : ℝ, m = (2 * i + 1) * h := ⟨_, rfl⟩
  have c0 : colAngle sl j = f + -d := by rw [ecol, hf]; ring
  have c1 : colAngle sl (j + 1) = f + d := by rw [ecol, hf]; push_cast; ring
  have c2 : colAngle sl n = f + ((2 * (n - j) - 1 : ℤ) : ℝ) * d := by rw [ecol, hf]; push_cast; ring
  have r0 : rowAngle st i = m - h := by rw [erow, hm]; ring
  have r1 : rowAngle st (i + 1) = m + h := by rw [erow, hm]; push_cast; ring
  have r2 : rowAngle st k - m = ((2 * (k - i) - 1 : ℤ) : ℝ) * h := by rw [erow, hm]; push_cast; ring
  have hx : cos (((2 * (n - j) - 1 : ℤ) : ℝ) * d) ≤ cos d := by
    refine cos_grid (N := 2 * sl - 1) hd0.le (by omega) (by rw [abs_le]; omega) ?_
    push_cast
    linarith
  have hy : cos (rowAngle st k - m) ≤ cos h := by
    rw [r2]
    refine cos_grid (N := 2 * st - 1) hh0.le (by omega) (by rw [abs_le]; omega) ?_
    push_cast
    linarith
  have hi' : (i : ℝ) + 1 ≤ st := by exact_mod_cast hi
  have hsm : 0 ≤ sin m := by
    refine sin_nonneg_of_nonneg_of_le_pi (by rw [hm]; positivity) ?_
    rw [hm]
    nlinarith
  have hsh : 0 ≤ sin h := sin_nonneg_of_nonneg_of_le_pi hh0.le (by nlinarith)
  have hsd : 0 ≤ sin d := sin_nonneg_of_nonneg_of_le_pi hd0.le (by nlinarith)
  have hcd : 0 ≤ cos d := cos_nonneg_of_neg_pi_div_two_le_of_le (by linarith) (by nlinarith)
  rw [r0] at hsi ⊢
  rw [r1] at hsi1 ⊢
  rw [c0, c1, c2]
  simp only [ballAt_turn r _ f, side_turn]
  constructor
  · rw [side_first]
    refine mul_nonpos_of_nonneg_of_nonpos (by positivity) ?_
    exact bracket_nonpos (by rw [sub_sub_cancel_left, cos_neg]) hsm hsh hcd hsk hx hy
  · rw [side_second]
    refine mul_nonpos_of_nonneg_of_nonpos (by positivity) ?_
    exact bracket_nonpos (by rw [add_sub_cancel_left]) hsm hsh hcd hsk hx hy

end Verif
