import Verif.Spec.RoundedPlace
import Verif.Lemmas.RoundedDepth

namespace Verif

variable {fl : ℚ → ℚ} {u : ℚ}

/-- The quotient of two numbers that are off by a part `g` of their sizes. -/
theorem quotient_near_by {z w z' w' A B K D g : ℚ} (hg : 0 ≤ g) (hw : w ≠ 0) (hd : |z / w| ≤ D) (hA : A ≤ K * |w|)
    (hB : B ≤ K * |w|) (hz' : |z' - z| ≤ g * A) (hw' : |w' - w| ≤ g * B) (hK : 2 * (g * K) ≤ 1) :
    |z' / w' - z / w| ≤ 2 * (1 + D) * (g * K) := by
  have hw0 : 0 < |w| := abs_pos.mpr hw
  have h1 : |z' - z| ≤ g * K * |w| := by nlinarith [mul_le_mul_of_nonneg_left hA hg]
  have h2 : |w' - w| ≤ g * K * |w| := by nlinarith [mul_le_mul_of_nonneg_left hB hg]
  have h3 : |w| / 2 ≤ |w'| := by
    have := abs_sub_abs_le_abs_sub w w'
    rw [abs_sub_comm] at this
    nlinarith
  have hw'0 : 0 < |w'| := by linarith
  have hw1 : w' ≠ 0 := abs_pos.mp hw'0
  have hD : 0 ≤ D := (abs_nonneg _).trans hd
  have hgK : 0 ≤ g * K := by
    have : 0 ≤ g * K * |w| := (abs_nonneg _).trans h1
    by_contra hc
    nlinarith
  have e : z' / w' - z / w = ((z' - z) - z / w * (w' - w)) / w' := by
    field_simp
    ring
  rw [e, abs_div, div_le_iff₀ hw'0]
  have h4 : |(z' - z) - z / w * (w' - w)| ≤ |z' - z| + |z / w| * |w' - w| := by
    rw [← abs_mul]; exact abs_sub _ _
  have h5 : |z / w| * |w' - w| ≤ D * (g * K * |w|) := mul_le_mul hd h2 (abs_nonneg _) hD
  have h6 : 2 * (1 + D) * (g * K) * (|w| / 2) ≤ 2 * (1 + D) * (g * K) * |w'| :=
    mul_le_mul_of_nonneg_left h3 (by positivity)
  nlinarith

/-- The place of a vertex. -/
theorem RScene.place_near (hfl : ∀ x, |fl x - x| ≤ u * |x|) (hu : 0 ≤ u) {way : RenderWay} (hw : way.Sums)
    (s : RScene) {K D : ℚ} (hK : 1000 * (u * K) ≤ 1) {n : Nat} {i : Fin 4} (hn : s.Seen K D n i) :
    |s.placeRounded fl way n i - s.place n i| ≤ 28 * (1 + D) * (u * K) := by
  have h3 := s.clip_near hfl hu hw n 3
  have h2 := s.clip_near hfl hu hw n i
  have h1K : 1 ≤ K := by
    have h0 := abs_pos.mpr hn.front
    have := hn.w
    have := h3.size
    by_contra hc
    nlinarith
  have hD : 0 ≤ D := (abs_nonneg _).trans hn.within
  have huK : u ≤ u * K := by nlinarith
  have hg : (1 + u) ^ 12 - 1 ≤ 13 * u := by
    have := pow_sub_le hu (k := 12) (by push_cast; linarith)
    push_cast at this
    linarith
  have hg0 : 0 ≤ (1 + u) ^ 12 - 1 := by
    have := one_le_pow₀ (n := 12) (show (1 : ℚ) ≤ 1 + u by linarith)
    linarith
  have hgK : ((1 + u) ^ 12 - 1) * K ≤ 13 * (u * K) := by nlinarith
  have hq := quotient_near_by hg0 hn.front hn.within hn.size hn.w h2.off h3.off (by linarith)
  have hd : |s.place n i| ≤ D := hn.within
  unfold RScene.placeRounded
  dsimp only
  generalize (way.vertex n i).dot fl _ _ / (way.vertex n 3).dot fl _ _ = q at hq ⊢
  change |q - s.place n i| ≤ _ at hq
  have hq' : |q - s.place n i| ≤ 26 * (1 + D) * (u * K) := by nlinarith
  have h5 := hfl q
  have h6 : |fl q - s.place n i| ≤ |fl q - q| + |q - s.place n i| := by
    simpa using abs_add_le (fl q - q) (q - s.place n i)
  have h7 : |q| ≤ |q - s.place n i| + |s.place n i| := by simpa using abs_add_le (q - s.place n i) (s.place n i)
  have h8 : |q| ≤ 2 * (1 + D) := by nlinarith
  have h9 : u * |q| ≤ u * (2 * (1 + D)) := mul_le_mul_of_nonneg_left h8 hu
  nlinarith

/-- The coordinates along the axes x and y, and their sizes. -/
theorem RScene.OfCamera.across {s : RScene} (h : s.OfCamera) {p q a b : ℚ}
    (hp : s.proj = !![p, 0, 0, 0; 0, q, 0, 0; 0, 0, -a, -b; 0, 0, -1, 0]) (n : Nat) :
    s.clipSize n 0 ≤ |p| * (303 / 100) ∧ s.clipSize n 1 ≤ |q| * (303 / 100) := by
  obtain ⟨-, hv, ht, ⟨hf, hf3⟩, hc⟩ := h
  have m0 := hf 0
  have m1 := hf 1
  have m2 := hf 2
  simp at m0 m1 m2
  constructor
  · have h0 := abs_mul_le (ht 0 0) (hc n).1
    have h1 := abs_mul_le (ht 0 1) (hc n).2.1
    have h2 := abs_mul_le (ht 0 2) (hc n).2.2
    simp at h0 h1 h2
    have e : s.clipSize n 0 = |p| * (|s.model 0 0| * |(s.vertex n).1| + |s.model 0 1| * |(s.vertex n).2.1| +
        |s.model 0 2| * |(s.vertex n).2.2|) := by
      simp [RScene.clipSize, hp, hv, Matrix.mulVec, dotProduct, Fin.sum_univ_four, Matrix.mul_apply, RScene.vec4,
        m0, m1, m2, hf3]
      ring
    rw [e]
    exact mul_le_mul_of_nonneg_left (by linarith) (abs_nonneg _)
  · have h0 := abs_mul_le (ht 1 0) (hc n).1
    have h1 := abs_mul_le (ht 1 1) (hc n).2.1
    have h2 := abs_mul_le (ht 1 2) (hc n).2.2
    simp at h0 h1 h2
    have e : s.clipSize n 1 = |q| * (|s.model 1 0| * |(s.vertex n).1| + |s.model 1 1| * |(s.vertex n).2.1| +
        |s.model 1 2| * |(s.vertex n).2.2|) := by
      simp [RScene.clipSize, hp, hv, Matrix.mulVec, dotProduct, Fin.sum_univ_four, Matrix.mul_apply, RScene.vec4,
        m0, m1, m2, hf3]
      ring
    rw [e]
    exact mul_le_mul_of_nonneg_left (by linarith) (abs_nonneg _)

/-- All vertices of a scene shown by a camera are seen. -/
theorem RScene.OfCamera.seen {s : RScene} (h : s.OfCamera) (hx : |s.proj 0 0| ≤ 16 / 5) (hy : |s.proj 1 1| ≤ 16 / 5)
    (n : Nat) {i : Fin 4} (hi : i = 0 ∨ i = 1) : s.Seen 6 5 n i := by
  obtain ⟨hv, hd0, hd1⟩ := h.inView n
  obtain ⟨p, q, a, b, hp, ha1, ha2, hb1, hb2⟩ := h.proj
  obtain ⟨h3, -, t, ht, hd, -, -⟩ := h.numbers (by linarith) (by linarith) hp n
  obtain ⟨h4, h5⟩ := h.across hp n
  have hd' := abs_le.mp hd
  have hx' : |p| ≤ 16 / 5 := by simpa [hp] using hx
  have hy' : |q| ≤ 16 / 5 := by simpa [hp] using hy
  have hs : s.clipSize n i ≤ 5 * |s.clip n 3| := by
    rw [h3, abs_of_pos hd0]
    rcases hi with rfl | rfl
    · linarith [hd'.1]
    · linarith [hd'.1]
  have hw0 : 0 < |s.clip n 3| := abs_pos.mpr hv.front
  have hz := (s.clip_near (fl := id) (u := 0) (by simp) (le_refl _) (way := ⟨fun _ _ => ⟨.add (.add (.add (.leaf 0)
    (.leaf 1)) (.leaf 2)) (.leaf 3), fun _ => false⟩, fun _ _ => ⟨.add (.add (.add (.leaf 0) (.leaf 1)) (.leaf 2))
    (.leaf 3), fun _ => false⟩, fun _ _ => ⟨.add (.add (.add (.leaf 0) (.leaf 1)) (.leaf 2)) (.leaf 3),
    fun _ => false⟩, fun _ => .leaf 0⟩) ⟨fun _ _ => List.Perm.refl _, fun _ _ => List.Perm.refl _,
    fun _ _ => List.Perm.refl _⟩ n i).size
  refine ⟨hv.front, ?_, by linarith, hv.w⟩
  rw [RScene.place, abs_div, div_le_iff₀ hw0]
  linarith

end Verif
