import Verif.Lemmas.Fill
/-
C115: a triangle is filled where its points are seen.
-/

namespace Verif

open Matrix

/-- **C115, for triangles in front of the eye.** What is filled for a triangle is where its points are seen, whatever
the matrices are. -/
theorem triangle_shows_partial (T : Mat4 ℝ) {vs ps : Fin 3 → V3} (hp : ∀ i, screenOf T (vs i) = some (ps i))
    (hw : ∀ i, 0 < ahead T (vs i)) (x y : ℝ) :
    fillShows ps x y ↔ ∃ v r, InTriangle vs v ∧ screenOf T v = some r ∧ r.x = x ∧ r.y = y := by
  have e := fun i => screenOf_eq T (hw i).ne' (hp i)
  have key : ∀ t : Fin 3 → ℝ, (∀ i, 0 ≤ t i) → ∑ i, t i = 1 → ∃ r,
      screenOf T ⟨∑ i, t i * (vs i).x, ∑ i, t i * (vs i).y, ∑ i, t i * (vs i).z⟩ = some r ∧
      r.x = (∑ i, t i * (ahead T (vs i) * (ps i).x)) / ∑ i, t i * ahead T (vs i) ∧
      r.y = (∑ i, t i * (ahead T (vs i) * (ps i).y)) / ∑ i, t i * ahead T (vs i) := by
    intro t ht h1
    have hm := mulVec_mix T vs t h1
    have hpos := mix_pos hw ht h1
    have ha : ahead T ⟨∑ i, t i * (vs i).x, ∑ i, t i * (vs i).y, ∑ i, t i * (vs i).z⟩ = ∑ i, t i * ahead T (vs i) :=
      hm 3
    obtain ⟨r, hr⟩ := screenOf_ahead (T := T) (by rw [ha]; exact hpos.ne')
    refine ⟨r, hr, ?_, ?_⟩
    · rw [(screenOf_some hr).1, ha]
      simp only [hm, (e _).1]
    · rw [(screenOf_some hr).2, ha]
      simp only [hm, (e _).2]
  constructor
  · rintro ⟨s, hs, h1, rfl, rfl⟩
    have hD := mix_pos (w := fun i => 1 / ahead T (vs i)) (fun i => one_div_pos.mpr (hw i)) hs h1
    have ht : ∀ i, 0 ≤ s i * (1 / ahead T (vs i)) / ∑ j, s j * (1 / ahead T (vs j)) := fun i =>
      div_nonneg (mul_nonneg (hs i) (one_div_pos.mpr (hw i)).le) hD.le
    have ht1 : ∑ i, s i * (1 / ahead T (vs i)) / ∑ j, s j * (1 / ahead T (vs j)) = 1 := by
      rw [← Finset.sum_div, div_self hD.ne']
    obtain ⟨r, hr, hx, hy⟩ := key _ ht ht1
    refine ⟨_, r, ⟨_, ht, ht1, rfl⟩, hr, ?_, ?_⟩
    all_goals
      first | rw [hx] | rw [hy]
      generalize (∑ j, s j * (1 / ahead T (vs j))) = D at *
      have k : ∀ i, s i * (1 / ahead T (vs i)) / D * ahead T (vs i) = s i / D := by
        intro i
        have := (hw i).ne'
        field_simp
      simp only [← mul_assoc, k]
      rw [← Finset.sum_div, h1]
      rw [div_eq_iff (by positivity), Finset.sum_mul]
      refine Finset.sum_congr rfl (fun i _ => ?_)
      ring
  · rintro ⟨v, r, ⟨t, ht, h1, rfl⟩, hr, rfl, rfl⟩
    obtain ⟨r', hr', hx, hy⟩ := key t ht h1
    rw [hr] at hr'
    cases hr'
    have hpos := mix_pos hw ht h1
    refine ⟨fun i => t i * ahead T (vs i) / ∑ j, t j * ahead T (vs j),
      fun i => div_nonneg (mul_nonneg (ht i) (hw i).le) hpos.le, ?_, ?_, ?_⟩
    · rw [← Finset.sum_div, div_self hpos.ne']
    · rw [hx, Finset.sum_div]
      refine Finset.sum_congr rfl (fun i _ => ?_)
      ring
    · rw [hy, Finset.sum_div]
      refine Finset.sum_congr rfl (fun i _ => ?_)
      ring

/-- A triangle with a vertex behind the eye, for which the wrong side is filled. -/
theorem triangle_shows_fails : ∃ (T : Mat4 ℝ) (vs ps : Fin 3 → V3) (v r : V3),
    (∀ i, screenOf T (vs i) = some (ps i)) ∧ InTriangle vs v ∧ screenOf T v = some r ∧ windowShows r ∧
      ¬ fillShows ps r.x r.y := by
  refine ⟨!![1, 0, 0, 0; 0, 1, 0, 0; 0, 0, 1, 0; 0, 0, -1, 0], ![⟨0, 0, -1⟩, ⟨1, 0, 1⟩, ⟨0, 1, -1⟩],
    ![⟨0, 0, -1⟩, ⟨-1, 0, -1⟩, ⟨0, 1, -1⟩], ⟨1 / 4, 0, -1 / 2⟩, ⟨1 / 2, 0, -1⟩, ?_, ?_, ?_, ?_, ?_⟩
  · intro i
    fin_cases i <;> simp [screenOf]
  · refine ⟨![3 / 4, 1 / 4, 0], ?_, ?_, ?_⟩
    · intro i
      fin_cases i <;> norm_num
    · simp [Fin.sum_univ_three]
      norm_num
    · ext <;> simp [Fin.sum_univ_three] <;> norm_num
  · simp [screenOf]
    norm_num
  · norm_num [windowShows]
  · rintro ⟨s, hs, -, hx, -⟩
    simp [Fin.sum_univ_three] at hx
    have := hs 1
    linarith

/-- **C115 for the cameras of the examples.** Whatever the events, triangles of a scene around the origin that lies
between the planes are filled where their points are seen. -/
theorem camera_triangles (theta phi zoom zdist scale xlim ylim : ℝ) (es : List CamEvent) (R : ℝ) (hR : 0 ≤ R)
    (hs : 0 ≤ scale) (hn : 1 ≤ zdist - scale * R) (hf : zdist + scale * R ≤ 100) (vs : Fin 3 → V3)
    (hvs : ∀ i, (vs i).x ^ 2 + (vs i).y ^ 2 + (vs i).z ^ 2 ≤ R ^ 2) :
    let c := camRun (camInit false theta phi zoom zdist scale xlim ylim) es
    let T := c.proj * c.view * c.model
    ∃ ps : Fin 3 → V3, (∀ i, screenOf T (vs i) = some (ps i)) ∧
      ∀ x y, fillShows ps x y ↔ ∃ v r, InTriangle vs v ∧ screenOf T v = some r ∧ r.x = x ∧ r.y = y := by
  intro c T
  have k : ∀ i, 0 < ahead T (vs i) := fun i =>
    camera_ahead theta phi zoom zdist scale xlim ylim es R hR hs hn hf (vs i) (hvs i)
  choose ps hps using fun i => screenOf_ahead (k i).ne'
  exact ⟨ps, hps, triangle_shows_partial T hps k⟩

/-- A triangle in the cube from -1 to 1, before the default camera. -/
example : ∀ i, ((![⟨1, 0, 0⟩, ⟨0, 1, 0⟩, ⟨-1, -1, 1⟩] : Fin 3 → V3) i).x ^ 2 +
    ((![⟨1, 0, 0⟩, ⟨0, 1, 0⟩, ⟨-1, -1, 1⟩] : Fin 3 → V3) i).y ^ 2 +
    ((![⟨1, 0, 0⟩, ⟨0, 1, 0⟩, ⟨-1, -1, 1⟩] : Fin 3 → V3) i).z ^ 2 ≤ (7 / 4) ^ 2 := by
  intro i
  fin_cases i <;> norm_num

end Verif
