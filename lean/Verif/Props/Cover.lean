import Verif.Lemmas.Cover
/-
C114: where two elements overlap, the nearer one is on top.
-/

namespace Verif

open Matrix

/-- **C114 for points and markers.** Of two points in front of the eye the nearer is drawn later. -/
theorem points_cover {fovy aspect n f : ℝ} (h0 : 0 < fovy) (h1 : fovy < 180) (ha : 0 < aspect) (hn : 0 < n)
    (hf : n < f) {V : Mat4 ℝ} (hV : Affine V) {u v p q : V3} (hv : 0 < eyeDistance V v)
    (h : Hides (glmPerspective fovy aspect n f * V) V v u)
    (hp : screenOf (glmPerspective fovy aspect n f * V) u = some p)
    (hq : screenOf (glmPerspective fovy aspect n f * V) v = some q) : screenKey p < screenKey q := by
  unfold screenKey
  rw [depth_of_distance h0 h1 ha hn hf hV hp, depth_of_distance h0 h1 ha hn hf hV hq]
  have hc : 0 < 2 * n * f / (f - n) := div_pos (by nlinarith) (by linarith)
  have := mul_lt_mul_of_pos_left (one_div_lt_one_div_of_lt hv h.1) hc
  linarith

/-- **C114 fails for Pixels**, always: of two pixels in front of the eye and at the same place the farther is drawn
later. -/
theorem pixels_cover_fails {fovy aspect n f : ℝ} (h0 : 0 < fovy) (h1 : fovy < 180) (ha : 0 < aspect) (hn : 0 < n)
    (hf : n < f) {V : Mat4 ℝ} (hV : Affine V) {u v p q : V3} (hv : 0 < eyeDistance V v)
    (h : Hides (glmPerspective fovy aspect n f * V) V v u)
    (hp : screenOf (glmPerspective fovy aspect n f * V) u = some p)
    (hq : screenOf (glmPerspective fovy aspect n f * V) v = some q) : pixelKey q < pixelKey p := by
  have := points_cover h0 h1 ha hn hf hV hv h hp hq
  unfold screenKey at this
  unfold pixelKey
  linarith

/-- **C114 for elements of several vertices, as far as it goes.** If all vertices of an element are nearer than a
plane before the eye, and all those of another are not, the nearer element is drawn later. -/
theorem elements_cover_partial {fovy aspect n f : ℝ} (h0 : 0 < fovy) (h1 : fovy < 180) (ha : 0 < aspect) (hn : 0 < n)
    (hf : n < f) {V : Mat4 ℝ} (hV : Affine V) {us vs ps qs : List V3} (hus : us ≠ []) (hvs : vs ≠ []) (d : ℝ)
    (hu : ∀ u ∈ us, d ≤ eyeDistance V u) (hv : ∀ v ∈ vs, 0 < eyeDistance V v ∧ eyeDistance V v < d)
    (hp : PlacedAt (glmPerspective fovy aspect n f * V) us ps)
    (hq : PlacedAt (glmPerspective fovy aspect n f * V) vs qs) : elementKey ps < elementKey qs := by
  have hc : 0 < 2 * n * f / (f - n) := div_pos (by nlinarith) (by linarith)
  have hd : 0 < d := by
    obtain ⟨v, hv'⟩ := List.exists_mem_of_ne_nil vs hvs
    have := hv v hv'
    linarith
  have a1 : (f + n) / (f - n) - 2 * n * f / (f - n) * (1 / d) ≤ (ps.map V3.z).sum / ps.length := by
    refine sum_ge_of_all_ge (placed_ne_nil hp hus) (fun p hp' => ?_)
    obtain ⟨u, hu', hs⟩ := placed_mem hp hp'
    rw [depth_of_distance h0 h1 ha hn hf hV hs]
    have := mul_le_mul_of_nonneg_left (one_div_le_one_div_of_le hd (hu u hu')) hc.le
    linarith
  have a2 : (qs.map V3.z).sum / qs.length < (f + n) / (f - n) - 2 * n * f / (f - n) * (1 / d) := by
    refine sum_lt_of_all_lt (placed_ne_nil hq hvs) (fun q hq' => ?_)
    obtain ⟨v, hv', hs⟩ := placed_mem hq hq'
    rw [depth_of_distance h0 h1 ha hn hf hV hs]
    have := mul_lt_mul_of_pos_left (one_div_lt_one_div_of_lt (hv v hv').1 (hv v hv').2) hc
    linarith
  unfold elementKey
  linarith

/-- In that case no point of a segment between vertices of the farther element hides one of the nearer element. -/
theorem elements_cover_inside {T V : Mat4 ℝ} {a b c e u v : V3} (d : ℝ) (ha : d ≤ eyeDistance V a)
    (hb : d ≤ eyeDistance V b) (hc : eyeDistance V c < d) (he : eyeDistance V e < d) (hu : OnSegment a b u)
    (hv : OnSegment c e v) : ¬ Hides T V u v := by
  rintro ⟨h, -⟩
  have k : ∀ a b : V3, ∀ t : ℝ, eyeDistance V ⟨a.x + t * (b.x - a.x), a.y + t * (b.y - a.y), a.z + t * (b.z - a.z)⟩ =
      (1 - t) * eyeDistance V a + t * eyeDistance V b := by
    intro a b t
    simp only [eyeDistance, fromEye, mulVec_on]
    ring
  obtain ⟨s, hs0, hs1, rfl⟩ := hu
  obtain ⟨t, ht0, ht1, rfl⟩ := hv
  rw [k, k] at h
  have h1 := mul_le_mul_of_nonneg_left ha (sub_nonneg.mpr hs1)
  have h2 := mul_le_mul_of_nonneg_left hb hs0
  have h3 := mul_le_mul_of_nonneg_left hc.le (sub_nonneg.mpr ht1)
  have h4 := mul_le_mul_of_nonneg_left he.le ht0
  linarith

/-- **C114 fails** for every perspective: of two segments before the eye one hides the other at a place where they
cross, and yet is drawn first, because the mean of its two depths is greater. -/
theorem elements_cover_fails {fovy aspect n f : ℝ} (h0 : 0 < fovy) (h1 : fovy < 180) (ha : 0 < aspect) (hn : 0 < n)
    (hf : n < f) : ∃ a b c e u v p q r s : V3, OnSegment a b u ∧ OnSegment c e v ∧
      Hides (glmPerspective fovy aspect n f) 1 v u ∧
      (∀ x ∈ [a, b, c, e], 0 < eyeDistance 1 x) ∧
      PlacedAt (glmPerspective fovy aspect n f) [a, b] [p, q] ∧
      PlacedAt (glmPerspective fovy aspect n f) [c, e] [r, s] ∧ elementKey [r, s] < elementKey [p, q] := by
  have hA : Affine (1 : Mat4 ℝ) := by simp [Affine]
  have he : ∀ v : V3, fromEye 1 v = v := by intro v; ext <;> simp [fromEye]
  have hd : ∀ v : V3, eyeDistance 1 v = -v.z := by intro v; simp [eyeDistance, he]
  have hs := fun v => screenOf_perspective h0 h1 ha hn hf hA v
  simp only [Matrix.mul_one, he] at hs
  have hk : ∀ v p, screenOf (glmPerspective fovy aspect n f) v = some p →
      p.z = (f + n) / (f - n) - 2 * n * f / (f - n) * (1 / -v.z) := by
    intro v p hp
    have := depth_of_distance h0 h1 ha hn hf hA (v := v) (p := p) (by rw [Matrix.mul_one]; exact hp)
    rwa [hd] at this
  have hpl : ∀ v : V3, v.z ≠ 0 → ∃ p, screenOf (glmPerspective fovy aspect n f) v = some p := by
    intro v hv
    rw [hs, if_neg hv]
    exact ⟨_, rfl⟩
  obtain ⟨p, hp⟩ := hpl ⟨-1, 0, -2⟩ (by norm_num)
  obtain ⟨q, hq⟩ := hpl ⟨1, 0, -2⟩ (by norm_num)
  obtain ⟨r, hr⟩ := hpl ⟨0, -1, -(5 / 4)⟩ (by norm_num)
  obtain ⟨s, hs'⟩ := hpl ⟨0, 34, -10⟩ (by norm_num)
  refine ⟨⟨-1, 0, -2⟩, ⟨1, 0, -2⟩, ⟨0, -1, -(5 / 4)⟩, ⟨0, 34, -10⟩, ⟨0, 0, -2⟩, ⟨0, 0, -(3 / 2)⟩, p, q, r, s,
    ⟨1 / 2, by norm_num, by norm_num, by ext <;> norm_num⟩, ⟨1 / 35, by norm_num, by norm_num, by ext <;> norm_num⟩,
    ⟨by rw [hd, hd]; norm_num, ?_⟩, ?_, .cons hp (.cons hq .nil), .cons hr (.cons hs' .nil), ?_⟩
  · rw [hs, hs, if_neg (by norm_num), if_neg (by norm_num)]
    exact ⟨_, _, rfl, rfl, by simp, by simp⟩
  · intro x hx
    simp only [List.mem_cons, List.not_mem_nil, or_false] at hx
    rw [hd]
    rcases hx with rfl | rfl | rfl | rfl <;> norm_num
  · have hc : 0 < 2 * n * f / (f - n) := div_pos (by nlinarith) (by linarith)
    simp only [elementKey, List.map_cons, List.map_nil, List.sum_cons, List.sum_nil, List.length_cons, List.length_nil]
    rw [hk _ _ hp, hk _ _ hq, hk _ _ hr, hk _ _ hs']
    norm_num
    linarith

/-- Two segments, of which one is nearer than 3. -/
example : (∀ u ∈ ([⟨-1, 0, -3⟩, ⟨1, 0, -4⟩] : List V3), 3 ≤ eyeDistance 1 u) ∧
    (∀ v ∈ ([⟨0, -1, -2⟩, ⟨0, 1, -1⟩] : List V3), 0 < eyeDistance 1 v ∧ eyeDistance 1 v < 3) := by
  simp [eyeDistance, fromEye]
  norm_num

/-- Two points at the same place, at distances 2 and 4. -/
example : Hides !![1, 0, 0, 0; 0, 1, 0, 0; 0, 0, 1, 0; 0, 0, -1, 0] 1 ⟨1, 1, -2⟩ ⟨2, 2, -4⟩ := by
  refine ⟨by simp [eyeDistance, fromEye]; norm_num, ⟨1 / 2, 1 / 2, -1⟩, ⟨1 / 2, 1 / 2, -1⟩, ?_, ?_, rfl, rfl⟩
  · simp [screenOf]
    norm_num
  · simp [screenOf]

end Verif
