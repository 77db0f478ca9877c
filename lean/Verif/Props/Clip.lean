import Verif.Lemmas.Clip
/-
C112: what lies outside the view volume is not drawn.
C113: a segment is drawn where its points are seen.
-/

namespace Verif

open Matrix

/-! ### C112 -/

/-- Exactly what a perspective shows: everything within the pyramid of the window and within its mirror image behind
the eye, at any distance. -/
theorem shown_iff {fovy aspect n f : ℝ} (h0 : 0 < fovy) (h1 : fovy < 180) (ha : 0 < aspect) (hn : 0 < n) (hf : n < f)
    {V : Mat4 ℝ} (hV : Affine V) (v : V3) :
    pointShown (glmPerspective fovy aspect n f * V) v ↔
      (fromEye V v).z ≠ 0 ∧ |(fromEye V v).x| ≤ |(fromEye V v).z| * (aspect * Real.tan (fovy / 2 * (Real.pi / 180))) ∧
        |(fromEye V v).y| ≤ |(fromEye V v).z| * Real.tan (fovy / 2 * (Real.pi / 180)) := by
  have ht := half_tan_pos h0 h1
  unfold pointShown
  rw [screenOf_perspective h0 h1 ha hn hf hV v]
  by_cases hz : (fromEye V v).z = 0
  · simp [hz]
  · rw [if_neg hz]
    simp only [Option.some.injEq, exists_eq_left', windowShows]
    rw [← and_assoc, quotient_in_window (mul_pos ha ht) hz, quotient_in_window ht hz]
    exact ⟨fun h => ⟨hz, h⟩, fun h => h.2⟩

/-- **C112, for what lies between the planes.** Of the points between the near and the far plane, those in the
volume of the perspective are shown and no others. -/
theorem shown_volume_partial {fovy aspect n f : ℝ} (h0 : 0 < fovy) (h1 : fovy < 180) (ha : 0 < aspect) (hn : 0 < n)
    (hf : n < f) {V : Mat4 ℝ} (hV : Affine V) (v : V3) (hv : BetweenPlanes n f (fromEye V v)) :
    pointShown (glmPerspective fovy aspect n f * V) v ↔ InVolume fovy aspect n f (fromEye V v) := by
  rw [shown_iff h0 h1 ha hn hf hV v]
  have hz : (fromEye V v).z < 0 := by linarith [hv.1]
  rw [abs_of_neg hz]
  exact ⟨fun h => ⟨h.2.1, h.2.2, hv⟩, fun h => ⟨hz.ne, h.1, h.2.1⟩⟩

/-- **C112 for the cameras of the examples.** Whatever the events, and for every scene around the origin that lies
between the planes at all times, the camera shows the points in its volume and no others. -/
theorem camera_shows_volume (theta phi zoom zdist scale xlim ylim : ℝ) (es : List CamEvent) (R : ℝ) (hR : 0 ≤ R)
    (hs : 0 ≤ scale) (hn : 1 ≤ zdist - scale * R) (hf : zdist + scale * R ≤ 100) (v : V3)
    (hv : v.x ^ 2 + v.y ^ 2 + v.z ^ 2 ≤ R ^ 2) :
    let c := camRun (camInit false theta phi zoom zdist scale xlim ylim) es
    pointShown (c.proj * c.view * c.model) v ↔ InVolume 35 1 1 100 (fromEye (c.view * c.model) v) := by
  intro c
  obtain ⟨hp, hA, hb⟩ := camera_between theta phi zoom zdist scale xlim ylim es R hR hs hn hf v hv
  rw [Matrix.mul_assoc, hp]
  exact shown_volume_partial (by norm_num) (by norm_num) (by norm_num) (by norm_num) (by norm_num) hA v hb

/-- The zoom of the camera widens what is shown by its factor: with the limits of the axes at any moment, the points
shown are those in the volume whose window is as much larger. -/
theorem camera_zoom_shows (theta phi zoom zdist scale xlim ylim : ℝ) (es : List CamEvent) (R : ℝ) (hR : 0 ≤ R)
    (hs : 0 ≤ scale) (hn : 1 ≤ zdist - scale * R) (hf : zdist + scale * R ≤ 100) (v : V3)
    (hv : v.x ^ 2 + v.y ^ 2 + v.z ^ 2 ≤ R ^ 2) :
    let c := camRun (camInit false theta phi zoom zdist scale xlim ylim) es
    let p := fromEye (c.view * c.model) v
    pointWithin (c.proj * c.view * c.model) c.xlim c.ylim v ↔
      |p.x| ≤ c.xlim * (-p.z * Real.tan (35 / 2 * (Real.pi / 180))) ∧
        |p.y| ≤ c.ylim * (-p.z * Real.tan (35 / 2 * (Real.pi / 180))) := by
  intro c p
  obtain ⟨hp, hA, hb⟩ := camera_between theta phi zoom zdist scale xlim ylim es R hR hs hn hf v hv
  have ht : 0 < Real.tan (35 / 2 * (Real.pi / 180)) := half_tan_pos (by norm_num) (by norm_num)
  have hz : p.z < 0 := by
    have := hb.1
    change 1 ≤ -p.z at this
    linarith
  have k : ∀ x l : ℝ, |x / Real.tan (35 / 2 * (Real.pi / 180)) / -p.z| ≤ l ↔
      |x| ≤ l * (-p.z * Real.tan (35 / 2 * (Real.pi / 180))) := by
    intro x l
    have hz' : 0 < -p.z := by linarith
    rw [abs_div, abs_div, abs_of_pos hz', abs_of_pos ht, div_le_iff₀ hz', div_le_iff₀ ht, mul_assoc]
  unfold pointWithin
  rw [Matrix.mul_assoc, hp,
    screenOf_perspective (by norm_num) (by norm_num) (by norm_num) (by norm_num) (by norm_num) hA v, if_neg hz.ne]
  simp only [Option.some.injEq, exists_eq_left', one_mul]
  rw [k, k]

/-- The default camera, and the cube from -1 to 1. -/
example : (0 : ℝ) ≤ 7 / 4 ∧ (0 : ℝ) ≤ 1 ∧ (1 : ℝ) ≤ 5 - 1 * (7 / 4) ∧ (5 : ℝ) + 1 * (7 / 4) ≤ 100 ∧
    (1 : ℝ) ^ 2 + 1 ^ 2 + 1 ^ 2 ≤ (7 / 4) ^ 2 := by norm_num

/-- What lies behind the eye is shown where its mirror image would be. -/
theorem behind_mirrored {fovy aspect n f : ℝ} (h0 : 0 < fovy) (h1 : fovy < 180) (ha : 0 < aspect) (hn : 0 < n)
    (hf : n < f) {V : Mat4 ℝ} (hV : Affine V) {u v : V3} (hu : (fromEye V u).z ≠ 0)
    (h : fromEye V v = V3.smul (-1) (fromEye V u)) :
    ∃ p q, screenOf (glmPerspective fovy aspect n f * V) u = some p ∧
      screenOf (glmPerspective fovy aspect n f * V) v = some q ∧ q.x = p.x ∧ q.y = p.y := by
  have hz : (fromEye V v).z ≠ 0 := by rw [h]; simpa [V3.smul] using hu
  rw [screenOf_perspective h0 h1 ha hn hf hV u, screenOf_perspective h0 h1 ha hn hf hV v, if_neg hu, if_neg hz]
  refine ⟨_, _, rfl, rfl, ?_, ?_⟩
  all_goals
    simp only [h, V3.smul]
    ring

/-- Two such points, 2 before and behind an eye at the origin. -/
example : Affine 1 ∧ (fromEye 1 ⟨1, 0, -2⟩).z ≠ 0 ∧ fromEye 1 ⟨-1, 0, 2⟩ = V3.smul (-1) (fromEye 1 ⟨1, 0, -2⟩) := by
  refine ⟨by simp [Affine], by simp [fromEye], ?_⟩
  ext <;> simp [fromEye, V3.smul]

/-- Points behind the eye are at least drawn before those in front of it, which therefore cover them. -/
theorem behind_drawn_first {fovy aspect n f : ℝ} (h0 : 0 < fovy) (h1 : fovy < 180) (ha : 0 < aspect) (hn : 0 < n)
    (hf : n < f) {V : Mat4 ℝ} (hV : Affine V) {u v p q : V3} (hu : 0 < (fromEye V u).z) (hv : (fromEye V v).z < 0)
    (hp : screenOf (glmPerspective fovy aspect n f * V) u = some p)
    (hq : screenOf (glmPerspective fovy aspect n f * V) v = some q) : screenKey p < screenKey q := by
  rw [screenOf_perspective h0 h1 ha hn hf hV u, if_neg hu.ne'] at hp
  rw [screenOf_perspective h0 h1 ha hn hf hV v, if_neg hv.ne] at hq
  cases hp
  cases hq
  simp only [screenKey]
  have hfn : 0 < f - n := by linarith
  have e : ∀ z : ℝ, z ≠ 0 → (-(f + n) * z - 2 * n * f) / (f - n) / -z = (f + n) / (f - n) + 2 * n * f / (f - n) / z := by
    intro z hz
    field_simp
    ring
  rw [e _ hu.ne', e _ hv.ne]
  have hc : 0 < 2 * n * f / (f - n) := div_pos (by nlinarith) hfn
  have := div_pos hc hu
  have := div_neg_of_pos_of_neg hc hv
  linarith

example : 0 < (fromEye 1 ⟨-1, 0, 2⟩).z ∧ (fromEye 1 ⟨0, 1, -3⟩).z < 0 := by simp [fromEye]

/-- **C112 fails**, for every perspective: there are points behind the eye, before the near plane and beyond the far
plane that are shown. -/
theorem shown_volume_fails {fovy aspect n f : ℝ} (h0 : 0 < fovy) (h1 : fovy < 180) (ha : 0 < aspect) (hn : 0 < n)
    (hf : n < f) : ∀ d : ℝ, d ≠ 0 → ¬ (n ≤ d ∧ d ≤ f) →
    pointShown (glmPerspective fovy aspect n f) ⟨0, 0, -d⟩ ∧ ¬ InVolume fovy aspect n f ⟨0, 0, -d⟩ := by
  intro d hd hnot
  have hA : Affine (1 : Mat4 ℝ) := by simp [Affine]
  have he : fromEye 1 ⟨0, 0, -d⟩ = ⟨0, 0, -d⟩ := by simp [fromEye]
  have ht := half_tan_pos h0 h1
  have h := shown_iff h0 h1 ha hn hf hA ⟨0, 0, -d⟩
  rw [he, Matrix.mul_one] at h
  refine ⟨h.mpr ⟨by simpa using hd, ?_, ?_⟩, fun hin => hnot ?_⟩
  · simp only [abs_zero]; positivity
  · simp only [abs_zero]; positivity
  · have := hin.2.2
    simp only [BetweenPlanes, neg_neg] at this
    exact this

example : (-3 : ℝ) ≠ 0 ∧ ¬ ((1 : ℝ) ≤ -3 ∧ (-3 : ℝ) ≤ 100) := by norm_num

/-- An orthographic projection around the axis of view shows everything before and behind its window, whatever the
planes are. -/
theorem ortho_shown_iff {r t n f : ℝ} (hr : 0 < r) (ht : 0 < t) {V : Mat4 ℝ} (hV : Affine V) (v : V3) :
    pointShown (glmOrtho (-r) r (-t) t n f * V) v ↔ |(fromEye V v).x| ≤ r ∧ |(fromEye V v).y| ≤ t := by
  have e : (glmOrtho (-r) r (-t) t n f * V) *ᵥ ![v.x, v.y, v.z, 1] =
      ![(fromEye V v).x / r, (fromEye V v).y / t, -2 / (f - n) * (fromEye V v).z + -(f + n) / (f - n), 1] := by
    rw [← Matrix.mulVec_mulVec, affine_mulVec hV]
    unfold glmOrtho transposeIf
    rw [if_neg (by simp), mulVec4]
    ext i
    fin_cases i <;> simp
    · field_simp; norm_num
    · field_simp; norm_num
  have k : ∀ x c : ℝ, 0 < c → ((-1 ≤ x / c ∧ x / c ≤ 1) ↔ |x| ≤ c) := by
    intro x c hc
    rw [← abs_le, abs_div, abs_of_pos hc, div_le_one hc]
  unfold pointShown screenOf
  rw [e]
  simp [windowShows]
  rw [← k _ r hr, ← k _ t ht]
  simp [and_assoc]

/-- A point 7 behind the eye is among them. -/
example : |(fromEye 1 ⟨1 / 2, 0, 7⟩).x| ≤ 1 ∧ |(fromEye 1 ⟨1 / 2, 0, 7⟩).y| ≤ 1 := by
  simp [fromEye, abs_le]
  norm_num

/-- The orthographic camera of the examples shows the points over the square from -1 to 1, at any depth, whatever the
events. -/
theorem camera_ortho_shows (theta phi zoom zdist scale xlim ylim : ℝ) (es : List CamEvent) (v : V3) :
    let c := camRun (camInit true theta phi zoom zdist scale xlim ylim) es
    pointShown (c.proj * c.view * c.model) v ↔ |v.x| ≤ 1 ∧ |v.y| ≤ 1 := by
  intro c
  obtain ⟨hp, hv, hm⟩ : c.proj = glmOrtho (-1) 1 (-1) 1 1 100 ∧ c.view = 1 ∧ c.model = 1 :=
    orthoCam_run theta phi zoom zdist scale xlim ylim es
  have hA : Affine (1 : Mat4 ℝ) := by simp [Affine]
  have he : fromEye 1 v = v := by ext <;> simp [fromEye]
  have h := ortho_shown_iff (n := 1) (f := 100) one_pos one_pos hA v
  rw [he] at h
  rw [Matrix.mul_assoc, hp, hv, hm, Matrix.mul_one]
  exact h

/-! ### C113 -/

/-- **C113, for segments in front of the eye.** The line drawn for a segment goes through the places of its points
and nowhere else, whatever the matrices are. -/
theorem segment_shows_partial (T : Mat4 ℝ) {a b p q : V3} (hp : screenOf T a = some p) (hq : screenOf T b = some q)
    (hab : 0 < ahead T a * ahead T b) (x y : ℝ) :
    lineShows p q x y ↔ ∃ c r, OnSegment a b c ∧ screenOf T c = some r ∧ r.x = x ∧ r.y = y := by
  have hα : ahead T a ≠ 0 := fun h => by simp [h] at hab
  have hβ : ahead T b ≠ 0 := fun h => by simp [h] at hab
  obtain ⟨ex, ey⟩ := screenOf_some hp
  obtain ⟨fx, fy⟩ := screenOf_some hq
  constructor
  · rintro ⟨s, hs0, hs1, rfl, rfl⟩
    have hD : (1 - s) * ahead T b + s * ahead T a ≠ 0 := mix_ne_zero (by linarith [mul_comm (ahead T a) (ahead T b)]) hs0 hs1
    have ht := mix_ratio (mul_comm (ahead T a) (ahead T b) ▸ hab) hs0 hs1
    refine ⟨_, _, ⟨s * ahead T a / ((1 - s) * ahead T b + s * ahead T a), ht.1, ht.2, rfl⟩,
      screenOf_on T a b (t := s * ahead T a / ((1 - s) * ahead T b + s * ahead T a)) ?_, ?_, ?_⟩
    · exact mix_ne_zero hab ht.1 ht.2
    · rw [ex, fx]
      exact mix_place hα hβ hD _ _
    · rw [ey, fy]
      exact mix_place hα hβ hD _ _
  · rintro ⟨c, r, ⟨t, ht0, ht1, rfl⟩, hr, rfl, rfl⟩
    have hw := mix_ne_zero hab ht0 ht1
    rw [screenOf_on T a b hw] at hr
    cases hr
    have hs := mix_ratio hab ht0 ht1
    refine ⟨t * ahead T b / ((1 - t) * ahead T a + t * ahead T b), hs.1, hs.2, ?_, ?_⟩
    · rw [ex, fx]
      exact place_mix hα hβ hw _ _
    · rw [ey, fy]
      exact place_mix hα hβ hw _ _

/-- A matrix that divides by the distance, and a segment in front of the eye. -/
example : screenOf !![1, 0, 0, 0; 0, 1, 0, 0; 0, 0, 1, 0; 0, 0, -1, 0] ⟨-1, 0, -1⟩ = some ⟨-1, 0, -1⟩ ∧
    screenOf !![1, 0, 0, 0; 0, 1, 0, 0; 0, 0, 1, 0; 0, 0, -1, 0] ⟨1, 0, -2⟩ = some ⟨1 / 2, 0, -1⟩ ∧
    0 < ahead !![1, 0, 0, 0; 0, 1, 0, 0; 0, 0, 1, 0; 0, 0, -1, 0] ⟨-1, 0, -1⟩ *
      ahead !![1, 0, 0, 0; 0, 1, 0, 0; 0, 0, 1, 0; 0, 0, -1, 0] ⟨1, 0, -2⟩ := by
  simp [screenOf, ahead]

/-- **C113 for the cameras of the examples.** Whatever the events, segments of a scene around the origin that lies
between the planes are drawn where their points are seen. -/
theorem camera_segments (theta phi zoom zdist scale xlim ylim : ℝ) (es : List CamEvent) (R : ℝ) (hR : 0 ≤ R)
    (hs : 0 ≤ scale) (hn : 1 ≤ zdist - scale * R) (hf : zdist + scale * R ≤ 100) (a b : V3)
    (ha : a.x ^ 2 + a.y ^ 2 + a.z ^ 2 ≤ R ^ 2) (hb : b.x ^ 2 + b.y ^ 2 + b.z ^ 2 ≤ R ^ 2) :
    let c := camRun (camInit false theta phi zoom zdist scale xlim ylim) es
    let T := c.proj * c.view * c.model
    ∃ p q, screenOf T a = some p ∧ screenOf T b = some q ∧
      ∀ x y, lineShows p q x y ↔ ∃ v r, OnSegment a b v ∧ screenOf T v = some r ∧ r.x = x ∧ r.y = y := by
  intro c T
  have ka : 0 < ahead T a := camera_ahead theta phi zoom zdist scale xlim ylim es R hR hs hn hf a ha
  have kb : 0 < ahead T b := camera_ahead theta phi zoom zdist scale xlim ylim es R hR hs hn hf b hb
  obtain ⟨p, hpa⟩ := screenOf_ahead ka.ne'
  obtain ⟨q, hqb⟩ := screenOf_ahead kb.ne'
  exact ⟨p, q, hpa, hqb, segment_shows_partial T hpa hqb (mul_pos ka kb)⟩

/-- **C113 fails** for every segment that goes through the plane of the eye: between its ends, no point of it is
seen on the line that is drawn for it. -/
theorem segment_shows_fails (T : Mat4 ℝ) {a b p q : V3} (hp : screenOf T a = some p) (hq : screenOf T b = some q)
    (hab : ahead T a * ahead T b < 0) (hpq : p.x ≠ q.x ∨ p.y ≠ q.y) {c r : V3} (hc : OnSegment a b c) (ha : c ≠ a)
    (hb : c ≠ b) (hr : screenOf T c = some r) : ¬ lineShows p q r.x r.y := by
  have hα : ahead T a ≠ 0 := fun h => by simp [h] at hab
  have hβ : ahead T b ≠ 0 := fun h => by simp [h] at hab
  obtain ⟨ex, ey⟩ := screenOf_some hp
  obtain ⟨fx, fy⟩ := screenOf_some hq
  obtain ⟨t, ht0, ht1, rfl⟩ := hc
  have ht0' : 0 < t := lt_of_le_of_ne ht0 (fun h => ha (by subst h; ext <;> simp))
  have ht1' : t < 1 := lt_of_le_of_ne ht1 (fun h => hb (by subst h; ext <;> simp))
  have hw : (1 - t) * ahead T a + t * ahead T b ≠ 0 := by
    intro h0
    unfold screenOf at hr
    simp only at hr
    rw [if_pos (by rw [← h0]; exact ahead_on T a b t)] at hr
    cases hr
  rw [screenOf_on T a b hw] at hr
  cases hr
  rintro ⟨s, hs0, hs1, hx, hy⟩
  have kx := place_mix hα hβ hw ((T *ᵥ ![a.x, a.y, a.z, 1]) 0) ((T *ᵥ ![b.x, b.y, b.z, 1]) 0)
  have ky := place_mix hα hβ hw ((T *ᵥ ![a.x, a.y, a.z, 1]) 1) ((T *ᵥ ![b.x, b.y, b.z, 1]) 1)
  simp only at hx hy
  rw [kx, ← ex, ← fx] at hx
  rw [ky, ← ey, ← fy] at hy
  have hs : t * ahead T b / ((1 - t) * ahead T a + t * ahead T b) = s := by
    rcases hpq with h | h
    · have := add_left_cancel hx
      exact mul_right_cancel₀ (sub_ne_zero.mpr (Ne.symm h)) this
    · have := add_left_cancel hy
      exact mul_right_cancel₀ (sub_ne_zero.mpr (Ne.symm h)) this
  exact mix_outside hab ht0' ht1' hw (hs ▸ hs0) (hs ▸ hs1)

/-- A segment from 1 before the eye to 1 behind it is drawn from (0, 0) to (-1, 0), while a point of it is seen at
(1/2, 0). -/
example : screenOf !![1, 0, 0, 0; 0, 1, 0, 0; 0, 0, 1, 0; 0, 0, -1, 0] ⟨0, 0, -1⟩ = some ⟨0, 0, -1⟩ ∧
    screenOf !![1, 0, 0, 0; 0, 1, 0, 0; 0, 0, 1, 0; 0, 0, -1, 0] ⟨1, 0, 1⟩ = some ⟨-1, 0, -1⟩ ∧
    ahead !![1, 0, 0, 0; 0, 1, 0, 0; 0, 0, 1, 0; 0, 0, -1, 0] ⟨0, 0, -1⟩ *
      ahead !![1, 0, 0, 0; 0, 1, 0, 0; 0, 0, 1, 0; 0, 0, -1, 0] ⟨1, 0, 1⟩ < 0 ∧
    OnSegment ⟨0, 0, -1⟩ ⟨1, 0, 1⟩ ⟨1 / 4, 0, -1 / 2⟩ ∧
    screenOf !![1, 0, 0, 0; 0, 1, 0, 0; 0, 0, 1, 0; 0, 0, -1, 0] ⟨1 / 4, 0, -1 / 2⟩ = some ⟨1 / 2, 0, -1⟩ := by
  refine ⟨by simp [screenOf], by simp [screenOf], by simp [ahead],
    ⟨1 / 4, by norm_num, by norm_num, ?_⟩, ?_⟩
  · ext <;> norm_num
  · simp [screenOf]
    norm_num

end Verif
