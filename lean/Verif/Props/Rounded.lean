import Verif.Model.Rounded
import Verif.Lemmas.Rounded
/-
C102: what rounding can and cannot do to colormaps and to the zoom of a camera.
-/

namespace Verif

variable {fl : ℚ → ℚ} {u : ℚ}

/-- **C102.** However floats are rounded, values between the bounds are normalised to numbers between 0 and
1, the bounds to 0 and 1 themselves, and larger values to numbers that are not smaller. -/
theorem normalised_rounded (h : Rounds fl u) (a b : ℚ) (hab : 0 < fl (b - a)) :
    (∀ x, a ≤ x → x ≤ b → 0 ≤ normRounded fl a b x ∧ normRounded fl a b x ≤ 1) ∧
    normRounded fl a b a = 0 ∧ normRounded fl a b b = 1 ∧ Monotone (normRounded fl a b) := by
  have hm : Monotone (normRounded fl a b) := fun x y hxy =>
    h.mono ((div_le_div_iff_of_pos_right hab).mpr (h.mono (by linarith)))
  have h0 : normRounded fl a b a = 0 := by simp [normRounded, h.zero]
  have h1 : normRounded fl a b b = 1 := by rw [normRounded, div_self hab.ne', h.one]
  refine ⟨fun x hx hx' => ⟨?_, ?_⟩, h0, h1, hm⟩
  · rw [← h0]; exact hm hx
  · rw [← h1]; exact hm hx'

/-- The thirds of a range, with 52 bits. -/
example : normRounded (chop 52) 0 3 1 ≠ 1 / 3 ∧ 0 < chop 52 (3 - 0) ∧
    normRounded (chop 52) 0 3 3 = 1 := by
  decide +kernel

theorem scroll_bounds (h : Rounds fl u) {c : ZoomView} (h1 : fl (1 / 10) ≤ c.zoom) (h2 : c.zoom ≤ 5)
    (h3 : fl c.zoom = c.zoom) (b : String) :
    let c' := c.scroll fl b
    fl (1 / 10) ≤ c'.zoom ∧ c'.zoom ≤ 5 ∧ fl c'.zoom = c'.zoom ∧ c'.xlim = c'.zoom ∧
      (b = "up" → c'.zoom ≤ c.zoom) ∧ (b = "down" → c.zoom ≤ c'.zoom) := by
  have hp : 0 ≤ fl (1 / 10) := by rw [← h.zero]; exact h.mono (by norm_num)
  have h9 : fl (9 / 10) ≤ 1 := by rw [← h.one]; exact h.mono (by norm_num)
  have h11 : 1 ≤ fl (11 / 10) := by rw [← h.one]; exact h.mono (by norm_num)
  have hz : 0 ≤ c.zoom := hp.trans h1
  have hup : fl (fl (9 / 10) * c.zoom) ≤ c.zoom := by
    conv_rhs => rw [← h3]
    exact h.mono (by nlinarith)
  have hdown : c.zoom ≤ fl (fl (11 / 10) * c.zoom) := by
    conv_lhs => rw [← h3]
    exact h.mono (by nlinarith)
  simp only [ZoomView.scroll, ZoomView.limits]
  by_cases hb : b = "up"
  · simp only [hb, if_true]
    refine ⟨le_max_right _ _, max_le (hup.trans h2) (h1.trans h2), ?_, trivial, fun _ => max_le hup h1,
      fun h => absurd h (by decide)⟩
    rcases max_cases (fl (fl (9 / 10) * c.zoom)) (fl (1 / 10)) with ⟨e, -⟩ | ⟨e, -⟩ <;> rw [e, h.idem]
  · by_cases hd : b = "down"
    · simp only [hd, if_neg (show ¬ "down" = "up" by decide), if_true]
      refine ⟨le_min (h1.trans hdown) (h1.trans h2), min_le_right _ _, ?_, trivial,
        fun h => absurd h (by decide), fun _ => le_min hdown h2⟩
      rcases min_cases (fl (fl (11 / 10) * c.zoom)) 5 with ⟨e, -⟩ | ⟨e, -⟩ <;> rw [e]
      · rw [h.idem]
      · exact h.five
    · simp only [if_neg hb, if_neg hd]
      exact ⟨h1, h2, h3, trivial, fun e => absurd e hb, fun e => absurd e hd⟩

/-- **C102.** However floats are rounded, and however often the wheel is turned, the zoom stays between 0.1
and 5, and it is the limit of the axes; turned up, the wheel never shows more, and turned down never less. -/
theorem zoom_rounded (h : Rounds fl u) (c : ZoomView) (h1 : fl (1 / 10) ≤ c.zoom) (h2 : c.zoom ≤ 5)
    (h3 : fl c.zoom = c.zoom) (bs : List String) :
    let c' := c.run fl bs
    fl (1 / 10) ≤ c'.zoom ∧ c'.zoom ≤ 5 ∧ c'.xlim = c'.zoom ∧
      (c'.scroll fl "up").zoom ≤ c'.zoom ∧ c'.zoom ≤ (c'.scroll fl "down").zoom := by
  have key : ∀ (bs : List String) (d : ZoomView), fl (1 / 10) ≤ d.zoom → d.zoom ≤ 5 →
      fl d.zoom = d.zoom → d.xlim = d.zoom →
      let c' := bs.foldl (ZoomView.scroll fl) d
      fl (1 / 10) ≤ c'.zoom ∧ c'.zoom ≤ 5 ∧ fl c'.zoom = c'.zoom ∧ c'.xlim = c'.zoom := by
    intro bs
    induction bs with
    | nil => intro d a b e f; exact ⟨a, b, e, f⟩
    | cons x xs ih =>
      intro d a b e _
      obtain ⟨p, q, r, s, -⟩ := scroll_bounds h a b e x
      exact ih _ p q r s
  obtain ⟨p, q, r, s⟩ := key bs (c.limits fl) h1 h2 h3 rfl
  exact ⟨p, q, s, (scroll_bounds h p q r "up").2.2.2.2.1 rfl, (scroll_bounds h p q r "down").2.2.2.2.2 rfl⟩

/-- Down, up, down. -/
example : let c : ZoomView := ⟨1, 1, 1 / 2⟩
    Rounds (chop 52) (1 / 2 ^ 52) ∧ chop 52 (1 / 10) ≤ c.zoom ∧ chop 52 c.zoom = c.zoom ∧
      (c.run (chop 52) ["down", "up", "down"]).zoom ≠ 1 * (11 / 10) * (9 / 10) * (11 / 10) :=
  ⟨chop_rounds 52 (by norm_num), by decide +kernel⟩

/-- **C102.** The wheel never gets stuck: with errors of at most 1 %, turned up it shows less unless the zoom
is 0.1, turned down more unless it is 5, and other buttons do not change the zoom. -/
theorem zoom_moves (h : Rounds fl u) (hu : u ≤ 1 / 100) (c : ZoomView) (hz : 0 < c.zoom) :
    (fl (1 / 10) < c.zoom → (c.scroll fl "up").zoom < c.zoom) ∧
    (c.zoom < 5 → c.zoom < (c.scroll fl "down").zoom) ∧
    ∀ b, b ≠ "up" → b ≠ "down" → (c.scroll fl b).zoom = c.zoom := by
  have hu0 : 0 ≤ u := by
    have := (abs_nonneg _).trans (h.close 1)
    simpa using this
  have n9 : 0 ≤ fl (9 / 10) := by rw [← h.zero]; exact h.mono (by norm_num)
  have n11 : 0 ≤ fl (11 / 10) := by rw [← h.zero]; exact h.mono (by norm_num)
  have b9 := (h.bounds (show (0 : ℚ) ≤ 9 / 10 by norm_num)).2
  have b11 := (h.bounds (show (0 : ℚ) ≤ 11 / 10 by norm_num)).1
  refine ⟨fun hl => ?_, fun hl => ?_, fun b h1 h2 => ?_⟩
  · have e := (h.bounds (mul_nonneg n9 hz.le)).2
    have : fl (9 / 10) ≤ 909 / 1000 := by nlinarith
    have : fl (fl (9 / 10) * c.zoom) < c.zoom := by
      have l : fl (9 / 10) * c.zoom ≤ 909 / 1000 * c.zoom := mul_le_mul_of_nonneg_right this hz.le
      have : (1 + u) * (fl (9 / 10) * c.zoom) ≤ 101 / 100 * (909 / 1000 * c.zoom) :=
        mul_le_mul (by linarith) l (mul_nonneg n9 hz.le) (by norm_num)
      linarith
    simp only [ZoomView.scroll, ZoomView.limits, if_true]
    exact max_lt this hl
  · have e := (h.bounds (mul_nonneg n11 hz.le)).1
    have : 1089 / 1000 ≤ fl (11 / 10) := by nlinarith
    have : c.zoom < fl (fl (11 / 10) * c.zoom) := by
      have l : 1089 / 1000 * c.zoom ≤ fl (11 / 10) * c.zoom := mul_le_mul_of_nonneg_right this hz.le
      have : 99 / 100 * (1089 / 1000 * c.zoom) ≤ (1 - u) * (fl (11 / 10) * c.zoom) :=
        mul_le_mul (by linarith) l (by positivity) (by linarith)
      linarith
    simp only [ZoomView.scroll, ZoomView.limits, if_neg (show ¬ "down" = "up" by decide), if_true]
    exact lt_min this hl
  · simp only [ZoomView.scroll, ZoomView.limits, if_neg h1, if_neg h2]

/-- As with Python's floats rounded towards 0. -/
example : Rounds (chop 52) (1 / 2 ^ 52) ∧ (1 / 2 ^ 52 : ℚ) ≤ 1 / 100 :=
  ⟨chop_rounds 52 (by norm_num), by norm_num⟩

theorem limits_aspect (h : Rounds fl u) (hu : u ≤ 1) {c : ZoomView} (hz : 0 < c.zoom)
    (ha : 0 ≤ c.ylim / c.xlim) :
    let c' := c.limits fl
    (1 - u) ^ 2 * (c.ylim / c.xlim) ≤ c'.ylim / c'.xlim ∧
      c'.ylim / c'.xlim ≤ (1 + u) ^ 2 * (c.ylim / c.xlim) ∧ 0 ≤ c'.ylim / c'.xlim := by
  have hu0 : 0 ≤ u := by
    have := (abs_nonneg _).trans (h.close 1)
    simpa using this
  simp only [ZoomView.limits]
  obtain ⟨a1, a2⟩ := h.bounds ha
  have hf : 0 ≤ fl (c.ylim / c.xlim) := by rw [← h.zero]; exact h.mono ha
  obtain ⟨b1, b2⟩ := h.bounds (mul_nonneg hz.le hf)
  have hnn : 0 ≤ fl (c.zoom * fl (c.ylim / c.xlim)) := by
    rw [← h.zero]; exact h.mono (mul_nonneg hz.le hf)
  refine ⟨?_, ?_, div_nonneg hnn hz.le⟩
  · rw [le_div_iff₀ hz]
    calc (1 - u) ^ 2 * (c.ylim / c.xlim) * c.zoom
        = (1 - u) * (c.zoom * ((1 - u) * (c.ylim / c.xlim))) := by ring
      _ ≤ (1 - u) * (c.zoom * fl (c.ylim / c.xlim)) :=
        mul_le_mul_of_nonneg_left (mul_le_mul_of_nonneg_left a1 hz.le) (by linarith)
      _ ≤ _ := b1
  · rw [div_le_iff₀ hz]
    calc fl (c.zoom * fl (c.ylim / c.xlim)) ≤ (1 + u) * (c.zoom * fl (c.ylim / c.xlim)) := b2
      _ ≤ (1 + u) * (c.zoom * ((1 + u) * (c.ylim / c.xlim))) :=
        mul_le_mul_of_nonneg_left (mul_le_mul_of_nonneg_left a2 hz.le) (by linarith)
      _ = _ := by ring

/-- **C102.** The shape of the view is computed anew from the limits at each turn of the wheel, with two
roundings: after `n` turns it differs from the first by a factor between `(1-u)^(2n+2)` and `(1+u)^(2n+2)`.
-/
theorem aspect_rounded (h : Rounds fl u) (hu : u < 1) (c : ZoomView) (h1 : fl (1 / 10) ≤ c.zoom)
    (h2 : c.zoom ≤ 5) (h3 : fl c.zoom = c.zoom) (ha : 0 ≤ c.ylim / c.xlim) (bs : List String) :
    let c' := c.run fl bs
    (1 - u) ^ (2 * (bs.length + 1)) * (c.ylim / c.xlim) ≤ c'.ylim / c'.xlim ∧
      c'.ylim / c'.xlim ≤ (1 + u) ^ (2 * (bs.length + 1)) * (c.ylim / c.xlim) := by
  have hu0 : 0 ≤ u := by
    have := (abs_nonneg _).trans (h.close 1)
    simpa using this
  have hp : 0 < fl (1 / 10) := by
    have := (h.bounds (x := 1 / 10) (by norm_num)).1
    have : 0 < (1 - u) * (1 / 10) := by apply mul_pos <;> linarith
    linarith
  have key : ∀ (bs : List String) (d : ZoomView), fl (1 / 10) ≤ d.zoom → d.zoom ≤ 5 →
      fl d.zoom = d.zoom → 0 ≤ d.ylim / d.xlim →
      let c' := bs.foldl (ZoomView.scroll fl) d
      (1 - u) ^ (2 * bs.length) * (d.ylim / d.xlim) ≤ c'.ylim / c'.xlim ∧
        c'.ylim / c'.xlim ≤ (1 + u) ^ (2 * bs.length) * (d.ylim / d.xlim) := by
    intro bs
    induction bs with
    | nil => intro d _ _ _ _; simp
    | cons x xs ih =>
      intro d a b e f
      obtain ⟨p, q, r, -⟩ := scroll_bounds h a b e x
      have hz : 0 < (d.scroll fl x).zoom := lt_of_lt_of_le hp p
      have hl := limits_aspect (c := ⟨(d.scroll fl x).zoom, d.xlim, d.ylim⟩) h hu.le hz f
      change _ ≤ (d.scroll fl x).ylim / (d.scroll fl x).xlim ∧
        (d.scroll fl x).ylim / (d.scroll fl x).xlim ≤ _ ∧
        0 ≤ (d.scroll fl x).ylim / (d.scroll fl x).xlim at hl
      obtain ⟨l1, l2, l3⟩ := hl
      obtain ⟨i1, i2⟩ := ih _ p q r l3
      have e2 : 2 * (x :: xs).length = 2 * xs.length + 2 := by simp; ring
      rw [e2, pow_add, pow_add]
      refine ⟨le_trans ?_ i1, le_trans i2 ?_⟩
      · rw [mul_assoc]
        exact mul_le_mul_of_nonneg_left l1 (pow_nonneg (by linarith) _)
      · rw [mul_assoc]
        exact mul_le_mul_of_nonneg_left l2 (pow_nonneg (by linarith) _)
  obtain ⟨l1, l2, l3⟩ := limits_aspect h hu.le (lt_of_lt_of_le hp h1) ha
  obtain ⟨i1, i2⟩ := key bs (c.limits fl) h1 h2 h3 l3
  have e2 : 2 * (bs.length + 1) = 2 * bs.length + 2 := by ring
  rw [e2, pow_add, pow_add]
  refine ⟨le_trans ?_ i1, le_trans i2 ?_⟩
  · rw [mul_assoc]
    exact mul_le_mul_of_nonneg_left l1 (pow_nonneg (by linarith) _)
  · rw [mul_assoc]
    exact mul_le_mul_of_nonneg_left l2 (pow_nonneg (by linarith) _)

/-- A view three times as wide as it is high, turned down twice. -/
example : let c : ZoomView := ⟨1, 3, 1⟩
    chop 52 (1 / 10) ≤ c.zoom ∧ chop 52 c.zoom = c.zoom ∧ 0 ≤ c.ylim / c.xlim ∧
      (c.run (chop 52) ["down", "down"]).ylim ≠ 0 := by
  decide +kernel

/-- C102 fails for the shape of the view: it is not kept, but drifts away with the turns of the wheel. -/
theorem aspect_kept_fails :
    ∃ (c : ZoomView) (bs bs' : List String), Rounds (chop 52) (1 / 2 ^ 52) ∧
      chop 52 (1 / 10) ≤ c.zoom ∧ c.zoom ≤ 5 ∧ chop 52 c.zoom = c.zoom ∧ bs <+: bs' ∧
      (c.run (chop 52) bs').ylim / (c.run (chop 52) bs').xlim <
        (c.run (chop 52) bs).ylim / (c.run (chop 52) bs).xlim ∧
      (c.run (chop 52) bs).ylim / (c.run (chop 52) bs).xlim < c.ylim / c.xlim :=
  ⟨⟨1, 3, 1⟩, ["down"], ["down", "down", "down", "down"], chop_rounds 52 (by norm_num), by decide +kernel⟩

end Verif
