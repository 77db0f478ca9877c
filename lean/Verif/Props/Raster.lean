import Verif.Lemmas.Raster
/-
C88: the image of a canvas has the size and the picture of the canvas.
-/

namespace Verif

/-- A canvas given in pixels is made with these sizes. -/
theorem canvas_made {rnd : ℚ → ℚ} (hr : Nearest64 rnd) {w h : ℕ} (hw : 0 < w) (hh : 0 < h) {dpi : ℚ}
    (hd : 0 < dpi) : ∃ c, MplCanvas.make rnd (.int w) (.int h) dpi = .ok c ∧
      c.width = .int w ∧ c.height = .int h ∧ c.dpi = dpi ∧
      c.inches = (rnd (w / dpi), rnd (h / dpi)) := by
  have key : ∀ n : ℕ, 0 < n → 0 ≤ rnd ((n : ℚ) / dpi) := by
    intro n hn
    have hq : (0 : ℚ) < n / dpi := div_pos (by exact_mod_cast hn) hd
    have h1 := abs_le.1 (nearest_relative hr hq)
    have h2 : (n : ℚ) / dpi / 2 ^ 53 ≤ n / dpi := div_le_self hq.le (by norm_num)
    linarith [h1.1]
  refine ⟨⟨.int w, .int h, dpi, (rnd (w / dpi), rnd (h / dpi))⟩, ?_, rfl, rfl, rfl, rfl⟩
  have h1 := key w hw
  have h2 := key h hh
  simp only [MplCanvas.make, CanvasLen.value, Int.cast_natCast]
  rw [if_neg (by simp [not_lt.2 h1, not_lt.2 h2])]

/-- **C88.** A canvas is made exactly when its width and its height are not negative; otherwise
`ValueError` is raised. -/
theorem canvas_made_iff {rnd : ℚ → ℚ} (hr : Nearest64 rnd) (ho : ∀ q, rnd (-q) = -rnd q)
    (width height : CanvasLen) {dpi : ℚ} (hd : 0 < dpi) :
    ((∃ c, MplCanvas.make rnd width height dpi = .ok c) ↔ 0 ≤ width.value ∧ 0 ≤ height.value) ∧
    (MplCanvas.make rnd width height dpi = .error .valueError ↔
      ¬ (0 ≤ width.value ∧ 0 ≤ height.value)) := by
  have h0 : rnd 0 = 0 := by have := ho 0; rw [neg_zero] at this; linarith
  have hpos : ∀ q, 0 < q → 0 < rnd q := by
    intro q hq
    have h1 := abs_le.1 (nearest_relative hr hq)
    have h2 : q / 2 ^ 53 < q := div_lt_self hq (by norm_num)
    linarith [h1.1]
  have key : ∀ q, rnd (q / dpi) < 0 ↔ q < 0 := by
    intro q
    rcases lt_trichotomy q 0 with h | h | h
    · have := hpos (-(q / dpi)) (by rw [← neg_div]; exact div_pos (by linarith) hd)
      rw [ho] at this
      exact ⟨fun _ => h, fun _ => by linarith⟩
    · subst h; simp [h0]
    · have := hpos (q / dpi) (div_pos h hd)
      exact ⟨fun h' => by linarith, fun h' => by linarith⟩
  by_cases hn : width.value < 0 ∨ height.value < 0
  · have : MplCanvas.make rnd width height dpi = .error .valueError := by
      simp only [MplCanvas.make]
      rw [if_pos (by simpa only [key] using hn)]
    have hn' : ¬ (0 ≤ width.value ∧ 0 ≤ height.value) := by
      rintro ⟨a, b⟩
      rcases hn with h | h <;> linarith
    simp [this, hn']
  · have : ∃ c, MplCanvas.make rnd width height dpi = .ok c := by
      simp only [MplCanvas.make]
      rw [if_neg (by simpa only [key] using hn)]
      exact ⟨_, rfl⟩
    obtain ⟨c, hc⟩ := this
    rw [not_or, not_lt, not_lt] at hn
    simp [hc, hn.1, hn.2]

/-- A canvas given as a measure of minus one pixel is refused. -/
example {rnd : ℚ → ℚ} (hr : Nearest64 rnd) (ho : ∀ q, rnd (-q) = -rnd q) :
    MplCanvas.make rnd (.float (-1)) (.int 100) 100 = .error .valueError :=
  (canvas_made_iff hr ho _ _ (by norm_num)).2.2 (by simp [CanvasLen.value])

/-- `rnd (rnd (w / dpi) * dpi)` is close to `w`. -/
theorem pixels_near {rnd : ℚ → ℚ} (hr : Nearest64 rnd) {w : ℕ} (hw : 0 < w) (hw2 : w < 2 ^ 51) {dpi : ℚ}
    (hd : 0 < dpi) : ⌊rnd (rnd (w / dpi) * dpi)⌋.toNat = w ∨
      ⌊rnd (rnd (w / dpi) * dpi)⌋.toNat + 1 = w := by
  have hwq : (0 : ℚ) < w := by exact_mod_cast hw
  have hw2q : (w : ℚ) < 2 ^ 51 := by exact_mod_cast hw2
  have hq : (0 : ℚ) < w / dpi := div_pos hwq hd
  have h1 := abs_le.1 (nearest_relative hr hq)
  have hx : (w : ℚ) / dpi * dpi = w := by field_simp
  set x := rnd (w / dpi) with hxdef
  have ha : x * dpi - w ≤ w / 2 ^ 53 := by
    have := mul_le_mul_of_nonneg_right h1.2 hd.le
    have e1 : (x - w / dpi) * dpi = x * dpi - w := by rw [sub_mul, hx]
    have e2 : (w : ℚ) / dpi / 2 ^ 53 * dpi = w / 2 ^ 53 := by field_simp
    rwa [e1, e2] at this
  have hb : -(w / 2 ^ 53) ≤ x * dpi - w := by
    have := mul_le_mul_of_nonneg_right h1.1 hd.le
    have e1 : (x - w / dpi) * dpi = x * dpi - w := by rw [sub_mul, hx]
    have e2 : -((w : ℚ) / dpi / 2 ^ 53) * dpi = -(w / 2 ^ 53) := by field_simp
    rwa [e1, e2] at this
  have hs : (w : ℚ) / 2 ^ 53 < 1 / 4 := by
    rw [div_lt_iff₀ (by norm_num)]
    norm_num at hw2q ⊢
    linarith
  have hs0 : (0 : ℚ) < w / 2 ^ 53 := by positivity
  have h1w : (1 : ℚ) ≤ w := by exact_mod_cast hw
  have hy : 0 < x * dpi := by linarith
  have h2 := abs_le.1 (nearest_relative hr hy)
  have hy2 : x * dpi / 2 ^ 53 < 1 / 2 := by
    have : x * dpi / 2 ^ 53 ≤ (w + 1) / 2 ^ 53 := by
      apply div_le_div_of_nonneg_right _ (by norm_num)
      linarith
    have h3 : ((w : ℚ) + 1) / 2 ^ 53 = w / 2 ^ 53 + 1 / 2 ^ 53 := by ring
    have h4 : (1 : ℚ) / 2 ^ 53 < 1 / 4 := by norm_num
    linarith
  set z := rnd (x * dpi) with hz
  have hz1 : z < w + 1 := by linarith
  have hz2 : (w : ℚ) - 1 ≤ z := by linarith
  have f1 : ⌊z⌋ < w + 1 := by
    rw [Int.floor_lt]
    push_cast
    exact hz1
  have f2 : (w : ℤ) - 1 ≤ ⌊z⌋ := by
    rw [Int.le_floor]
    push_cast
    exact hz2
  omega

/-- **C88.** The picture Matplotlib draws has the columns and the rows of the canvas, or one less: the
size goes through inches, and what is left of a pixel is dropped. -/
theorem canvas_image_near {rnd : ℚ → ℚ} (hr : Nearest64 rnd) {w h : ℕ} (hw : 0 < w) (hw2 : w < 2 ^ 51)
    (hh : 0 < h) (hh2 : h < 2 ^ 51) {dpi : ℚ} (hd : 0 < dpi) {c : MplCanvas}
    (hc : MplCanvas.make rnd (.int w) (.int h) dpi = .ok c) :
    ((c.pixels rnd).1 = w ∨ (c.pixels rnd).1 + 1 = w) ∧
    ((c.pixels rnd).2 = h ∨ (c.pixels rnd).2 + 1 = h) := by
  obtain ⟨c', h1, _, _, h4, h5⟩ := canvas_made hr hw hh hd
  rw [h1] at hc
  cases hc
  simp only [MplCanvas.pixels, h4, h5]
  exact ⟨pixels_near hr hw hw2 hd, pixels_near hr hh hh2 hd⟩

/-- Which image a canvas of `w` columns and `h` rows gives when Matplotlib draws a picture of `W`
columns and `H` rows. -/
theorem image_of_pixels (rnd : ℚ → ℚ) (draw : Nat → Nat → Nat → Nat → Nat → Nat) {c : MplCanvas} {w h W H : ℕ}
    (hw : 0 < w) (hh : 0 < h) (hcw : c.width = .int w) (hch : c.height = .int h)
    (hp : c.pixels rnd = (W, H)) :
    c.image rnd draw = if h * w ∣ H * W * 4 then
        .ok ⟨h, w, H * W * 4 / (h * w), rawBytes draw W H⟩ else .error .valueError := by
  have h1 : ¬ ((h : ℤ) ≤ 0 ∨ (w : ℤ) ≤ 0) := by omega
  simp only [MplCanvas.image, hcw, hch, hp, if_neg h1, rawBytes_length, Int.toNat_natCast,
    Nat.dvd_iff_mod_eq_zero]
  by_cases hd : H * W * 4 % (h * w) = 0
  · simp [hd]
  · simp [hd]

/-- **C88.** When the picture has the size of the canvas, the image is this picture: a row for each row,
a pixel for each column, and the four bytes of each pixel. -/
theorem canvas_image_partial (rnd : ℚ → ℚ) (draw : Nat → Nat → Nat → Nat → Nat → Nat) {c : MplCanvas}
    {w h : ℕ} (hw : 0 < w) (hh : 0 < h) (hcw : c.width = .int w) (hch : c.height = .int h)
    (hp : c.pixels rnd = (w, h)) : ∃ a, c.image rnd draw = .ok a ∧ IsPicture draw w h a := by
  have hpos : 0 < h * w := Nat.mul_pos hh hw
  rw [image_of_pixels rnd draw hw hh hcw hch hp, if_pos (Nat.dvd_mul_right _ _)]
  refine ⟨_, rfl, rfl, rfl, Nat.mul_div_cancel_left 4 hpos, fun i hi j hj k hk => ?_⟩
  have hn : i * w + j < h * w := by
    calc i * w + j < i * w + w := by omega
      _ = (i + 1) * w := by ring
      _ ≤ h * w := Nat.mul_le_mul_right w hi
  have := rawBytes_item draw w h (i * w + j) k hn hk
  simp only [PixArray.item, Nat.mul_div_cancel_left 4 hpos]
  rw [this]
  have e1 : (i * w + j) / w = i := by
    rw [Nat.mul_comm, Nat.mul_add_div hw, Nat.div_eq_of_lt hj, Nat.add_zero]
  have e2 : (i * w + j) % w = j := by
    rw [Nat.mul_comm, Nat.mul_add_mod, Nat.mod_eq_of_lt hj]
  rw [e1, e2]

/-- **C88.** At a resolution that is a power of two nothing is lost: a canvas of any size gives its
picture. -/
theorem canvas_image_binary_partial {rnd : ℚ → ℚ} (hr : Nearest64 rnd)
    (draw : Nat → Nat → Nat → Nat → Nat → Nat) {w h : ℕ} (hw : 0 < w) (hw2 : w < 2 ^ 53) (hh : 0 < h)
    (hh2 : h < 2 ^ 53) (n : ℕ) : ∃ c a, MplCanvas.make rnd (.int w) (.int h) (2 ^ n) = .ok c ∧
      c.image rnd draw = .ok a ∧ IsPicture draw w h a := by
  obtain ⟨c, h1, h2, h3, h4, h5⟩ := canvas_made hr hw hh (dpi := 2 ^ n) (by positivity)
  have key : ∀ m : ℕ, 0 < m → m < 2 ^ 53 → ⌊rnd (rnd ((m : ℚ) / 2 ^ n) * 2 ^ n)⌋.toNat = m := by
    intro m hm hm2
    have e1 : (m : ℚ) / 2 ^ n = m * 2 ^ (-(n : ℤ)) := by
      rw [zpow_neg, zpow_natCast, div_eq_mul_inv]
    have e2 : (m : ℚ) = m * 2 ^ (0 : ℤ) := by simp
    have e3 : (m : ℚ) / 2 ^ n * 2 ^ n = m := by field_simp
    have e4 : rnd ((m : ℚ) / 2 ^ n) = m / 2 ^ n := by
      rw [e1]
      exact nearest_exact hr hm hm2 _
    have e5 : rnd (m : ℚ) = m := by
      have := nearest_exact hr hm hm2 0
      rwa [← e2] at this
    rw [e4, e3, e5]
    simp
  have hp : c.pixels rnd = (w, h) := by
    simp only [MplCanvas.pixels, h4, h5, key w hw hw2, key h hh hh2]
  obtain ⟨a, ha, hpic⟩ := canvas_image_partial rnd draw hw hh h2 h3 hp
  exact ⟨c, a, h1, ha, hpic⟩

/-- The picture of a canvas of 29 × 29 pixels at 100 dots per inch has 28 × 28 pixels. -/
theorem pixels_29 {rnd : ℚ → ℚ} (hr : Nearest64 rnd) :
    ⌊rnd (rnd ((29 : ℕ) / 100) * 100)⌋.toNat = 28 := by
  have h1 : rnd ((29 : ℕ) / 100) = (5224175567749775 : ℤ) * 2 ^ (-54 : ℤ) := by
    apply nearest_value hr (-54) 5224175567749775 <;> norm_num
  have h2 : rnd (rnd ((29 : ℕ) / 100) * 100) = (8162774324609023 : ℤ) * 2 ^ (-48 : ℤ) := by
    rw [h1]
    apply nearest_value hr (-48) 8162774324609023 <;> norm_num
  have h3 : ⌊rnd (rnd ((29 : ℕ) / 100) * 100)⌋ = 28 := by
    rw [h2, Int.floor_eq_iff]
    constructor <;> norm_num
  rw [h3]
  rfl

/-- **C88 is false.** A canvas of 29 × 29 pixels at 100 dots per inch is made, and its image raises
`ValueError`, whatever is drawn on it. -/
theorem canvas_image_fails : ∀ rnd, Nearest64 rnd → ∀ draw, ∃ c,
    MplCanvas.make rnd (.int 29) (.int 29) 100 = .ok c ∧ c.image rnd draw = .error .valueError := by
  intro rnd hr draw
  obtain ⟨c, h1, h2, h3, h4, h5⟩ := canvas_made hr (w := 29) (h := 29) (dpi := 100) (by norm_num)
    (by norm_num) (by norm_num)
  have hp : c.pixels rnd = (28, 28) := by
    simp only [MplCanvas.pixels, h4, h5, pixels_29 hr]
  refine ⟨c, h1, ?_⟩
  rw [image_of_pixels rnd draw (by norm_num) (by norm_num) h2 h3 hp]
  rw [if_neg (by decide)]

/-- **C88 is false.** A canvas whose width or height was given as a measure, or as a float, has no image:
it raises `TypeError`, whatever the sizes. -/
theorem canvas_image_units_fails (rnd : ℚ → ℚ) (draw : Nat → Nat → Nat → Nat → Nat → Nat)
    {width height : CanvasLen} {dpi : ℚ} {c : MplCanvas}
    (hf : (∃ q, width = .float q) ∨ (∃ q, height = .float q))
    (hc : MplCanvas.make rnd width height dpi = .ok c) : c.image rnd draw = .error .typeError := by
  have hwh : c.width = width ∧ c.height = height := by
    simp only [MplCanvas.make] at hc
    split at hc
    · cases hc
    · cases hc
      exact ⟨rfl, rfl⟩
  rcases hf with ⟨q, hq⟩ | ⟨q, hq⟩
  · simp only [MplCanvas.image, hwh.1, hq]
    cases c.height <;> rfl
  · simp only [MplCanvas.image, hwh.2, hq]

/-- **C88.** The image has the rows and columns of the canvas and four bytes for each pixel exactly when
the picture has as many pixels as the canvas. -/
theorem canvas_image_shape (rnd : ℚ → ℚ) (draw : Nat → Nat → Nat → Nat → Nat → Nat) {c : MplCanvas}
    {w h W H : ℕ} (hw : 0 < w) (hh : 0 < h) (hcw : c.width = .int w) (hch : c.height = .int h)
    (hp : c.pixels rnd = (W, H)) :
    (∃ a, c.image rnd draw = .ok a ∧ a.rows = h ∧ a.cols = w ∧ a.depth = 4) ↔ H * W = h * w := by
  have hpos : 0 < h * w := Nat.mul_pos hh hw
  rw [image_of_pixels rnd draw hw hh hcw hch hp]
  constructor
  · rintro ⟨a, ha, _, _, h4⟩
    split at ha
    next hd =>
      cases ha
      obtain ⟨k, hk⟩ := hd
      simp only [hk, Nat.mul_div_cancel_left k hpos] at h4
      subst h4
      omega
    next => cases ha
  · intro he
    rw [he, if_pos (Nat.dvd_mul_right _ _)]
    exact ⟨_, rfl, rfl, rfl, Nat.mul_div_cancel_left 4 hpos⟩

/-- **C88 is false.** After a canvas of 200 × 100 pixels got a window of 100 × 200 pixels its image has
100 rows of 200 pixels, and they are not those of a picture of this size: the second half of its first row is the
second row of the picture on the screen. -/
theorem canvas_image_resized_fails : ∀ rnd, Nearest64 rnd → ∀ draw, ∃ c a,
    MplCanvas.make rnd (.int 200) (.int 100) 128 = .ok c ∧
    (c.resize rnd 100 200).image rnd draw = .ok a ∧ a.rows = 100 ∧ a.cols = 200 ∧ a.depth = 4 ∧
    (∀ j < 100, ∀ k < 4, a.item 0 (100 + j) k = some (draw 100 200 1 j k)) ∧
    (IsPicture draw 200 100 a → draw 200 100 0 100 0 = draw 100 200 1 0 0) := by
  intro rnd hr draw
  obtain ⟨c, h1, h2, h3, h4, _⟩ := canvas_made hr (w := 200) (h := 100) (dpi := 128) (by norm_num)
    (by norm_num) (by norm_num)
  have key : ∀ m : ℕ, 0 < m → m < 2 ^ 53 → ⌊rnd (rnd ((m : ℚ) / 128) * 128)⌋.toNat = m := by
    intro m hm hm2
    have e1 : (m : ℚ) / 128 = m * 2 ^ (-7 : ℤ) := by
      rw [div_eq_mul_inv]
      norm_num
    have e3 : (m : ℚ) / 128 * 128 = m := by field_simp
    have e4 : rnd ((m : ℚ) / 128) = m / 128 := by
      rw [e1]
      exact nearest_exact hr hm hm2 _
    have e5 : rnd (m : ℚ) = m := by
      have := nearest_exact hr hm hm2 0
      simpa using this
    rw [e4, e3, e5]
    simp
  have hp : (c.resize rnd 100 200).pixels rnd = (100, 200) := by
    have k1 := key 100 (by norm_num) (by norm_num)
    have k2 := key 200 (by norm_num) (by norm_num)
    simp only [MplCanvas.pixels, MplCanvas.resize, h4]
    rw [k1, k2]
  have himg := image_of_pixels rnd draw (c := c.resize rnd 100 200) (w := 200) (h := 100) (by norm_num)
    (by norm_num) h2 h3 hp
  rw [if_pos (by decide)] at himg
  have hrow : ∀ j < 100, ∀ k < 4,
      PixArray.item ⟨100, 200, 200 * 100 * 4 / (100 * 200), rawBytes draw 100 200⟩ 0 (100 + j) k =
        some (draw 100 200 1 j k) := by
    intro j hj k hk
    have := rawBytes_item draw 100 200 (100 + j) k (by omega) hk
    simp only [PixArray.item, Nat.zero_mul, Nat.zero_add]
    rw [show 200 * 100 * 4 / (100 * 200) = 4 from by decide, this]
    have e1 : (100 + j) / 100 = 1 := by omega
    have e2 : (100 + j) % 100 = j := by omega
    rw [e1, e2]
  refine ⟨c, _, h1, himg, rfl, rfl, rfl, ?_, fun hpic => ?_⟩
  · exact hrow
  · have h6 := hpic.items 0 (by norm_num) 100 (by norm_num) 0 (by norm_num)
    have h7 := hrow 0 (by norm_num) 0 (by norm_num)
    exact Option.some.inj (h6.symm.trans h7)

/-! A concrete case: a rounding exists, and a canvas of 3 × 2 pixels at 128 dots per inch. -/

example : ∃ rnd, Nearest64 rnd := nearest64_exists

example : ∃ rnd c a, MplCanvas.make rnd (.int 3) (.int 2) (2 ^ 7) = .ok c ∧
    c.image rnd (fun _ _ i j k => 100 * i + 10 * j + k) = .ok a ∧
    a.item 1 2 3 = some 123 := by
  obtain ⟨rnd, hr⟩ := nearest64_exists
  obtain ⟨c, a, h1, h2, h3⟩ := canvas_image_binary_partial hr (fun _ _ i j k => 100 * i + 10 * j + k)
    (w := 3) (h := 2) (by norm_num) (by norm_num) (by norm_num) (by norm_num) 7
  exact ⟨rnd, c, a, h1, h2, h3.items 1 (by norm_num) 2 (by norm_num) 3 (by norm_num)⟩

example : rawBytes (fun _ _ i j k => 100 * i + 10 * j + k) 3 2 =
    [0, 1, 2, 3, 10, 11, 12, 13, 20, 21, 22, 23, 100, 101, 102, 103, 110, 111, 112, 113, 120, 121, 122, 123] := by
  decide

end Verif
