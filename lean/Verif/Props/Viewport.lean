import Verif.Lemmas.Viewport
/-
C34: viewport placement and aspect.
-/

namespace Verif

/-- The pixels a coordinate or size stands for on a canvas of `size` pixels along its axis: a
float is a fraction, an int is pixels. -/
def Extent.Means (e : Extent) (size px : ℚ) : Prop :=
  match e with
  | .float q => px = q * size
  | .int n => px = n
  | .transform f => px = f size * size
  | _ => False

/-- A viewport occupies the pixels that were asked for: after any update, which is what the
constructor and every resize do, its left, bottom, width and height are those given, in pixels
or as fractions of the canvas as it is now. -/
theorem viewport_placement_partial (v v' : VPort) (cw ch : ℚ) (hcw : 0 < cw) (hch : 0 < ch)
    (hu : v.update cw ch = .ok v') {px py pw ph : ℚ}
    (hx : v.x.Means cw px) (hy : v.y.Means ch py) (hw : v.width.Means cw pw)
    (hh : v.height.Means ch ph) :
    v'.pos.1 * cw = px ∧ v'.pos.2.1 * ch = py ∧ v'.size cw ch = (pw, ph) := by
  obtain ⟨x, y, w, h, ex, ey, ew, eh, _, rfl⟩ := update_inv hu
  have key : ∀ (e : Extent) (s p q : ℚ), 0 < s → e.Means s p → e.part s = .ok q → q * s = p := by
    intro e s p q hs hm hp
    cases e with
    | absent => cases hm
    | other q => cases hm
    | float q' => cases hp; exact hm.symm
    | int n =>
      cases hp
      rw [div_mul_cancel₀ _ (ne_of_gt hs)]
      exact hm.symm
    | transform f => cases hp; exact hm.symm
  exact ⟨key _ _ _ _ hcw hx ex, key _ _ _ _ hch hy ey, by
    simp only [VPort.size, key _ _ _ _ hcw hw ew, key _ _ _ _ hch hh eh]⟩

/-- The pixels asked for by a width or a height that may be left out: a size that is not 0, or
nothing, which stands for the size the canvas was made with. -/
def Extent.Asks (e canvas : Extent) (size px : ℚ) : Prop :=
  (e.Means size px ∧ px ≠ 0) ∨ (e = .absent ∧ canvas.Means size px)

/-- A new viewport occupies the pixels that were asked for; without a width or a height it takes
that of the canvas. -/
theorem viewport_made_placement_partial (x y width height canvasW canvasH : Extent) (cw ch : ℚ)
    (hcw : 0 < cw) (hch : 0 < ch) (v : VPort)
    (h : VPort.make x y width height canvasW canvasH cw ch = .ok v) {px py pw ph : ℚ}
    (hx : x.Means cw px) (hy : y.Means ch py) (hw : width.Asks canvasW cw pw)
    (hh : height.Asks canvasH ch ph) :
    v.pos.1 * cw = px ∧ v.pos.2.1 * ch = py ∧ v.size cw ch = (pw, ph) := by
  have key : ∀ (e d : Extent) (s p : ℚ), e.Asks d s p →
      (if e.truthy then e else d).Means s p := by
    intro e d s p ha
    rcases ha with ⟨hm, hp⟩ | ⟨rfl, hm⟩
    · have : e.truthy = true := by
        cases e with
        | absent => cases hm
        | other q => cases hm
        | transform f => rfl
        | float q =>
          have hq : q ≠ 0 := by rintro rfl; exact hp (by simpa [Extent.Means] using hm)
          simp [Extent.truthy, hq]
        | int n =>
          have hq : n ≠ 0 := by rintro rfl; exact hp (by simpa [Extent.Means] using hm)
          simp [Extent.truthy, hq]
      rw [if_pos this]; exact hm
    · exact hm
  unfold VPort.make at h
  simp only [bind, Except.bind] at h
  split at h
  · cases h
  · rename_i v' hu
    cases h
    exact viewport_placement_partial _ v' cw ch hcw hch hu hx hy (key _ _ _ _ hw) (key _ _ _ _ hh)

example : ∃ v, VPort.make (.int 10) (.float 0) .absent (.int 100) (.int 400) (.int 200) 400 200 =
      .ok v ∧ v.size 400 200 = (400, 100) ∧ Extent.absent.Asks (.int 400) 400 400 ∧
      (Extent.int 100).Asks (.int 200) 200 100 := by
  refine ⟨_, make_ok rfl rfl rfl rfl (by norm_num), ?_, Or.inr ⟨rfl, by simp [Extent.Means]⟩, Or.inl ⟨?_, by norm_num⟩⟩
  · simp [VPort.size]
  · simp [Extent.Means]

/-- After any update the limits have the aspect ratio of the size of the viewport and the
smaller one is the zoom. -/
theorem viewport_aspect_partial (v v' : VPort) (cw ch : ℚ) (hu : v.update cw ch = .ok v')
    (hw : 0 < (v'.size cw ch).1) (hh : 0 < (v'.size cw ch).2) (hz : 0 < v.zoom) :
    v'.xlim * (v'.size cw ch).2 = v'.ylim * (v'.size cw ch).1 ∧ min v'.xlim v'.ylim = v.zoom := by
  obtain ⟨x, y, w, h, _, _, _, _, _, rfl⟩ := update_inv hu
  simp only [VPort.size] at *
  by_cases hc : h * ch < w * cw
  · simp only [hc, if_true]
    constructor
    · rw [div_mul_cancel₀ _ (ne_of_gt hh)]
    · apply min_eq_right
      rw [le_div_iff₀ hh]
      nlinarith
  · simp only [hc, if_false]
    constructor
    · rw [div_mul_cancel₀ _ (ne_of_gt hw)]
    · apply min_eq_left
      rw [le_div_iff₀ hw]
      nlinarith

/-- So it is at the end of any history of resizes and zooms that ends with a resize, with the
zoom of that moment: in particular what was asked for is never forgotten. -/
theorem viewport_history (v : VPort) (cw0 ch0 : ℚ) (es : List VPEvent) (cw ch : ℚ)
    (s' : VPort × ℚ × ℚ)
    (hr : (es ++ [VPEvent.resize cw ch]).foldlM VPort.step (v, cw0, ch0) = .ok s') :
    ∃ z, { v with zoom := z }.update cw ch = .ok s'.1 ∧ s'.2 = (cw, ch) := by
  have hinv : ∀ (es : List VPEvent) (s t : VPort × ℚ × ℚ),
      es.foldlM VPort.step s = .ok t → t.1.x = s.1.x ∧ t.1.y = s.1.y ∧ t.1.width = s.1.width ∧
        t.1.height = s.1.height := by
    intro es
    induction es with
    | nil => intro s t h; cases h; exact ⟨rfl, rfl, rfl, rfl⟩
    | cons e es ih =>
      intro s t h
      rw [List.foldlM_cons] at h
      cases hs : VPort.step s e with
      | error e' => rw [hs] at h; cases h
      | ok s1 =>
        rw [hs] at h
        have h2 := ih s1 t h
        have h1 : s1.1.x = s.1.x ∧ s1.1.y = s.1.y ∧ s1.1.width = s.1.width ∧
            s1.1.height = s.1.height := by
          cases e with
          | zoom z => cases hs; exact ⟨rfl, rfl, rfl, rfl⟩
          | resize a b =>
            simp only [VPort.step] at hs
            cases hu : s.1.update a b with
            | error e' => rw [hu] at hs; cases hs
            | ok v1 =>
              rw [hu] at hs
              cases hs
              obtain ⟨_, _, _, _, _, _, _, _, _, hv⟩ := update_inv hu
              rw [hv]
              exact ⟨rfl, rfl, rfl, rfl⟩
        rw [h2.1, h2.2.1, h2.2.2.1, h2.2.2.2]
        exact h1
  rw [List.foldlM_append] at hr
  cases hs : es.foldlM VPort.step (v, cw0, ch0) with
  | error e => rw [hs] at hr; cases hr
  | ok t =>
    rw [hs] at hr
    obtain ⟨h1, h2, h3, h4⟩ := hinv es _ t hs
    dsimp only at h1 h2 h3 h4
    simp only [bind, Except.bind, List.foldlM_cons, VPort.step, List.foldlM_nil, pure,
      Except.pure] at hr
    cases hu : t.1.update cw ch with
    | error e => rw [hu] at hr; cases hr
    | ok v1 =>
      rw [hu] at hr
      cases hr
      obtain ⟨x, y, w, h, ex, ey, ew, eh, hn, hv⟩ := update_inv hu
      rw [h1] at ex; rw [h2] at ey; rw [h3] at ew; rw [h4] at eh
      refine ⟨t.1.zoom, ?_, rfl⟩
      rw [update_ok (v := { v with zoom := t.1.zoom }) ex ey ew eh hn, hv]
      rw [← h1, ← h2, ← h3, ← h4]

/-- The constructor leaves the limits at 1, whatever the size. -/
theorem viewport_made_square (x y width height canvasW canvasH : Extent) (cw ch : ℚ) (v : VPort)
    (h : VPort.make x y width height canvasW canvasH cw ch = .ok v) :
    v.xlim = 1 ∧ v.ylim = 1 := by
  unfold VPort.make at h
  simp only [bind, Except.bind] at h
  split at h
  · cases h
  · cases h; exact ⟨rfl, rfl⟩

/-- C34 fails for a new viewport: 200 × 100 pixels, and square limits, until the first resize. -/
theorem viewport_aspect_fails :
    ∃ v, VPort.make (.int 0) (.int 0) (.int 200) (.int 100) (.int 400) (.int 400) 400 400 = .ok v ∧
      v.size 400 400 = (200, 100) ∧ v.xlim * 100 ≠ v.ylim * 200 := by
  refine ⟨_, make_ok rfl rfl rfl rfl (by norm_num), ?_, ?_⟩
  · simp [VPort.size]
  · norm_num

/-- C34 fails for a viewport of width 0, which gets the width of the canvas, and for a viewport
without size on a canvas whose size was given as a measure: the size of the canvas in pixels is
then a float, and taken for a fraction. -/
theorem viewport_placement_fails :
    (∃ v, VPort.make (.int 0) (.int 0) (.float 0) (.int 100) (.int 400) (.int 400) 400 400 = .ok v ∧
      v.size 400 400 = (400, 100)) ∧
    (∃ v, VPort.make (.int 0) (.int 0) .absent .absent (.float 400) (.float 400) 400 400 = .ok v ∧
      v.size 400 400 = (160000, 160000)) := by
  refine ⟨⟨_, make_ok rfl rfl rfl rfl (by norm_num), ?_⟩, ⟨_, make_ok rfl rfl rfl rfl (by norm_num), ?_⟩⟩
  · simp [VPort.size]
  · simp [VPort.size]; norm_num

example : ∃ v', (VPort.mk (.int 10) (.float (1/4)) (.int 200) (.float (1/2)) (0, 0, 1, 1) 2 1 1).update
      400 200 = .ok v' ∧ v'.size 400 200 = (200, 100) ∧ v'.xlim = 4 ∧ v'.ylim = 2 := by
  refine ⟨_, update_ok rfl rfl rfl rfl (by norm_num), ?_, ?_, ?_⟩ <;> simp [VPort.size] <;> norm_num

example : (Extent.int 200).Means 400 200 ∧ (Extent.float (1/2)).Means 200 100 := by
  constructor <;> simp [Extent.Means]; norm_num

end Verif
