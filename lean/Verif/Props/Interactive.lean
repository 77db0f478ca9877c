import Verif.Spec.Interactive
import Verif.Lemmas.Visual
/-! # C77, C78: examples with a camera -/

namespace Verif

variable {D : Type}

/-! ### C77 -/

/-- The state of a visual that the camera's matrices were given to. -/
structure Follows77 (cam : Camera) (vp : Nat) (a : Actor D) : Prop where
  drawable : a.Drawable
  model : a.state.model = cam.model
  view : a.state.view = cam.view
  proj : a.state.proj = cam.proj
  seen : SeenBy cam vp a

theorem render_drawable {a : Actor D} (ha : a.Drawable) (c : RCall (Mat4 ℝ)) :
    ∃ d, a.body.draw (c.proj.getD a.state.proj * c.view.getD a.state.view *
        c.model.getD a.state.model) c.viewport = .ok d ∧
      (render a.body a.state c).2 = .ok () ∧
      (render a.body a.state c).1.model = c.model.getD a.state.model ∧
      (render a.body a.state c).1.view = c.view.getD a.state.view ∧
      (render a.body a.state c).1.proj = c.proj.getD a.state.proj ∧
      dget (render a.body a.state c).1.collections c.viewport = some (some d) ∧
      (∀ v, v ≠ c.viewport →
        dget (render a.body a.state c).1.collections v = dget a.state.collections v) := by
  obtain ⟨d, hd⟩ := ha.draw (c.proj.getD a.state.proj * c.view.getD a.state.view *
        c.model.getD a.state.model) c.viewport
  refine ⟨d, hd, ?_⟩
  unfold render ensureCollection
  simp only [storeMatrices, ha.mul, Option.bind_some, ha.prepare]
  cases hc : dget a.state.collections c.viewport with
  | some x =>
    simp only [hd, true_and]
    exact ⟨dget_dset_self _ _ _, fun v hv => dget_dset_ne _ _ hv.symm⟩
  | none =>
    simp only [hd, true_and]
    exact ⟨dget_dset_self _ _ _,
      fun v hv => by rw [dget_dset_ne _ _ hv.symm, dget_dset_ne _ _ hv.symm]⟩

theorem redraw_drawable (vp : Nat) (cam : Camera) {as : List (Actor D)} (h : ∀ a ∈ as, a.Drawable) :
    (redraw vp cam as).2 = .ok () ∧ (∀ a ∈ (redraw vp cam as).1, Follows77 cam vp a) := by
  induction as with
  | nil => exact ⟨rfl, by simp [redraw]⟩
  | cons a as ih =>
    obtain ⟨d, h1, h2, h3, h4, h5, h6, -⟩ := render_drawable (h a (by simp))
      ⟨vp, some cam.model, some cam.view, some cam.proj⟩
    obtain ⟨i1, i2⟩ := ih (fun x hx => h x (by simp [hx]))
    unfold redraw
    revert h2 h3 h4 h5 h6
    generalize render a.body a.state ⟨vp, some cam.model, some cam.view, some cam.proj⟩ = r
    obtain ⟨s, e⟩ := r
    intro h2 h3 h4 h5 h6
    simp only at h2
    subst h2
    refine ⟨i1, ?_⟩
    intro x hx
    simp only [List.mem_cons] at hx
    rcases hx with rfl | hx
    · have hd := h a (by simp)
      exact ⟨⟨hd.mul, hd.prepare, hd.draw⟩, h3, h4, h5, d, h1, h6⟩
    · exact i2 x hx

theorem camStep_matrices (c : Camera) (e : CamEvent) (h : e.redraws c = false) :
    (camStep c e).model = c.model ∧ (camStep c e).view = c.view ∧ (camStep c e).proj = c.proj := by
  cases e with
  | scroll here b => simp only [CamEvent.redraws] at h; subst h; exact ⟨rfl, rfl, rfl⟩
  | press here x y => simp only [camStep]; split <;> exact ⟨rfl, rfl, rfl⟩
  | motion here x y =>
    simp only [camStep]
    split
    · rename_i h1 h2; simp [CamEvent.redraws, h1, h2] at h
    · exact ⟨rfl, rfl, rfl⟩
  | release => exact ⟨rfl, rfl, rfl⟩

theorem follows_resize {cam : Camera} {vp : Nat} {a : Actor D} (h : Follows77 cam vp a) (cv : Nat) :
    Follows77 cam vp { a with state := resize a.body a.state cv } := by
  have key : ∀ (vs : List Nat) (s : RState (Mat4 ℝ) D), Follows77 cam vp { a with state := s } →
      Follows77 cam vp ⟨a.body, vs.foldl (fun s v => (render a.body s ⟨v, none, none, none⟩).1) s⟩ := by
    intro vs
    induction vs with
    | nil => exact fun s hs => hs
    | cons v vs ih =>
      intro s hs
      refine ih _ ?_
      obtain ⟨d, h1, h2, h3, h4, h5, h6, h7⟩ := render_drawable hs.drawable ⟨v, none, none, none⟩
      simp only [Option.getD_none] at h1 h3 h4 h5 h6 h7
      refine ⟨⟨h.drawable.mul, h.drawable.prepare, h.drawable.draw⟩, h3.trans hs.model,
        h4.trans hs.view, h5.trans hs.proj, ?_⟩
      by_cases hv : vp = v
      · subst hv
        have e1 := hs.model
        have e2 := hs.view
        have e3 := hs.proj
        simp only at e1 e2 e3
        rw [e1, e2, e3] at h1
        exact ⟨d, h1, h6⟩
      · obtain ⟨d', g1, g2⟩ := hs.seen
        exact ⟨d', g1, (h7 vp hv).trans g2⟩
  exact key _ _ h

/-- C77. In an example that gives visuals which can be drawn, the viewport of the camera shows each of
them as the camera sees it, after every history of mouse events and new window sizes. -/
theorem camera_shown_partial {cam : Camera} {viewports : List Nat} {visuals : List (Actor D)}
    {s : Show D} (hd : ∀ a ∈ visuals, a.Drawable) (hs : showStart cam viewports visuals = .ok s)
    (es : List ShowEvent) :
    ∀ a ∈ (showRun s es).visuals, SeenBy (showRun s es).cam (showRun s es).viewport a := by
  have h0 : ∀ a ∈ s.visuals, Follows77 s.cam s.viewport a := by
    unfold showStart at hs
    split at hs
    · cases hs
    · rename_i vp rest
      have hr := (redraw_drawable vp cam hd).2
      split at hs
      · cases hs
      · rename_i vs heq
        rw [heq] at hr
        simp only [Except.ok.injEq] at hs
        subst hs
        exact hr
  have key : ∀ (es : List ShowEvent) (s : Show D), (∀ a ∈ s.visuals, Follows77 s.cam s.viewport a) →
      ∀ a ∈ (showRun s es).visuals, Follows77 (showRun s es).cam (showRun s es).viewport a := by
    intro es
    induction es with
    | nil => exact fun s h => h
    | cons e es ih =>
      intro s h
      refine ih _ ?_
      cases e with
      | mouse e =>
        simp only [showStep]
        by_cases hr : e.redraws s.cam = true
        · rw [if_pos hr]
          exact (redraw_drawable _ _ (fun a ha => (h a ha).drawable)).2
        · rw [if_neg hr]
          obtain ⟨h1, h2, h3⟩ := camStep_matrices s.cam e (by simpa using hr)
          intro a ha
          have := h a ha
          refine ⟨this.drawable, this.model.trans h1.symm, this.view.trans h2.symm,
            this.proj.trans h3.symm, ?_⟩
          obtain ⟨d, g1, g2⟩ := this.seen
          exact ⟨d, by simp only; rw [h1, h2, h3]; exact g1, g2⟩
      | resize cv =>
        simp only [showStep]
        intro a ha
        obtain ⟨a', ha', rfl⟩ := List.mem_map.1 ha
        exact follows_resize (h a' ha') cv
  exact fun a ha => (key es s h0 a ha).seen

/-- The visuals that can be drawn do start. -/
theorem camera_starts (cam : Camera) (vp : Nat) (viewports : List Nat) {visuals : List (Actor D)}
    (hd : ∀ a ∈ visuals, a.Drawable) :
    ∃ s, showStart cam (vp :: viewports) visuals = .ok s ∧ s.viewport = vp ∧
      s.visuals.length = visuals.length := by
  have h := (redraw_drawable vp cam hd).1
  have hl : ∀ as : List (Actor D), (redraw vp cam as).1.length = as.length := by
    intro as
    induction as with
    | nil => rfl
    | cons a as ih =>
      unfold redraw
      split
      · rfl
      · simp [ih]
  unfold showStart
  dsimp only
  have hl' := hl visuals
  revert h hl'
  generalize redraw vp cam visuals = r
  obtain ⟨vs, e⟩ := r
  intro h hl'
  simp only at h
  subst h
  exact ⟨⟨cam, vp, vs⟩, rfl, rfl, hl'⟩

/-- A visual whose drawing is the matrix itself and the viewport. -/
def plainActor : Actor (Mat4 ℝ × Nat) where
  body := ⟨.points, fun _ => 0, fun p q => some (p * q), .ok (), fun m vp => .ok (m, vp)⟩
  state := rinit 1 none

example : plainActor.Drawable := ⟨rfl, rfl, fun _ _ => ⟨_, rfl⟩⟩

/-- One with a drawing in another viewport. -/
def elsewhere : Actor (Mat4 ℝ × Nat) :=
  { plainActor with state := (render plainActor.body plainActor.state ⟨1, none, none, none⟩).1 }

theorem ensure_elsewhere (b : RBody (Mat4 ℝ) D) (s : RState (Mat4 ℝ) D) {vp v : Nat} (hv : v ≠ vp) :
    dget (ensureCollection b s vp).1.collections v = dget s.collections v := by
  unfold ensureCollection
  split
  · rfl
  · split
    · rfl
    · exact dget_dset_ne _ _ hv.symm

theorem render_elsewhere (b : RBody (Mat4 ℝ) D) (s : RState (Mat4 ℝ) D) (c : RCall (Mat4 ℝ)) {v : Nat}
    (hv : v ≠ c.viewport) :
    dget (render b s c).1.collections v = dget s.collections v := by
  have he := ensure_elsewhere b { storeMatrices b.mul s c with tracker := none } hv
  unfold render
  simp only
  revert he
  generalize ensureCollection b { storeMatrices b.mul s c with tracker := none } c.viewport = r
  obtain ⟨s', e⟩ := r
  intro he
  have he' : dget s'.collections v = dget s.collections v := he
  cases e with
  | error e => exact he'
  | ok u =>
    simp only
    split
    · exact he'
    · split
      · exact he'
      · simp only
        rw [dget_dset_ne _ _ hv.symm]
        exact he'

theorem redraw_elsewhere (cam : Camera) (as : List (Actor D)) {vp v : Nat} (hv : v ≠ vp) :
    (redraw vp cam as).1.map (fun a => dget a.state.collections v) =
      as.map (fun a => dget a.state.collections v) := by
  induction as with
  | nil => rfl
  | cons a as ih =>
    have he := render_elsewhere a.body a.state ⟨vp, some cam.model, some cam.view, some cam.proj⟩ hv
    unfold redraw
    split
    · rename_i heq
      rw [heq] at he
      simp only [List.map_cons, he]
    · rename_i heq
      rw [heq] at he
      simp only [List.map_cons, he, ih]

/-- C77. What the camera does never reaches another viewport: there every visual stays as it was drawn
before, after every history of mouse events. -/
theorem camera_elsewhere {cam : Camera} {viewports : List Nat} {visuals : List (Actor D)}
    {s : Show D} (hs : showStart cam viewports visuals = .ok s) (es : List CamEvent) {v : Nat}
    (hv : v ≠ s.viewport) :
    (showRun s (es.map .mouse)).visuals.map (fun a => dget a.state.collections v) =
      visuals.map (fun a => dget a.state.collections v) := by
  have h0 : s.visuals.map (fun a => dget a.state.collections v) =
      visuals.map (fun a => dget a.state.collections v) := by
    unfold showStart at hs
    split at hs
    · cases hs
    · rename_i vp rest
      split at hs
      · cases hs
      · rename_i vs heq
        simp only [Except.ok.injEq] at hs
        subst hs
        have := redraw_elsewhere cam visuals hv
        rw [heq] at this
        exact this
  rw [← h0]
  clear h0 hs
  induction es generalizing s with
  | nil => rfl
  | cons e es ih =>
    have hstep : showRun s ((e :: es).map .mouse) = showRun (showStep s (.mouse e)) (es.map .mouse) := rfl
    have hvp : (showStep s (.mouse e)).viewport = s.viewport := by
      simp only [showStep]; split <;> rfl
    rw [hstep, ih (by rw [hvp]; exact hv)]
    simp only [showStep]
    split
    · exact redraw_elsewhere _ _ hv
    · rfl

/-- C77. An example with two viewports and one visual in each: the visual of the second one appears in
the first, and where it belongs it does not follow the camera. -/
theorem camera_shown_fails (cam : Camera) (hc : cam.proj * cam.view * cam.model ≠ 1) :
    ∃ s, showStart cam [0, 1] [plainActor, elsewhere] = .ok s ∧
      dget elsewhere.state.collections 0 = none ∧
      (∃ a ∈ s.visuals, dget a.state.collections 1 = some (some (1, 1)) ∧
        SeenBy s.cam 0 a ∧ ¬ SeenBy s.cam 1 a) := by
  have hd : ∀ a ∈ [plainActor, elsewhere], a.Drawable := by
    intro a ha
    simp only [List.mem_cons, List.not_mem_nil, or_false] at ha
    rcases ha with rfl | rfl
    · exact ⟨rfl, rfl, fun _ _ => ⟨_, rfl⟩⟩
    · exact ⟨rfl, rfl, fun _ _ => ⟨_, rfl⟩⟩
  have hcol : elsewhere.state.collections = [(1, some (1, 1))] := by
    simp [elsewhere, plainActor, render, ensureCollection, storeMatrices, rinit, dget, dset]
  have h0 : dget elsewhere.state.collections 0 = none := by rw [hcol]; rfl
  have h1 : dget elsewhere.state.collections 1 = some (some (1, 1)) := by rw [hcol]; rfl
  have h01 : (1 : Nat) ≠ 0 := by decide
  refine ⟨⟨cam, 0, [⟨plainActor.body, (render plainActor.body plainActor.state
    ⟨0, some cam.model, some cam.view, some cam.proj⟩).1⟩, ⟨elsewhere.body,
    (render elsewhere.body elsewhere.state ⟨0, some cam.model, some cam.view, some cam.proj⟩).1⟩]⟩, rfl,
    h0, ⟨elsewhere.body, (render elsewhere.body elsewhere.state
    ⟨0, some cam.model, some cam.view, some cam.proj⟩).1⟩, by simp, ?_, ?_, ?_⟩
  · exact (render_elsewhere _ _ _ h01).trans h1
  · refine ⟨_, rfl, ?_⟩
    simp [elsewhere, plainActor, render, ensureCollection, storeMatrices, rinit, dget, dset]
  · rintro ⟨d, g1, g2⟩
    rw [render_elsewhere _ _ _ h01, h1] at g2
    simp only [Option.some.injEq] at g2
    subst g2
    have : (cam.proj * cam.view * cam.model, 1) = ((1 : Mat4 ℝ), 1) := by
      injection g1
    exact hc (Prod.mk.inj this).1

/-- The camera of `--camera_mode ortho`. -/
example (theta phi zoom zdist scale xlim ylim : ℝ) :
    let cam := camInit true theta phi zoom zdist scale xlim ylim
    cam.proj * cam.view * cam.model ≠ 1 := by
  intro cam h
  have hp : cam.proj * cam.view * cam.model = glmOrtho (-1) 1 (-1) 1 1 100 := by
    simp [cam, camInit, camLimits]
  rw [hp] at h
  have := congrFun (congrFun h 2) 2
  simp [glmOrtho, transposeIf] at this
  norm_num at this

/-! ### C78 -/

theorem lensStep_zoom {l : Lens} (h : 0 < l.zoom) (e : LensEvent) : 0 < (lensStep l e).zoom := by
  cases e with
  | scroll button =>
    simp only [lensStep, zoomMin, zoomMax]
    split
    · exact lt_of_lt_of_le (by norm_num) (le_max_right _ _)
    · split
      · exact lt_min (by linarith) (by norm_num)
      · exact h
  | resize w' h' => exact h

theorem lensRun_zoom {l : Lens} (h : 0 < l.zoom) (es : List LensEvent) : 0 < (lensRun l es).zoom := by
  induction es generalizing l with
  | nil => exact h
  | cons e es ih => exact ih (lensStep_zoom h e)

theorem lensRun_append (l : Lens) (xs ys : List LensEvent) :
    lensRun l (xs ++ ys) = lensRun (lensRun l xs) ys := List.foldl_append

theorem resize_fits {l : Lens} {w h : ℝ} (hw : 0 < w) (hh : 0 < h) :
    ((lensStep l (.resize w h)).xlim, (lensStep l (.resize w h)).ylim) = fitting l.zoom w h := by
  simp only [lensStep, fitting]
  split
  · rename_i hgt
    have h1 : 1 ≤ w / h := by rw [le_div_iff₀ hh]; linarith
    have h2 : h / w ≤ 1 := by rw [div_le_iff₀ hw]; linarith
    rw [max_eq_right h1, max_eq_left h2]
    simp [mul_div_assoc]
  · rename_i hle
    have h1 : w / h ≤ 1 := by rw [div_le_iff₀ hh]; linarith
    have h2 : 1 ≤ h / w := by rw [le_div_iff₀ hw]; linarith
    rw [max_eq_left h1, max_eq_right h2]
    simp [mul_div_assoc]

/-- Positive sizes and zoom, and limits in the ratio of the sizes. -/
structure Undistorted (l : Lens) : Prop where
  zoom : 0 < l.zoom
  width : 0 < l.width
  height : 0 < l.height
  xlim : 0 < l.xlim
  ratio : l.ylim / l.xlim = l.height / l.width

theorem undistorted_resize {l : Lens} (hz : 0 < l.zoom) {w h : ℝ} (hw : 0 < w) (hh : 0 < h) :
    Undistorted (lensStep l (.resize w h)) := by
  refine ⟨hz, hw, hh, ?_, ?_⟩
  · simp only [lensStep]
    split
    · simp only; positivity
    · exact hz
  · simp only [lensStep]
    split
    · simp only
      field_simp
    · simp only
      field_simp

theorem undistorted_scroll {l : Lens} (hl : Undistorted l) (b : String) :
    Undistorted (lensStep l (.scroll b)) := by
  have hz := lensStep_zoom hl.zoom (.scroll b)
  refine ⟨hz, hl.width, hl.height, hz, ?_⟩
  have : (lensStep l (.scroll b)).ylim = (lensStep l (.scroll b)).zoom * (l.ylim / l.xlim) := rfl
  rw [this, hl.ratio]
  have : (lensStep l (.scroll b)).xlim = (lensStep l (.scroll b)).zoom := rfl
  rw [this]
  have e1 : (lensStep l (.scroll b)).height = l.height := rfl
  have e2 : (lensStep l (.scroll b)).width = l.width := rfl
  rw [e1, e2, mul_div_assoc, mul_comm]
  exact div_mul_cancel₀ _ hz.ne'

theorem undistorted_run {l : Lens} (hl : Undistorted l) {es : List LensEvent} (hp : PositiveSizes es) :
    Undistorted (lensRun l es) := by
  induction es generalizing l with
  | nil => exact hl
  | cons e es ih =>
    have hp' : PositiveSizes es := fun x hx => hp x (by simp [hx])
    refine ih ?_ hp'
    cases e with
    | scroll b => exact undistorted_scroll hl b
    | resize w h =>
      obtain ⟨hw, hh⟩ := hp _ (by simp) w h rfl
      exact undistorted_resize hl.zoom hw hh

/-- C78. From the first new size on, the picture is not distorted: the limits have the shape of the
window after every history. -/
theorem zoom_undistorted_partial {zoom : ℝ} (hz : 0 < zoom) (w0 h0 w h : ℝ)
    (before after : List LensEvent) (hp : PositiveSizes (before ++ .resize w h :: after)) :
    let l := lensRun (lensInit zoom w0 h0) (before ++ .resize w h :: after)
    l.ylim / l.xlim = l.height / l.width := by
  intro l
  obtain ⟨hw, hh⟩ := hp (.resize w h) (by simp) w h rfl
  have h1 := lensRun_zoom (l := lensInit zoom w0 h0) hz before
  have h2 := undistorted_resize h1 hw hh
  have h3 := undistorted_run h2 (es := after) (fun x hx => hp x (by simp [hx]))
  have : l = lensRun (lensStep (lensRun (lensInit zoom w0 h0) before) (.resize w h)) after := by
    show lensRun _ _ = _
    rw [lensRun_append]
    rfl
  rw [this]
  exact h3.ratio

example : PositiveSizes ([.scroll "up"] ++ .resize 640 480 :: [.scroll "down", .resize 300 500]) := by
  intro e he w h heq
  subst heq
  simp only [List.cons_append, List.nil_append, List.mem_cons, reduceCtorEq, LensEvent.resize.injEq,
    List.not_mem_nil, or_false, false_or] at he
  rcases he with ⟨rfl, rfl⟩ | ⟨rfl, rfl⟩ <;> norm_num

/-- C78. In a window that is not wider than high, what is seen depends on the zoom and the size only,
whatever scrolls and sizes came before. -/
theorem zoom_fits_partial {zoom : ℝ} (hz : 0 < zoom) (w0 h0 w h : ℝ) (before after : List LensEvent)
    (hp : PositiveSizes (before ++ .resize w h :: after)) :
    let l := lensRun (lensInit zoom w0 h0) (before ++ .resize w h :: after)
    l.width ≤ l.height → (l.xlim, l.ylim) = fitting l.zoom l.width l.height := by
  intro l hle
  obtain ⟨hw, hh⟩ := hp (.resize w h) (by simp) w h rfl
  have h1 := lensRun_zoom (l := lensInit zoom w0 h0) hz before
  -- either the last event is a new size, or a scroll sets the width to the zoom
  have key : ∀ (es : List LensEvent) (k : Lens), Undistorted k →
      (k.width ≤ k.height → (k.xlim, k.ylim) = fitting k.zoom k.width k.height) → PositiveSizes es →
      (lensRun k es).width ≤ (lensRun k es).height →
      ((lensRun k es).xlim, (lensRun k es).ylim) =
        fitting (lensRun k es).zoom (lensRun k es).width (lensRun k es).height := by
    intro es
    induction es with
    | nil => exact fun k _ hk _ => hk
    | cons e es ih =>
      intro k hu hk hpe
      have hpe' : PositiveSizes es := fun x hx => hpe x (by simp [hx])
      cases e with
      | resize w h =>
        obtain ⟨hw, hh⟩ := hpe _ (by simp) w h rfl
        exact ih _ (undistorted_resize hu.zoom hw hh) (fun _ => resize_fits hw hh) hpe'
      | scroll b =>
        refine ih _ (undistorted_scroll hu b) ?_ hpe'
        intro hle
        have hle' : k.width ≤ k.height := hle
        have e1 : (lensStep k (.scroll b)).ylim =
            (lensStep k (.scroll b)).zoom * (k.ylim / k.xlim) := rfl
        have e2 : (lensStep k (.scroll b)).xlim = (lensStep k (.scroll b)).zoom := rfl
        have e3 : (lensStep k (.scroll b)).height = k.height := rfl
        have e4 : (lensStep k (.scroll b)).width = k.width := rfl
        rw [e1, e2, e3, e4, hu.ratio]
        have g1 : k.width / k.height ≤ 1 := by rw [div_le_iff₀ hu.height]; linarith
        have g2 : 1 ≤ k.height / k.width := by rw [le_div_iff₀ hu.width]; linarith
        simp only [fitting]
        rw [max_eq_left g1, max_eq_right g2, mul_one]
  have : l = lensRun (lensStep (lensRun (lensInit zoom w0 h0) before) (.resize w h)) after := by
    show lensRun _ _ = _
    rw [lensRun_append]
    rfl
  rw [this] at hle ⊢
  exact key after _ (undistorted_resize h1 hw hh) (fun _ => resize_fits hw hh)
    (fun x hx => hp x (by simp [hx])) hle

/-- C78. In a wider window a scroll, in whatever direction, changes the scale to that of the shorter
side by the ratio of the sides: after a new size the limits fit, after a scroll they are too small. -/
theorem zoom_wide {l : Lens} (hz : 0 < l.zoom) {w h : ℝ} (hw : 0 < w) (hh : 0 < h) (b : String)
    (bs : List String) :
    let l' := lensRun (lensStep l (.resize w h)) ((b :: bs).map .scroll)
    (l'.xlim, l'.ylim) = (l'.zoom, l'.zoom * (h / w)) := by
  have key : ∀ (bs : List String) (k : Lens), Undistorted k → k.height / k.width = h / w →
      (k.xlim, k.ylim) = (k.zoom, k.zoom * (h / w)) →
      ((lensRun k (bs.map .scroll)).xlim, (lensRun k (bs.map .scroll)).ylim) =
        ((lensRun k (bs.map .scroll)).zoom, (lensRun k (bs.map .scroll)).zoom * (h / w)) := by
    intro bs
    induction bs with
    | nil => exact fun k _ _ hk => hk
    | cons b bs ih =>
      intro k hu hr hk
      refine ih _ (undistorted_scroll hu b) hr ?_
      show (_, _ * (k.ylim / k.xlim)) = _
      rw [hu.ratio, hr]
      rfl
  have hu := undistorted_resize hz hw hh
  refine key bs _ (undistorted_scroll hu b) rfl ?_
  show (_, _ * ((lensStep l (.resize w h)).ylim / (lensStep l (.resize w h)).xlim)) = _
  rw [hu.ratio]
  rfl

/-- C78. Until the window first gets another size what is seen is square, whatever is scrolled, so that
it is undistorted just in a square viewport. -/
theorem zoom_before_sizes {zoom : ℝ} (hz : 0 < zoom) (w h : ℝ) (bs : List String) :
    let l := lensRun (lensInit zoom w h) (bs.map .scroll)
    l.xlim = l.zoom ∧ l.ylim = l.zoom ∧ (l.width, l.height) = (w, h) := by
  have key : ∀ (bs : List String) (k : Lens), 0 < k.zoom → k.xlim = k.zoom → k.ylim = k.zoom →
      (lensRun k (bs.map .scroll)).xlim = (lensRun k (bs.map .scroll)).zoom ∧
      (lensRun k (bs.map .scroll)).ylim = (lensRun k (bs.map .scroll)).zoom ∧
      ((lensRun k (bs.map .scroll)).width, (lensRun k (bs.map .scroll)).height) =
        (k.width, k.height) := by
    intro bs
    induction bs with
    | nil => exact fun k _ h1 h2 => ⟨h1, h2, rfl⟩
    | cons b bs ih =>
      intro k hk h1 h2
      refine ih _ (lensStep_zoom hk (.scroll b)) rfl ?_
      show _ * (k.ylim / k.xlim) = _
      rw [h1, h2, div_self hk.ne', mul_one]
      rfl
  exact key bs _ hz rfl (by simp [lensInit])

/-- C78. In a window of 200 by 100 a scroll by an unknown button, which leaves the zoom as it is, makes
everything twice as large; and before the first new size a window that is not square distorts. -/
theorem zoom_fits_fails :
    (let l := lensRun (lensInit 1 200 100) [.resize 200 100]
     let l' := lensStep l (.scroll "left")
     l'.zoom = l.zoom ∧ (l.xlim, l.ylim) = fitting 1 200 100 ∧ l'.xlim = l.xlim / 2 ∧
       l'.ylim = l.ylim / 2) ∧
    (let l := lensInit 1 200 100
     l.ylim / l.xlim ≠ l.height / l.width) := by
  constructor
  · have h1 : ¬ ("left" = "up") := by decide
    have h2 : ¬ ("left" = "down") := by decide
    norm_num [lensRun, lensStep, lensInit, fitting, h1, h2]
  · norm_num [lensInit]

end Verif
