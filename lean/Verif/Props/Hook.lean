import Verif.Spec.Hook
import Verif.Props.Interactive
import Verif.Props.Trackball
/-! # C96: examples with a function `onRender` -/

namespace Verif

variable {E D : Type}

/-- A visual that was given the camera's matrices and shows the arrays as they are. -/
structure Follows96 (s : Play E D) (a : Player E D) : Prop where
  drawable : a.Drawable
  model : a.state.model = s.cam.model
  view : a.state.view = s.cam.view
  proj : a.state.proj = s.cam.proj
  shows : s.Shows a

theorem Player.Drawable.actor {a : Player E D} (h : a.Drawable) (env : E)
    (st : RState (Mat4 ℝ) D) : Actor.Drawable (⟨a.body env, st⟩ : Actor D) :=
  ⟨h.mul env, h.prepare env, h.draw env⟩

theorem rendered_drawable {a : Player E D} (ha : a.Drawable) (env : E) (c : RCall (Mat4 ℝ)) :
    (a.rendered env c).2 = .ok () ∧ (a.rendered env c).1.Drawable ∧
      (a.rendered env c).1.body = a.body := by
  obtain ⟨d, h1, h2, -⟩ := render_drawable (ha.actor env a.state) c
  exact ⟨h2, ⟨ha.mul, ha.prepare, ha.draw⟩, rfl⟩

theorem rendered_follows {a : Player E D} (ha : a.Drawable) (s : Play E D) :
    Follows96 s (a.rendered s.env s.call).1 := by
  obtain ⟨d, h1, h2, h3, h4, h5, h6, -⟩ := render_drawable (ha.actor s.env a.state) s.call
  exact ⟨⟨ha.mul, ha.prepare, ha.draw⟩, h3, h4, h5, d, h1, h6⟩

theorem playAll_drawable (s : Play E D) {as : List (Player E D)} (h : ∀ a ∈ as, a.Drawable) :
    (playAll s.env s.call as).2 = .ok () ∧
      (playAll s.env s.call as).1 = as.map (fun a => (a.rendered s.env s.call).1) := by
  induction as with
  | nil => exact ⟨rfl, rfl⟩
  | cons a as ih =>
    obtain ⟨h1, -, -⟩ := rendered_drawable (h a (by simp)) s.env s.call
    obtain ⟨i1, i2⟩ := ih (fun x hx => h x (by simp [hx]))
    unfold playAll
    cases hr : a.rendered s.env s.call with
    | mk a' e =>
      rw [hr] at h1
      simp only at h1
      subst h1
      exact ⟨i1, by simp [i2, hr]⟩

/-- The visuals a function renders exist. -/
def Calls (n : Nat) (hook : List (HookOp E)) : Prop := ∀ i, .render i ∈ hook → i < n

theorem hookRun_drawable (hook : List (HookOp E)) (s : Play E D)
    (h : ∀ a ∈ s.visuals, a.Drawable) :
    (hookRun s hook).1.cam = s.cam ∧ (hookRun s hook).1.viewport = s.viewport ∧
      (hookRun s hook).1.visuals.length = s.visuals.length ∧
      (∀ a ∈ (hookRun s hook).1.visuals, a.Drawable) ∧
      ((hookRun s hook).2 = .ok () → Calls s.visuals.length hook) ∧
      (Calls s.visuals.length hook → (hookRun s hook).2 = .ok () ∧
        (hookRun s hook).1.env = writes hook s.cam s.env) := by
  induction hook generalizing s with
  | nil => exact ⟨rfl, rfl, rfl, h, fun _ i hi => by simp at hi, fun _ => ⟨rfl, rfl⟩⟩
  | cons o os ih =>
    unfold hookRun
    cases o with
    | assign f =>
      obtain ⟨h1, h2, h3, h4, h5, h6⟩ := ih { s with env := f s.cam s.env } h
      refine ⟨h1, h2, h3, h4, ?_, ?_⟩
      · intro ho i hi
        exact h5 ho i (by simpa using hi)
      · intro hc
        exact h6 (fun i hi => hc i (by simp [hi]))
    | render i =>
      simp only [hookStep]
      cases hi : s.visuals[i]? with
      | none =>
        refine ⟨rfl, rfl, rfl, h, by simp, ?_⟩
        intro hc
        have := hc i (by simp)
        rw [List.getElem?_eq_none_iff] at hi
        omega
      | some a =>
        have ha : a ∈ s.visuals := List.mem_of_getElem? hi
        obtain ⟨r1, r2, -⟩ := rendered_drawable (h a ha) s.env s.call
        cases hr : a.rendered s.env s.call with
        | mk a' e =>
          rw [hr] at r1 r2
          simp only at r1 r2
          subst r1
          simp only [hr]
          have hd : ∀ x ∈ s.visuals.set i a', x.Drawable := by
            intro x hx
            rcases List.mem_or_eq_of_mem_set hx with hx | rfl
            · exact h x hx
            · exact r2
          obtain ⟨h1, h2, h3, h4, h5, h6⟩ := ih { s with visuals := s.visuals.set i a' } hd
          simp only [List.length_set] at h3 h5 h6
          refine ⟨h1, h2, h3, h4, ?_, ?_⟩
          · intro ho j hj
            simp only [List.mem_cons, HookOp.render.injEq] at hj
            rcases hj with rfl | hj
            · exact (List.getElem?_eq_some_iff.1 hi).1
            · exact h5 ho j hj
          · intro hc
            exact h6 (fun j hj => hc j (by simp [hj]))

/-- The actions of the function an example gives, none if it gives no function. -/
def actions (hook : Option (List (HookOp E))) : List (HookOp E) := hook.getD []

theorem playUpdate_drawable (hook : Option (List (HookOp E))) (s : Play E D)
    (h : ∀ a ∈ s.visuals, a.Drawable) :
    ((playUpdate hook s).2 = .ok () → Calls s.visuals.length (actions hook)) ∧
      (Calls s.visuals.length (actions hook) →
        (playUpdate hook s).2 = .ok () ∧ (playUpdate hook s).1.cam = s.cam ∧
        (playUpdate hook s).1.viewport = s.viewport ∧
        (playUpdate hook s).1.visuals.length = s.visuals.length ∧
        (playUpdate hook s).1.env = writes (actions hook) s.cam s.env ∧
        (∀ a ∈ (playUpdate hook s).1.visuals, Follows96 (playUpdate hook s).1 a)) := by
  cases hook with
  | none =>
    obtain ⟨p1, p2⟩ := playAll_drawable s h
    refine ⟨fun _ i hi => by simp [actions] at hi, fun _ => ⟨p1, rfl, rfl, ?_, rfl, ?_⟩⟩
    · simp only [playUpdate, p2, List.length_map]
    · simp only [playUpdate, p2]
      intro a ha
      obtain ⟨b, hb, rfl⟩ := List.mem_map.1 ha
      have := rendered_follows (h b hb) s
      exact ⟨this.drawable, this.model, this.view, this.proj, this.shows⟩
  | some os =>
    obtain ⟨h1, h2, h3, h4, h5, h6⟩ := hookRun_drawable os s h
    simp only [playUpdate, actions, Option.getD_some]
    cases hr : hookRun s os with
    | mk s' e =>
      rw [hr] at h1 h2 h3 h4 h5 h6
      simp only at h1 h2 h3 h4 h5 h6
      cases e with
      | error e =>
        refine ⟨by simp, fun hc => ?_⟩
        have := (h6 hc).1
        simp at this
      | ok u =>
        obtain ⟨p1, p2⟩ := playAll_drawable s' h4
        simp only
        refine ⟨fun _ => h5 rfl, fun hc => ⟨p1, h1, h2, ?_, (h6 hc).2, ?_⟩⟩
        · rw [p2, List.length_map, h3]
        · rw [p2]
          intro a ha
          obtain ⟨b, hb, rfl⟩ := List.mem_map.1 ha
          have := rendered_follows (h4 b hb) s'
          exact ⟨this.drawable, this.model, this.view, this.proj, this.shows⟩

theorem follows96_resize {s : Play E D} {a : Player E D} (h : Follows96 s a) (cv : Nat) :
    Follows96 s { a with state := resize (a.body s.env) a.state cv } := by
  have := follows_resize (cam := s.cam) (vp := s.viewport) (a := ⟨a.body s.env, a.state⟩)
    ⟨h.drawable.actor s.env a.state, h.model, h.view, h.proj, h.shows⟩ cv
  exact ⟨⟨h.drawable.mul, h.drawable.prepare, h.drawable.draw⟩, this.model, this.view, this.proj,
    this.seen⟩

/-- What holds while an example runs. -/
structure Playing (hook : Option (List (HookOp E))) (n : Nat) (s : Play E D) : Prop where
  calls : Calls n (actions hook)
  length : s.visuals.length = n
  follows : ∀ a ∈ s.visuals, Follows96 s a

theorem playing_start {hook : Option (List (HookOp E))} {cam : Camera} {viewports : List Nat}
    {env : E} {visuals : List (Player E D)} {s : Play E D} (hd : ∀ a ∈ visuals, a.Drawable)
    (hs : playStart hook cam viewports env visuals = .ok s) :
    Playing hook visuals.length s ∧ s.cam = cam ∧ viewports.head? = some s.viewport ∧
      s.env = writes (actions hook) cam env := by
  unfold playStart at hs
  split at hs
  · cases hs
  · rename_i vp rest
    obtain ⟨h1, h2⟩ := playUpdate_drawable hook ⟨cam, vp, env, visuals⟩ hd
    split at hs
    · cases hs
    · rename_i s' heq
      simp only [Except.ok.injEq] at hs
      subst hs
      rw [heq] at h1 h2
      have hc := h1 rfl
      obtain ⟨-, g1, g2, g3, g4, g5⟩ := h2 hc
      exact ⟨⟨hc, g3, g5⟩, g1, congrArg some g2.symm, g4⟩

theorem playing_step {hook : Option (List (HookOp E))} {n : Nat} {s : Play E D}
    (h : Playing hook n s) (e : ShowEvent) :
    Playing hook n (playStep hook s e) ∧ (playStep hook s e).viewport = s.viewport := by
  cases e with
  | mouse e =>
    simp only [playStep]
    by_cases hr : e.redraws s.cam = true
    · rw [if_pos hr]
      obtain ⟨-, h2⟩ := playUpdate_drawable hook { s with cam := camStep s.cam e }
        (fun a ha => (h.follows a ha).drawable)
      obtain ⟨-, g1, g2, g3, g4, g5⟩ := h2 (by simp only [h.length]; exact h.calls)
      exact ⟨⟨h.calls, g3.trans h.length, g5⟩, g2⟩
    · rw [if_neg hr]
      obtain ⟨h1, h2, h3⟩ := camStep_matrices s.cam e (by simpa using hr)
      refine ⟨⟨h.calls, h.length, fun a ha => ?_⟩, rfl⟩
      have := h.follows a ha
      refine ⟨this.drawable, this.model.trans h1.symm, this.view.trans h2.symm,
        this.proj.trans h3.symm, ?_⟩
      obtain ⟨d, g1, g2⟩ := this.shows
      exact ⟨d, by simp only; rw [h1, h2, h3]; exact g1, g2⟩
  | resize cv =>
    simp only [playStep]
    refine ⟨⟨h.calls, by simp [h.length], fun a ha => ?_⟩, trivial⟩
    obtain ⟨a', ha', rfl⟩ := List.mem_map.1 ha
    have := follows96_resize (h.follows a' ha') cv
    exact ⟨this.drawable, this.model, this.view, this.proj, this.shows⟩

theorem playing_run {hook : Option (List (HookOp E))} {n : Nat} {s : Play E D}
    (h : Playing hook n s) (es : List ShowEvent) :
    Playing hook n (playRun hook s es) ∧ (playRun hook s es).viewport = s.viewport := by
  induction es generalizing s with
  | nil => exact ⟨h, rfl⟩
  | cons e es ih =>
    obtain ⟨h1, h2⟩ := playing_step h e
    obtain ⟨i1, i2⟩ := ih h1
    exact ⟨i1, i2.trans h2⟩

/-- C96. In an example that gives visuals which can be drawn and a function `onRender` (or none), the
viewport of the camera shows each visual as the camera sees it now and from what the arrays of the
example hold now, from the start on and after every history of mouse events and new window sizes. -/
theorem hook_shown {hook : Option (List (HookOp E))} {cam : Camera} {viewports : List Nat}
    {env : E} {visuals : List (Player E D)} {s : Play E D} (hd : ∀ a ∈ visuals, a.Drawable)
    (hs : playStart hook cam viewports env visuals = .ok s) (es : List ShowEvent) :
    ∀ a ∈ (playRun hook s es).visuals, (playRun hook s es).Shows a :=
  fun a ha => ((playing_run (playing_start hd hs).1 es).1.follows a ha).shows

theorem playRun_env {hook : Option (List (HookOp E))} {n : Nat} {s : Play E D}
    (h : Playing hook n s) (es : List ShowEvent) :
    (playRun hook s es).cam = cameraAfter s.cam es ∧
      (playRun hook s es).env =
        (calledWith s.cam es).foldl (fun env c => writes (actions hook) c env) s.env := by
  induction es generalizing s with
  | nil => exact ⟨rfl, rfl⟩
  | cons e es ih =>
    obtain ⟨i1, i2⟩ := ih (playing_step h e).1
    have hrun : playRun hook s (e :: es) = playRun hook (playStep hook s e) es := rfl
    rw [hrun, i1, i2]
    cases e with
    | mouse e =>
      simp only [playStep, calledWith]
      by_cases hr : e.redraws s.cam = true
      · rw [if_pos hr, if_pos hr]
        obtain ⟨-, h2⟩ := playUpdate_drawable hook { s with cam := camStep s.cam e }
          (fun a ha => (h.follows a ha).drawable)
        obtain ⟨-, g1, g2, g3, g4, g5⟩ := h2 (by simp only [h.length]; exact h.calls)
        rw [g1, g4]
        exact ⟨rfl, rfl⟩
      · rw [if_neg hr, if_neg hr]
        exact ⟨rfl, rfl⟩
    | resize cv => exact ⟨rfl, rfl⟩

/-- C96. The function is called at the start and after each event that turns or zooms, with the camera
after that event, and at no other time: the arrays hold what these calls wrote, one after the other. -/
theorem hook_called {hook : Option (List (HookOp E))} {cam : Camera} {viewports : List Nat}
    {env : E} {visuals : List (Player E D)} {s : Play E D} (hd : ∀ a ∈ visuals, a.Drawable)
    (hs : playStart hook cam viewports env visuals = .ok s) (es : List ShowEvent) :
    (playRun hook s es).cam = cameraAfter cam es ∧
      (playRun hook s es).env =
        (cam :: calledWith cam es).foldl (fun env c => writes (actions hook) c env) env := by
  obtain ⟨h1, h2, -, h4⟩ := playing_start hd hs
  obtain ⟨g1, g2⟩ := playRun_env h1 es
  rw [h2] at g1 g2
  rw [h4] at g2
  exact ⟨g1, g2⟩

/-- C96. An example can start just when it gives a viewport and its function renders no visual that
does not exist. -/
theorem hook_starts (hook : Option (List (HookOp E))) (cam : Camera) (viewports : List Nat)
    (env : E) {visuals : List (Player E D)} (hd : ∀ a ∈ visuals, a.Drawable) :
    (∃ s, playStart hook cam viewports env visuals = .ok s) ↔
      viewports ≠ [] ∧ ∀ i, .render i ∈ hook.getD [] → i < visuals.length := by
  unfold playStart
  cases viewports with
  | nil => simp
  | cons vp rest =>
    obtain ⟨h1, h2⟩ := playUpdate_drawable hook ⟨cam, vp, env, visuals⟩ hd
    simp only [ne_eq, reduceCtorEq, not_false_eq_true, true_and]
    constructor
    · rintro ⟨s, hs⟩
      split at hs
      · cases hs
      · rename_i heq
        exact h1 (by rw [heq])
    · intro hc
      have := (h2 hc).1
      split
      · rename_i heq
        rw [heq] at this
        simp at this
      · exact ⟨_, rfl⟩

/-- Points of one size. -/
def sizedPlayer : Player ℝ (Mat4 ℝ × ℝ) :=
  ⟨fun size => ⟨.points, fun _ => 0, fun p q => some (p * q), .ok (), fun m _ => .ok (m, size)⟩,
    rinit 1 (some 0)⟩

theorem sizedPlayer_drawable : sizedPlayer.Drawable :=
  ⟨fun _ => rfl, fun _ => rfl, fun _ _ _ => ⟨_, rfl⟩⟩

/-- An example with two visuals, whose function changes a size and renders the second visual. -/
example (cam : Camera) : ∃ s, playStart (some [.assign fun c x => x + c.zoom, .render 1]) cam [7, 8]
    (3 : ℝ) [sizedPlayer, sizedPlayer] = .ok s ∧
    (playRun (some [.assign fun c x => x + c.zoom, .render 1]) s
      [.mouse (.scroll true "left"), .mouse (.press true 0 0), .resize 0]).env =
        3 + cam.zoom + cam.zoom := by
  have hd : ∀ a ∈ [sizedPlayer, sizedPlayer], a.Drawable := by
    simp [sizedPlayer_drawable]
  obtain ⟨s, hs⟩ := (hook_starts (some [.assign fun c x => x + c.zoom, .render 1]) cam [7, 8] (3 : ℝ)
    hd).2 (by simp)
  refine ⟨s, hs, ?_⟩
  rw [(hook_called hd hs _).2]
  simp [calledWith, CamEvent.redraws, writes, actions, camStep, camLimits]

/-- The function of an example that gave a visual it does not have: the exception comes at the start. -/
example (cam : Camera) : ¬ ∃ s, playStart (some [.render 1]) cam [7] (3 : ℝ) [sizedPlayer] = .ok s := by
  rw [hook_starts _ _ _ _ (by simp [sizedPlayer_drawable])]
  simp

/-! ### examples/points-3d.py -/

/-- The zoom of the last call is the zoom of the camera: only events that draw again change it. -/
theorem camStep_zoom (c : Camera) (e : CamEvent) (h : e.redraws c = false) :
    (camStep c e).zoom = c.zoom := by
  cases e with
  | scroll here b => simp only [CamEvent.redraws] at h; subst h; rfl
  | press here x y => simp only [camStep]; split <;> rfl
  | motion here x y =>
    simp only [camStep]
    split
    · rename_i h1 h2; simp [CamEvent.redraws, h1, h2] at h
    · rfl
  | release => rfl

theorem points_env (bs : List ℝ) (w : ℝ) (i n : Nat) (cam : Camera) (es : List ShowEvent)
    (a : PointArrays) (ha : a = ⟨bs.map (fun s => s / cam.zoom ^ 2), sameWidths n (w / cam.zoom)⟩) :
    (calledWith cam es).foldl (fun env c => writes (pointsHook bs w i) c env) a =
      ⟨bs.map (fun s => s / (cameraAfter cam es).zoom ^ 2),
        sameWidths n (w / (cameraAfter cam es).zoom)⟩ := by
  induction es generalizing cam a with
  | nil => exact ha
  | cons e es ih =>
    cases e with
    | resize cv => exact ih cam a ha
    | mouse e =>
      have hc : cameraAfter cam (.mouse e :: es) = cameraAfter (camStep cam e) es := rfl
      rw [hc]
      simp only [calledWith]
      by_cases hr : e.redraws cam = true
      · rw [if_pos hr, List.singleton_append, List.foldl_cons]
        refine ih _ _ ?_
        subst ha
        simp [writes, pointsHook, sameWidths, div_eq_mul_inv, mul_comm]
      · rw [if_neg hr, List.nil_append]
        refine ih _ _ ?_
        rw [camStep_zoom cam e (by simpa using hr)]
        exact ha

/-- C96. In examples/points-3d.py the sizes and line widths of the points follow the zoom: after every
history of mouse events and new window sizes the arrays its visual is drawn from hold the sizes it
started with, divided by the square of the zoom, and the line width divided by the zoom. -/
theorem points_follow_zoom {visuals : List (Player PointArrays D)} {bs : List ℝ} {w : ℝ} {i : Nat}
    {cam : Camera} {viewports : List Nat} {env : PointArrays} {s : Play PointArrays D}
    (hd : ∀ a ∈ visuals, a.Drawable)
    (hs : playStart (some (pointsHook bs w i)) cam viewports env visuals = .ok s)
    (es : List ShowEvent) :
    let now := playRun (some (pointsHook bs w i)) s es
    now.env.sizes = bs.map (fun s => s / now.cam.zoom ^ 2) ∧
      now.env.widths = sameWidths env.widths.length (w / now.cam.zoom) ∧
      ∀ a ∈ now.visuals, now.Shows a := by
  intro now
  obtain ⟨h1, h2⟩ := hook_called hd hs es
  have h3 := points_env bs w i env.widths.length cam es
    (writes (pointsHook bs w i) cam env) (by
      simp [writes, pointsHook, sameWidths, div_eq_mul_inv, mul_comm, List.map_const'])
  have h4 : now.env = ⟨bs.map (fun s => s / now.cam.zoom ^ 2),
      sameWidths env.widths.length (w / now.cam.zoom)⟩ := by
    show (playRun _ s es).env = _
    rw [h2, List.foldl_cons]
    simp only [now, h1]
    exact h3
  rw [h4]
  exact ⟨rfl, rfl, hook_shown hd hs es⟩

/-- Points that read the arrays of examples/points-3d.py. -/
def arraysPlayer : Player PointArrays (Mat4 ℝ × PointArrays) :=
  ⟨fun a => ⟨.points, fun _ => 0, fun p q => some (p * q), .ok (), fun m _ => .ok (m, a)⟩,
    rinit 1 (some 0)⟩

/-- The example starts, and after two turns of the wheel its sizes are divided by the square of the
zoom, 99/100. -/
example : ∃ s, playStart (some (pointsHook [25, 36] (1 / 4) 0)) (launcherCamera false) [0]
    ⟨[25, 36], [1 / 4, 1 / 4]⟩ [arraysPlayer] = .ok s ∧
    (playRun (some (pointsHook [25, 36] (1 / 4) 0)) s
      [.mouse (.scroll true "up"), .mouse (.scroll true "down")]).env.sizes =
      [25 / (99 / 100) ^ 2, 36 / (99 / 100) ^ 2] := by
  have hd : ∀ a ∈ [arraysPlayer], a.Drawable := by
    intro a ha
    simp only [List.mem_singleton] at ha
    subst ha
    exact ⟨fun _ => rfl, fun _ => rfl, fun _ _ _ => ⟨_, rfl⟩⟩
  obtain ⟨s, hs⟩ := (hook_starts (some (pointsHook [25, 36] (1 / 4) 0)) (launcherCamera false) [0]
    ⟨[25, 36], [1 / 4, 1 / 4]⟩ hd).2 (by simp [pointsHook])
  refine ⟨s, hs, ?_⟩
  rw [(points_follow_zoom hd hs _).1, (hook_called hd hs _).1]
  have : (cameraAfter (launcherCamera false)
      [.mouse (.scroll true "up"), .mouse (.scroll true "down")]).zoom = 99 / 100 := by
    simp [cameraAfter, launcherCamera, camInit, camLimits, camStep, zoomMin, zoomMax]
    norm_num
  rw [this]
  rfl

theorem camStep_xlim {c : Camera} (h : c.xlim = c.zoom) (e : CamEvent) :
    (camStep c e).xlim = (camStep c e).zoom := by
  cases e with
  | scroll here b => simp only [camStep]; split <;> [exact h; rfl]
  | press here x y => simp only [camStep]; split <;> exact h
  | motion here x y => simp only [camStep]; split <;> exact h
  | release => exact h

theorem cameraAfter_mouse {c : Camera} (h : c.xlim = c.zoom) (es : List CamEvent) :
    (cameraAfter c (es.map .mouse)).xlim = (cameraAfter c (es.map .mouse)).zoom ∧
      cameraAfter c (es.map .mouse) = camRun c es := by
  induction es generalizing c with
  | nil => exact ⟨h, rfl⟩
  | cons e es ih => exact ih (camStep_xlim h e)

/-- C96. While the window keeps its size, every point of examples/points-3d.py covers the same part of
the scene, whatever the zoom. -/
theorem points_cover_partial {visuals : List (Player PointArrays D)} {bs : List ℝ} {w : ℝ} {i : Nat}
    {ortho : Bool} {viewports : List Nat} {env : PointArrays} {s : Play PointArrays D}
    (hd : ∀ a ∈ visuals, a.Drawable)
    (hs : playStart (some (pointsHook bs w i)) (launcherCamera ortho) viewports env visuals = .ok s)
    (es : List CamEvent) (width : ℝ) :
    let now := playRun (some (pointsHook bs w i)) s (es.map .mouse)
    now.env.sizes.map (covered width now.cam.xlim) = bs.map (covered width 1) := by
  intro now
  obtain ⟨h1, -, -⟩ := points_follow_zoom hd hs (es.map .mouse)
  obtain ⟨h2, -⟩ := hook_called hd hs (es.map .mouse)
  have hx : (launcherCamera ortho).xlim = (launcherCamera ortho).zoom := by
    unfold launcherCamera camInit camLimits; rfl
  obtain ⟨h3, h4⟩ := cameraAfter_mouse hx es
  have h5 : now.cam.xlim = now.cam.zoom := by
    show (playRun _ s _).cam.xlim = (playRun _ s _).cam.zoom
    rw [h2]; exact h3
  have h6 : 0 < now.cam.zoom := by
    show 0 < (playRun _ s _).cam.zoom
    rw [h2, h4]
    have := (camera_zoom ortho 0 0 5 1 (zoom := 1) (xlim := 1) (ylim := 1) (by norm_num) (by norm_num)
      (by norm_num) es).1
    exact lt_of_lt_of_le (by norm_num) this
  have h7 : now.env.sizes = bs.map (fun s => s / now.cam.zoom ^ 2) := h1
  rw [h7, h5, List.map_map]
  refine List.map_congr_left (fun b _ => ?_)
  simp only [Function.comp, covered]
  rw [Real.sqrt_div' _ (by positivity), Real.sqrt_sq h6.le]
  by_cases hw : width = 0
  · simp [hw]
  · field_simp

/-- C96. A window of another size makes the points cover another part: every point covers
half as much once the window is twice as large. -/
theorem points_cover_fails (size : ℝ) (hs : 0 < size) :
    let before := lensInit 1 100 100
    let after := lensStep before (.resize 200 200)
    covered after.width after.xlim size = covered before.width before.xlim size / 2 ∧
      covered after.width after.xlim size ≠ covered before.width before.xlim size := by
  intro before after
  have h1 : covered after.width after.xlim size = covered before.width before.xlim size / 2 := by
    simp only [after, before, lensStep, lensInit, covered]
    norm_num
    ring
  refine ⟨h1, ?_⟩
  rw [h1]
  have : 0 < covered before.width before.xlim size := by
    simp only [before, lensInit, covered]
    have := Real.sqrt_pos.2 hs
    positivity
  linarith

end Verif
