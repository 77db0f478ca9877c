import Verif.Spec.Image
import Verif.Props.Visual
import Verif.Props.Hook
/-! # C97: examples that save an image -/

namespace Verif

variable {D : Type}

theorem upToLast_snoc (v : Nat) (cs : List (RCall (Mat4 ℝ))) (c : RCall (Mat4 ℝ)) :
    upToLast v (cs ++ [c]) = if c.viewport = v then cs ++ [c] else upToLast v cs := by
  unfold upToLast
  simp only [List.reverse_append, List.reverse_cons, List.reverse_nil, List.nil_append,
    List.singleton_append, List.dropWhile_cons]
  by_cases h : c.viewport = v
  · simp [h]
  · simp [h]

/-- The state of a visual after calls of `render` that all returned. -/
structure CallsMade (b : RBody (Mat4 ℝ) D) (cs : List (RCall (Mat4 ℝ))) (s : RState (Mat4 ℝ) D) :
    Prop where
  model : s.model = lastGiven 1 (cs.map (·.model))
  view : s.view = lastGiven 1 (cs.map (·.view))
  proj : s.proj = lastGiven 1 (cs.map (·.proj))
  none : ∀ v, upToLast v cs = [] → dget s.collections v = none
  some : ∀ v, upToLast v cs ≠ [] → ∃ d, b.draw (productOf (upToLast v cs)) v = .ok d ∧
    dget s.collections v = some (some d)

theorem callsMade_init (b : RBody (Mat4 ℝ) D) : CallsMade b [] (rinit 1 (some 0)) :=
  ⟨rfl, rfl, rfl, fun _ _ => rfl, fun v h => absurd rfl h⟩

theorem callsMade_render {b : RBody (Mat4 ℝ) D} (hm : b.mul = fun p q => some (p * q))
    {cs : List (RCall (Mat4 ℝ))} {s s' : RState (Mat4 ℝ) D} (h : CallsMade b cs s)
    {c : RCall (Mat4 ℝ)} (hr : render b s c = (s', .ok ())) : CallsMade b (cs ++ [c]) s' := by
  have h1 : lastGiven 1 ((cs ++ [c]).map (·.model)) = c.model.getD s.model := by
    rw [List.map_append, List.map_singleton, lastGiven_snoc, h.model]
  have h2 : lastGiven 1 ((cs ++ [c]).map (·.view)) = c.view.getD s.view := by
    rw [List.map_append, List.map_singleton, lastGiven_snoc, h.view]
  have h3 : lastGiven 1 ((cs ++ [c]).map (·.proj)) = c.proj.getD s.proj := by
    rw [List.map_append, List.map_singleton, lastGiven_snoc, h.proj]
  have he := fun v (hv : v ≠ c.viewport) => render_elsewhere b s c hv
  rw [hr] at he
  have hkey : s'.model = c.model.getD s.model ∧ s'.view = c.view.getD s.view ∧
      s'.proj = c.proj.getD s.proj ∧ ∃ d, b.draw (c.proj.getD s.proj * c.view.getD s.view *
        c.model.getD s.model) c.viewport = .ok d ∧ dget s'.collections c.viewport = some (some d) := by
    unfold render ensureCollection at hr
    simp only [storeMatrices, hm, Option.bind_some] at hr
    cases hc : dget s.collections c.viewport with
    | some x =>
      simp only [hc] at hr
      cases hd : b.draw (c.proj.getD s.proj * c.view.getD s.view * c.model.getD s.model) c.viewport with
      | error e => simp [hd] at hr
      | ok d =>
        simp only [hd, Prod.mk.injEq, and_true] at hr
        subst hr
        exact ⟨rfl, rfl, rfl, d, rfl, dget_dset_self _ _ _⟩
    | none =>
      simp only [hc] at hr
      cases hp : b.prepare with
      | error e => simp [hp] at hr
      | ok u =>
        simp only [hp] at hr
        cases hd : b.draw (c.proj.getD s.proj * c.view.getD s.view * c.model.getD s.model)
            c.viewport with
        | error e => simp [hd] at hr
        | ok d =>
          simp only [hd, Prod.mk.injEq, and_true] at hr
          subst hr
          exact ⟨rfl, rfl, rfl, d, rfl, dget_dset_self _ _ _⟩
  obtain ⟨k1, k2, k3, d, k4, k5⟩ := hkey
  refine ⟨k1.trans h1.symm, k2.trans h2.symm, k3.trans h3.symm, ?_, ?_⟩
  · intro v hv
    rw [upToLast_snoc] at hv
    split at hv
    · simp at hv
    · rename_i hne
      rw [he v (Ne.symm hne)]
      exact h.none v hv
  · intro v hv
    rw [upToLast_snoc] at hv ⊢
    split at hv
    · rename_i heq
      subst heq
      rw [if_pos rfl]
      refine ⟨d, ?_, k5⟩
      unfold productOf
      rw [h1, h2, h3]
      exact k4
    · rename_i hne
      rw [if_neg hne]
      obtain ⟨d', g1, g2⟩ := h.some v hv
      exact ⟨d', g1, (he v (Ne.symm hne)).trans g2⟩

/-- What a script has made. -/
structure Scripted (ops : List (ScriptOp D)) (s : Script D) : Prop where
  canvases : s.canvases = canvasesOf ops
  places : s.places = placesOf ops
  fits : ∀ c ∈ s.places, c < s.canvases
  bodies : s.visuals.map (·.body) = bodiesOf ops
  calls : ∀ i, (bodiesOf ops).length ≤ i → callsTo i ops = []
  made : ∀ i a, s.visuals[i]? = some a → CallsMade a.body (callsTo i ops) a.state

theorem scripted_init : Scripted ([] : List (ScriptOp D)) scriptInit :=
  ⟨rfl, rfl, by simp [scriptInit], rfl, fun _ _ => rfl, fun i a h => by simp [scriptInit] at h⟩

theorem scripted_step {ops : List (ScriptOp D)} {s s' : Script D} {o : ScriptOp D}
    (hm : Multiplies (ops ++ [o])) (h : Scripted ops s) (hs : scriptStep s o = .ok s') :
    Scripted (ops ++ [o]) s' := by
  have hlen : s.visuals.length = (bodiesOf ops).length := by rw [← h.bodies, List.length_map]
  cases o with
  | canvas =>
    simp only [scriptStep, Except.ok.injEq] at hs
    subst hs
    refine ⟨?_, ?_, ?_, ?_, ?_, ?_⟩
    · simp [canvasesOf, h.canvases]
    · simp [placesOf, h.places]
    · exact fun c hc => Nat.lt_succ_of_lt (h.fits c hc)
    · simpa [bodiesOf] using h.bodies
    · simpa [bodiesOf, callsTo] using h.calls
    · simpa [callsTo] using h.made
  | viewport c =>
    simp only [scriptStep] at hs
    split at hs
    · simp only [Except.ok.injEq] at hs
      subst hs
      refine ⟨?_, ?_, ?_, ?_, ?_, ?_⟩
      · simp [canvasesOf, h.canvases]
      · simp [placesOf, h.places]
      · intro x hx
        simp only [List.mem_append, List.mem_singleton] at hx
        rcases hx with hx | rfl
        · exact h.fits x hx
        · assumption
      · simpa [bodiesOf] using h.bodies
      · simpa [bodiesOf, callsTo] using h.calls
      · simpa [callsTo] using h.made
    · cases hs
  | visual b =>
    simp only [scriptStep, Except.ok.injEq] at hs
    subst hs
    have hc : ∀ i, callsTo i (ops ++ [.visual b]) = callsTo i ops := by simp [callsTo]
    refine ⟨?_, ?_, ?_, ?_, ?_, ?_⟩
    · simp [canvasesOf, h.canvases]
    · simp [placesOf, h.places]
    · exact h.fits
    · have hb := h.bodies
      simp only [bodiesOf] at hb
      simp [bodiesOf, hb]
    · intro i hi
      rw [hc]
      exact h.calls i (by simp [bodiesOf] at hi ⊢; omega)
    · intro i a ha
      rw [hc]
      simp only [List.getElem?_append] at ha
      split at ha
      · exact h.made i a ha
      · rename_i hlt
        have hi : i - s.visuals.length = 0 := by
          by_contra hne
          obtain ⟨k, hk⟩ := Nat.exists_eq_succ_of_ne_zero hne
          rw [hk] at ha
          simp at ha
        rw [hi] at ha
        simp only [List.getElem?_cons_zero, Option.some.injEq] at ha
        subst ha
        rw [h.calls i (by omega)]
        exact callsMade_init b
  | render j c =>
    simp only [scriptStep] at hs
    split at hs
    · cases hs
    · split at hs
      · cases hs
      · rename_i a ha
        split at hs
        · cases hs
        · rename_i st hr
          simp only [Except.ok.injEq] at hs
          subst hs
          have hj : j < s.visuals.length := (List.getElem?_eq_some_iff.1 ha).1
          have hb : bodiesOf (ops ++ [.render j c]) = bodiesOf ops := by simp [bodiesOf]
          have hc : ∀ i, callsTo i (ops ++ [.render j c]) =
              if j = i then callsTo i ops ++ [c] else callsTo i ops := by
            intro i
            by_cases hji : j = i <;> simp [callsTo, hji]
          have hmul : a.body.mul = fun p q => some (p * q) := by
            refine hm a.body ?_
            rw [hb, ← h.bodies]
            exact List.mem_map_of_mem (List.mem_of_getElem? ha)
          refine ⟨?_, ?_, ?_, ?_, ?_, ?_⟩
          · simp [canvasesOf, h.canvases]
          · simp [placesOf, h.places]
          · exact h.fits
          · rw [hb, ← h.bodies]
            apply List.ext_getElem?
            intro k
            simp only [List.getElem?_map, List.getElem?_set]
            by_cases hk : j = k
            · subst hk
              rw [ha, if_pos rfl, if_pos hj]
              rfl
            · simp [hk]
          · intro i hi
            rw [hb] at hi
            rw [hc, if_neg (by omega)]
            exact h.calls i hi
          · intro i x hx
            rw [hc]
            simp only [List.getElem?_set] at hx
            by_cases hji : j = i
            · subst hji
              simp only [hj, if_true, Option.some.injEq] at hx
              subst hx
              rw [if_pos rfl]
              exact callsMade_render hmul (h.made j a ha) hr
            · rw [if_neg hji] at hx ⊢
              exact h.made i x hx

theorem scriptRun_snoc (s : Script D) (ops : List (ScriptOp D)) (o : ScriptOp D) :
    scriptRun s (ops ++ [o]) = scriptRun s ops >>= fun s' => scriptStep s' o := by
  simp [scriptRun, List.foldlM_append]

theorem scripted_run {ops : List (ScriptOp D)} (hm : Multiplies ops) {s : Script D}
    (hs : scriptRun scriptInit ops = .ok s) : Scripted ops s := by
  induction ops using List.reverseRecOn generalizing s with
  | nil =>
    simp only [scriptRun, List.foldlM_nil, pure, Except.pure, Except.ok.injEq] at hs
    subst hs
    exact scripted_init
  | append_singleton ops o ih =>
    rw [scriptRun_snoc] at hs
    cases hr : scriptRun scriptInit ops with
    | error e => rw [hr] at hs; simp [bind, Except.bind] at hs
    | ok s1 =>
      rw [hr] at hs
      refine scripted_step hm (ih ?_ hr) hs
      intro b hb
      exact hm b (by simp only [bodiesOf, List.filterMap_append, List.mem_append]; exact .inl hb)

/-- C97. The image an example saves is of the canvas it made last, and shows a visual in a viewport just
when the viewport is on that canvas and the visual was rendered there; it is drawn with the matrices
given until the last such call, the identity in place of those never given. -/
theorem image_exact {ops : List (ScriptOp D)} (hm : Multiplies ops) {s : Script D}
    (hs : scriptRun scriptInit ops = .ok s) (canvas : Nat) (viewports visuals : List Nat) :
    ((imageMode s canvas viewports visuals).canvas =
      if canvasesOf ops = 0 then none else some (canvasesOf ops - 1)) ∧
    ∀ i v d, (imageMode s canvas viewports visuals).shows i v d ↔
      (placesOf ops)[v]? = some (canvasesOf ops - 1) ∧ upToLast v (callsTo i ops) ≠ [] ∧
      ∃ b, (bodiesOf ops)[i]? = some b ∧
        b.draw (productOf (upToLast v (callsTo i ops))) v = .ok d := by
  have h := scripted_run hm hs
  refine ⟨by simp only [imageMode, savefig, h.canvases], fun i v d => ?_⟩
  simp only [imageMode, savefig, ← h.canvases, ← h.places, ← h.bodies, List.getElem?_map]
  constructor
  · rintro ⟨-, h1, a, h2, h3⟩
    have hc := h.made i a h2
    have hne : upToLast v (callsTo i ops) ≠ [] := by
      intro he
      rw [hc.none v he] at h3
      cases h3
    obtain ⟨d', g1, g2⟩ := hc.some v hne
    rw [g2] at h3
    simp only [Option.some.injEq] at h3
    subst h3
    exact ⟨h1, hne, a.body, by simp [h2], g1⟩
  · rintro ⟨h1, h2, b, h3, h4⟩
    simp only [Option.map_eq_some_iff] at h3
    obtain ⟨a, h3, rfl⟩ := h3
    obtain ⟨d', g1, g2⟩ := (h.made i a h3).some v h2
    rw [h4] at g1
    cases g1
    have := h.fits _ (List.mem_of_getElem? h1)
    exact ⟨by omega, h1, a, h3, g2⟩

theorem upToLast_ne_nil (v : Nat) (cs : List (RCall (Mat4 ℝ))) :
    upToLast v cs ≠ [] ↔ ∃ c ∈ cs, c.viewport = v := by
  induction cs using List.reverseRecOn with
  | nil => simp [upToLast]
  | append_singleton cs c ih =>
    rw [upToLast_snoc]
    by_cases h : c.viewport = v
    · simp [h]
    · simp [h, ih]

theorem upToLast_subset {v : Nat} {cs : List (RCall (Mat4 ℝ))} {c : RCall (Mat4 ℝ)}
    (h : c ∈ upToLast v cs) : c ∈ cs := by
  simp only [upToLast, List.mem_reverse] at h
  exact List.mem_reverse.1 ((List.dropWhile_sublist _).subset h)

theorem productOf_plain {cs : List (RCall (Mat4 ℝ))}
    (h : ∀ c ∈ cs, c.model = none ∧ c.view = none ∧ c.proj = none) : productOf cs = 1 := by
  have hl : ∀ (f : RCall (Mat4 ℝ) → Option (Mat4 ℝ)), (∀ c ∈ cs, f c = none) →
      lastGiven 1 (cs.map f) = 1 := by
    intro f hf
    have : (cs.map f).filterMap id = [] := by
      rw [List.filterMap_eq_nil_iff]
      intro x hx
      obtain ⟨c, hc, rfl⟩ := List.mem_map.1 hx
      exact hf c hc
    rw [lastGiven, this]
    rfl
  unfold productOf
  rw [hl _ (fun c hc => (h c hc).2.2), hl _ (fun c hc => (h c hc).2.1), hl _ (fun c hc => (h c hc).1)]
  simp

theorem step_places {s s' : Script D} {o : ScriptOp D} (h : scriptStep s o = .ok s') :
    s.places.length ≤ s'.places.length := by
  cases o with
  | canvas => simp only [scriptStep, Except.ok.injEq] at h; subst h; exact le_rfl
  | viewport c =>
    simp only [scriptStep] at h
    split at h
    · simp only [Except.ok.injEq] at h; subst h; simp
    · cases h
  | visual b => simp only [scriptStep, Except.ok.injEq] at h; subst h; exact le_rfl
  | render i c =>
    simp only [scriptStep] at h
    split at h
    · cases h
    · split at h
      · cases h
      · split at h
        · cases h
        · simp only [Except.ok.injEq] at h; subst h; exact le_rfl

theorem rendered_viewport {ops : List (ScriptOp D)} {s : Script D}
    (hs : scriptRun scriptInit ops = .ok s) {i : Nat} {c : RCall (Mat4 ℝ)}
    (hc : .render i c ∈ ops) : c.viewport < s.places.length := by
  induction ops using List.reverseRecOn generalizing s with
  | nil => simp at hc
  | append_singleton ops o ih =>
    rw [scriptRun_snoc] at hs
    cases hr : scriptRun scriptInit ops with
    | error e => rw [hr] at hs; simp [bind, Except.bind] at hs
    | ok s1 =>
      rw [hr] at hs
      have hs' : scriptStep s1 o = .ok s := hs
      simp only [List.mem_append, List.mem_singleton] at hc
      rcases hc with hc | rfl
      · exact lt_of_lt_of_le (ih hr hc) (step_places hs')
      · have hle := step_places hs'
        simp only [scriptStep] at hs'
        split at hs'
        · cases hs'
        · omega

/-- C97. An example that makes one canvas and renders its visuals without matrices, as all of the
examples do, saves an image that shows each visual where it was rendered, and nowhere else, drawn
without any camera. -/
theorem image_plain_partial {ops : List (ScriptOp D)} (hm : Multiplies ops) {s : Script D}
    (hs : scriptRun scriptInit ops = .ok s) (h1 : canvasesOf ops = 1)
    (hplain : ∀ i c, .render i c ∈ ops → c.model = none ∧ c.view = none ∧ c.proj = none)
    (viewports visuals : List Nat) :
    (imageMode s 0 viewports visuals).canvas = some 0 ∧
    ∀ i v d, (imageMode s 0 viewports visuals).shows i v d ↔
      (∃ c, .render i c ∈ ops ∧ c.viewport = v) ∧
      ∃ b, (bodiesOf ops)[i]? = some b ∧ b.draw 1 v = .ok d := by
  have hsc := scripted_run hm hs
  obtain ⟨e1, e2⟩ := image_exact hm hs 0 viewports visuals
  refine ⟨by rw [e1, h1]; rfl, fun i v d => ?_⟩
  have hcalls : ∀ c, c ∈ callsTo i ops ↔ .render i c ∈ ops := by
    intro c
    simp only [callsTo, List.mem_filterMap]
    constructor
    · rintro ⟨o, ho, he⟩
      cases o with
      | render j c' =>
        simp only at he
        split at he
        · rename_i hj
          subst hj
          cases he
          exact ho
        · cases he
      | _ => cases he
    · exact fun h => ⟨_, h, by simp⟩
  have hp : productOf (upToLast v (callsTo i ops)) = 1 :=
    productOf_plain (fun c hc => hplain i c ((hcalls c).1 (upToLast_subset hc)))
  rw [e2, hp, upToLast_ne_nil, h1]
  constructor
  · rintro ⟨-, ⟨c, hc, hv⟩, hb⟩
    exact ⟨⟨c, (hcalls c).1 hc, hv⟩, hb⟩
  · rintro ⟨⟨c, hc, hv⟩, hb⟩
    refine ⟨?_, ⟨c, (hcalls c).2 hc, hv⟩, hb⟩
    have hlt := rendered_viewport hs hc
    rw [hv] at hlt
    rw [← hsc.places]
    obtain ⟨x, hx⟩ : ∃ x, s.places[v]? = some x := ⟨s.places[v], List.getElem?_eq_getElem hlt⟩
    have := hsc.fits x (List.mem_of_getElem? hx)
    rw [hsc.canvases, h1] at this
    rw [hx]
    congr 1
    omega

/-! ### Another canvas -/

/-- A visual that is drawn as the matrix it is given. -/
def framed : RBody (Mat4 ℝ) (Mat4 ℝ) :=
  ⟨.points, fun _ => 0, fun p q => some (p * q), .ok (), fun m _ => .ok m⟩

/-- Two canvases with one viewport each, and a visual in the first. -/
def twoCanvases : List (ScriptOp (Mat4 ℝ)) :=
  [.canvas, .viewport 0, .visual framed, .render 0 ⟨0, none, none, none⟩, .canvas, .viewport 1]

/-- C97. An example that gives the first of two canvases to `render` saves an image of the second, in
which its visual does not show. -/
theorem image_canvas_fails : ∃ s, scriptRun scriptInit twoCanvases = .ok s ∧
    (imageMode s 0 [0] [0]).canvas = some 1 ∧
    (∀ i v d, ¬ (imageMode s 0 [0] [0]).shows i v d) ∧
    dget ((s.visuals.map (·.state.collections)).headD []) 0 = some (some 1) := by
  refine ⟨⟨2, [0, 1], [⟨framed, (render framed (rinit 1 (some 0)) ⟨0, none, none, none⟩).1⟩]⟩,
    rfl, rfl, ?_, ?_⟩
  · rintro i v d ⟨-, h2, a, h3, h4⟩
    match i, h3 with
    | 0, h3 =>
      simp only [List.getElem?_cons_zero, Option.some.injEq] at h3
      subst h3
      match v, h2, h4 with
      | 0, h2, _ => simp at h2
      | 1, _, h4 =>
        simp [framed, render, ensureCollection, storeMatrices, rinit, dget, dset] at h4
      | v + 2, h2, _ => simp at h2
    | i + 1, h3 => simp at h3
  · simp [framed, render, ensureCollection, storeMatrices, rinit, dget, dset]

/-- An example with one canvas: two visuals, the second rendered in both viewports. -/
example : ∃ s, scriptRun scriptInit ([.canvas, .viewport 0, .visual framed, .viewport 0, .visual framed,
      .render 0 ⟨0, none, none, none⟩, .render 1 ⟨0, none, none, none⟩,
      .render 1 ⟨1, none, none, none⟩] : List (ScriptOp (Mat4 ℝ))) = .ok s ∧
    (imageMode s 0 [0, 1] [0, 1]).shows 1 1 1 ∧ ∀ d, ¬ (imageMode s 0 [0, 1] [0, 1]).shows 0 1 d := by
  refine ⟨_, rfl, ?_⟩
  have h := (image_plain_partial (ops := [.canvas, .viewport 0, .visual framed, .viewport 0,
    .visual framed, .render 0 ⟨0, none, none, none⟩, .render 1 ⟨0, none, none, none⟩,
    .render 1 ⟨1, none, none, none⟩]) (by simp [Multiplies, bodiesOf, framed]) rfl
    (by simp [canvasesOf]) (by simp; grind) [0, 1] [0, 1]).2
  constructor
  · rw [h]
    exact ⟨⟨⟨1, none, none, none⟩, by simp, rfl⟩, framed, rfl, rfl⟩
  · intro d
    rw [h]
    rintro ⟨⟨c, hc, hv⟩, -⟩
    simp at hc
    subst hc
    simp at hv

/-! ### The window -/

/-- The matrix with which the launcher's camera draws at the start. -/
noncomputable def windowMatrix (ortho : Bool) : Mat4 ℝ :=
  (launcherCamera ortho).proj * (launcherCamera ortho).view * (launcherCamera ortho).model

theorem window_ortho : windowMatrix true = glmOrtho (-1) 1 (-1) 1 1 100 := by
  simp [windowMatrix, launcherCamera, camInit, camLimits]

theorem mulVec_point (m : Mat4 ℝ) (p : V3) (k : Fin 4) :
    m.mulVec p.point k = m k 0 * p.x + m k 1 * p.y + m k 2 * p.z + m k 3 := by
  simp [Matrix.mulVec, dotProduct, Fin.sum_univ_four, V3.point]

/-- C97. With `--camera_mode ortho` every point is at the same place on the image and in the window. -/
theorem image_places_partial (p : V3) : placeOn (windowMatrix true) p = placeOn 1 p := by
  rw [window_ortho]
  simp [placeOn, mulVec_point, glmOrtho, transposeIf]
  norm_num

/-- The half height of the view volume at distance 1. -/
noncomputable def halfHeight : ℝ := Real.tan (1 / 2 * radians 35)

theorem halfHeight_pos : 0 < halfHeight := by
  have hp := Real.pi_pos
  apply Real.tan_pos_of_pos_of_lt_pi_div_two
  · simp only [radians]; positivity
  · simp only [radians]; linarith

theorem window_perspective : windowMatrix false =
    !![1 / halfHeight, 0, 0, 0; 0, 1 / halfHeight, 0, 0;
       0, 0, -101 / 99, 505 / 99 - 200 / 99; 0, 0, -1, 5] := by
  have hh := halfHeight_pos
  have hm : (ballInit 0 0).model = 1 := by
    rw [(ball_angles (ballInit 0 0) 0 0).1]
    ext i j
    fin_cases i <;> fin_cases j <;>
      simp [glmZrotate, glmXrotate, radians, transposeIf, Matrix.mul_apply, Fin.sum_univ_four]
  have hp : glmPerspective 35 1 1 100 = glmFrustum (-halfHeight) halfHeight (-halfHeight) halfHeight
      1 100 := by simp [glmPerspective, halfHeight]
  simp only [windowMatrix, launcherCamera, camInit, camLimits, Bool.false_eq_true, if_false, hm, hp]
  ext i j
  fin_cases i <;> fin_cases j <;>
    simp [glmFrustum, glmTranslate, glmScale, transposeIf, Matrix.mul_apply, Fin.sum_univ_four] <;>
    first | done | (norm_num; done) | (rw [← two_mul]; field_simp)

/-- C97. With the perspective camera, places are different: points that are at one place on the image,
away from the middle, are apart in the window when their depths differ. -/
theorem image_places_fails {p q : V3} (hx : p.x = q.x) (hy : p.y = q.y) (h0 : p.x ≠ 0 ∨ p.y ≠ 0)
    (hp : p.z < 5) (hq : q.z < 5) (hz : p.z ≠ q.z) :
    placeOn 1 p = placeOn 1 q ∧ placeOn (windowMatrix false) p ≠ placeOn (windowMatrix false) q := by
  constructor
  · simp [placeOn, mulVec_point, hx, hy]
  · have hh := halfHeight_pos
    have h1 : (5 - p.z) ≠ 0 := by intro h; linarith
    have h2 : (5 - q.z) ≠ 0 := by intro h; linarith
    rw [window_perspective]
    simp only [placeOn, mulVec_point, ne_eq, Prod.mk.injEq, not_and_or]
    have key : ∀ a b : ℝ, a = b → a ≠ 0 → ¬ (1 / halfHeight * a / (5 - p.z) =
        1 / halfHeight * b / (5 - q.z)) := by
      intro a b hab ha he
      subst hab
      field_simp at he
      exact hz (by linarith)
    rcases h0 with h0 | h0
    · left
      have := key p.x q.x hx h0
      simpa [sub_eq_neg_add, add_comm] using this
    · right
      have := key p.y q.y hy h0
      simpa [sub_eq_neg_add, add_comm] using this

example : placeOn 1 ⟨1, 0, 0⟩ = placeOn 1 ⟨1, 0, 1⟩ ∧
    placeOn (windowMatrix false) ⟨1, 0, 0⟩ ≠ placeOn (windowMatrix false) ⟨1, 0, 1⟩ :=
  image_places_fails rfl rfl (.inl (by norm_num)) (by norm_num) (by norm_num) (by norm_num)

/-- C97. In both modes what is painted over what is reversed: of two points before the camera, the one
that is in front in the window is behind on the image. -/
theorem image_order_fails (ortho : Bool) {p q : V3} (hp : p.z < 5) (hq : q.z < 5) :
    depthOn (windowMatrix ortho) p < depthOn (windowMatrix ortho) q ↔ depthOn 1 q < depthOn 1 p := by
  have h1 : ∀ r : V3, depthOn 1 r = r.z := by
    intro r
    simp [depthOn, mulVec_point]
  rw [h1, h1]
  cases ortho with
  | true =>
    rw [window_ortho]
    simp [depthOn, mulVec_point, glmOrtho, transposeIf]
    constructor <;> intro h <;> linarith
  | false =>
    have h2 : ∀ r : V3, r.z < 5 → depthOn (windowMatrix false) r = 101 / 99 - 200 / 99 / (5 - r.z) := by
      intro r hr
      have : 5 - r.z ≠ 0 := by intro h; linarith
      have h' : -r.z + 5 ≠ 0 := by intro h; linarith
      rw [window_perspective]
      simp [depthOn, mulVec_point]
      rw [eq_sub_iff_add_eq]
      have e : -r.z + 5 = 5 - r.z := by ring
      rw [e]
      field_simp
      ring
    rw [h2 p hp, h2 q hq]
    have a : 0 < 5 - p.z := by linarith
    have b : 0 < 5 - q.z := by linarith
    rw [sub_lt_sub_iff_left, div_lt_div_iff_of_pos_left (by norm_num) b a]
    constructor <;> intro h <;> linarith

example (ortho : Bool) : depthOn (windowMatrix ortho) ⟨0, 0, 1⟩ < depthOn (windowMatrix ortho) ⟨0, 0, 0⟩ ∧
    depthOn 1 ⟨0, 0, 0⟩ < depthOn 1 ⟨0, 0, 1⟩ := by
  have h : depthOn 1 ⟨0, 0, 0⟩ < depthOn 1 ⟨0, 0, 1⟩ := by simp [depthOn, mulVec_point]
  exact ⟨(image_order_fails ortho (by norm_num) (by norm_num)).2 h, h⟩

end Verif
