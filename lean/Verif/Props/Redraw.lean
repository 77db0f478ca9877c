import Verif.Lemmas.Redraw
/-
C92: what is drawn does not depend on what was drawn before.
-/

namespace Verif

variable {M G : Type}

/-- **C92.** After any history of assignments and renders, in any viewports and with whatever failures, a
render ends as it would for the same visual if it had never been drawn, and if it returns it leaves the
same picture in its viewport and the same "screen[positions]". This holds when the variables that place the
elements do not refer to the outputs; for Pixels when colours are not None, and for Paths when the caps
were not assigned since the visual was made and do not refer to the outputs either. -/
theorem redrawn_as_new_partial (b : Studio M G) (k : VKind) (s₀ t : Canvassed M G)
    (hs : List (Happening M)) (c : RCall M) (h0 : s₀.pictures = [])
    (ht : NeverDrawn k (happened b k s₀ hs) t) (hsm : SameMatrices c (happened b k s₀ hs) t)
    (hp : PlacedByItself k (happened b k s₀ hs).vars)
    (hpix : k = .pixels → ∀ e, (happened b k s₀ hs).vars.colors e ≠ .ok .none)
    (hcap : k = .paths → Steady s₀.vars.caps ∧ CapsLeft hs)
    (hm : MatricesFit b c (happened b k s₀ hs)) :
    (renderPiecewise b k c (happened b k s₀ hs)).2 = (renderPiecewise b k c t).2 ∧
    ((renderPiecewise b k c (happened b k s₀ hs)).2 = .ok () →
      (renderPiecewise b k c (happened b k s₀ hs)).1.picture c.viewport = (renderPiecewise b k c t).1.picture c.viewport ∧
      (renderPiecewise b k c (happened b k s₀ hs)).1.positions = (renderPiecewise b k c t).1.positions) := by
  have t0 : Tidy k s₀.vars.caps s₀ :=
    ⟨rfl, fun vp p h => (by rw [h0] at h; cases h), fun vp p h => (by rw [h0] at h; cases h)⟩
  obtain ⟨caps, hT, hcaps⟩ := tidy_happened b hs s₀ t0 hcap
  generalize happened b k s₀ hs = s at *
  have hst : k = .paths → Steady caps := fun e => by rw [hcaps e]; exact (hcap e).1
  have hTt : Tidy k caps t :=
    ⟨(by rw [ht.vars]; exact hT.caps), fun vp p h => (by rw [ht.pictures] at h; cases h),
      fun vp p h => (by rw [ht.pictures] at h; cases h)⟩
  obtain ⟨f1, f2⟩ := tidy_redraw hT hst b c
  obtain ⟨g1, g2⟩ := tidy_redraw hTt hst b c
  have hA : SideBySide s.vars c.viewport c.viewport False (k.hasItems = false) []
      (takeMatrices b c s).1 (takeMatrices b c t).1 :=
    ⟨rfl, ht.vars, rfl, rfl, ht.positions.symm, ht.items.symm, fun h => h.elim,
      fun h => (ht.noItems h).symm, fun f hf => by cases hf⟩
  have hT' : Tidy k s.vars.caps (takeMatrices b c s).1 := by
    rw [hT.caps]; exact ⟨hT.caps, hT.unset, hT.cap⟩
  have hmo : (takeMatrices b c s).1.model = (takeMatrices b c t).1.model := by
    simp only [takeMatrices, hsm.1]
  have htr : (takeMatrices b c s).1.transform = (takeMatrices b c t).1.transform := by
    simp only [takeMatrices, hsm.1, hsm.2.1, hsm.2.2]
  obtain ⟨pv, m, hpv, hm⟩ := hm
  have htm : (takeMatrices b c s).1.transform = some m := by
    simp only [takeMatrices, hpv, Option.bind_some, hm]
  obtain ⟨e1, e2, m1, m2, x1, x2⟩ := ensure_alike hT' hA (by rw [hT.caps]; exact hst) ht.pictures
  have key : (renderPiecewise b k c s).2 = (renderPiecewise b k c t).2 ∧
      ((renderPiecewise b k c s).2 = .ok () →
        SideBySide s.vars c.viewport c.viewport True True k.sets (renderPiecewise b k c s).1 (renderPiecewise b k c t).1) := by
    rw [redraw_eq, redraw_eq]
    rcases hes : ensurePicture k c.viewport (takeMatrices b c s).1 with ⟨s1, r⟩
    rcases het : ensurePicture k c.viewport (takeMatrices b c t).1 with ⟨t1, r'⟩
    rw [hes, het] at e1 e2
    rw [hes] at m1 x1
    rw [het] at m2 x2
    simp only at e1 e2 m1 m2 x1 x2
    subst e1
    cases r with
    | error e => exact ⟨rfl, fun h => by cases h⟩
    | ok u =>
      simp only [drawIfFits, x1, x2, ← htr, htm, m1, m2, ← hmo]
      obtain ⟨a, d⟩ := sync_drawOn b k (takeMatrices b c s).1.model m hp hpix s1 t1 e2
      exact ⟨a, fun h => d () h⟩
  refine ⟨key.1, fun hok => ?_⟩
  have hA' := key.2 hok
  exact ⟨tidy_agree f1 g1 (f2 hok) (g2 (key.1 ▸ hok)) hA'.fields, hA'.pos trivial⟩

/-- A render in one viewport, returning or not, leaves the pictures in the others alone. -/
theorem elsewhere_untouched (b : Studio M G) (k : VKind) (c : RCall M) (s : Canvassed M G) (v : Nat)
    (hv : v ≠ c.viewport) : (renderPiecewise b k c s).1.picture v = s.picture v := by
  have hk : ∀ (mo m : M) (s1 : Canvassed M G), s1.picture v = s.picture v →
      (drawOn b k mo m c.viewport s1).1.picture v = s.picture v := by
    intro mo m s1 h1
    refine keeps_drawOn (P := fun x => x.picture v = s.picture v) k c.viewport ?_ ?_ ?_ b mo m s1 h1
    · intro x s h; unfold putPositions
      cases fillRows s.positions x <;> exact h
    · intro x s h; unfold putItems
      cases fillRows s.items x <;> exact h
    · intro f _ check d s h; unfold putField
      cases check
      · exact h
      · simp only [Canvassed.picture, dget_dset_ne _ _ (Ne.symm hv)]; exact h
  have he : (ensurePicture k c.viewport (takeMatrices b c s).1).1.picture v = s.picture v := by
    unfold ensurePicture
    split
    · rfl
    · split
      · split
        · simp only [Canvassed.picture, dget_dset_ne _ _ (Ne.symm hv)]; rfl
        · rfl
      · simp only [Canvassed.picture, dget_dset_ne _ _ (Ne.symm hv)]; rfl
  rw [redraw_eq]
  rcases hes : ensurePicture k c.viewport (takeMatrices b c s).1 with ⟨s1, e | u⟩
  · rw [hes] at he; exact he
  · rw [hes] at he
    simp only [drawIfFits]
    cases s1.transform with
    | none => exact he
    | some m => exact hk _ _ _ he

/-- A render keeps the variables and the sizes of the outputs. -/
theorem redraw_keeps (b : Studio M G) (k : VKind) (c : RCall M) (s : Canvassed M G) :
    (renderPiecewise b k c s).1.vars = s.vars ∧
    (renderPiecewise b k c s).1.positions.length = s.positions.length ∧
    (renderPiecewise b k c s).1.items.length = s.items.length ∧
    (renderPiecewise b k c s).1.model = c.model.getD s.model ∧
    (renderPiecewise b k c s).1.view = c.view.getD s.view ∧
    (renderPiecewise b k c s).1.proj = c.proj.getD s.proj := by
  let P : Canvassed M G → Prop := fun x => x.vars = s.vars ∧
    x.positions.length = s.positions.length ∧ x.items.length = s.items.length ∧
    x.model = c.model.getD s.model ∧ x.view = c.view.getD s.view ∧ x.proj = c.proj.getD s.proj
  have hk : ∀ (mo m : M) (s1 : Canvassed M G), P s1 → P (drawOn b k mo m c.viewport s1).1 := by
    intro mo m s1 h1
    refine keeps_drawOn (P := P) k c.viewport ?_ ?_ ?_ b mo m s1 h1
    · rintro x s ⟨h1, h2, h3⟩; unfold putPositions
      cases hf : fillRows s.positions x
      · exact ⟨h1, h2, h3⟩
      · exact ⟨h1, (fillRows_length hf).trans h2, h3⟩
    · rintro x s ⟨h1, h2, h3, h4⟩; unfold putItems
      cases hf : fillRows s.items x
      · exact ⟨h1, h2, h3, h4⟩
      · exact ⟨h1, h2, (fillRows_length hf).trans h3, h4⟩
    · intro f _ check d s h; unfold putField
      cases check <;> exact h
  have he : P (ensurePicture k c.viewport (takeMatrices b c s).1).1 := by
    have h0 : P (takeMatrices b c s).1 := ⟨rfl, rfl, rfl, rfl, rfl, rfl⟩
    unfold ensurePicture
    split
    · exact h0
    · split
      · split <;> exact h0
      · exact h0
  change P (renderPiecewise b k c s).1
  rw [redraw_eq]
  rcases hes : ensurePicture k c.viewport (takeMatrices b c s).1 with ⟨s1, e | u⟩
  · rw [hes] at he; exact he
  · rw [hes] at he
    simp only [drawIfFits]
    cases s1.transform with
    | none => exact he
    | some m => exact hk _ _ _ he

/-- The sizes of the outputs never change. -/
theorem happened_items_length (b : Studio M G) (k : VKind) : ∀ (hs : List (Happening M))
    (s : Canvassed M G), (happened b k s hs).items.length = s.items.length
  | [], _ => rfl
  | .assign _ :: hs, s => happened_items_length b k hs _
  | .render c :: hs, s => (happened_items_length b k hs _).trans (redraw_keeps b k c s).2.2.1

/-- Rendering again when nothing was assigned in between ends the same way and leaves the same picture,
whatever was drawn before. (The second time, as a resize does, without matrices: those of the first are
remembered.) -/
theorem redrawn_twice (b : Studio M G) (k : VKind) (s₀ : Canvassed M G)
    (hs : List (Happening M)) (c : RCall M) (h0 : s₀.pictures = [])
    (hp : PlacedByItself k (happened b k s₀ hs).vars)
    (hi : k.hasItems = false → s₀.items = [])
    (hpix : k = .pixels → ∀ e, (happened b k s₀ hs).vars.colors e ≠ .ok .none)
    (hcap : k = .paths → Steady s₀.vars.caps ∧ CapsLeft hs)
    (hm : MatricesFit b c (happened b k s₀ hs))
    (hok : (renderPiecewise b k c (happened b k s₀ hs)).2 = .ok ()) :
    let once := (renderPiecewise b k c (happened b k s₀ hs)).1
    (renderPiecewise b k ⟨c.viewport, none, none, none⟩ once).2 = .ok () ∧
    (renderPiecewise b k ⟨c.viewport, none, none, none⟩ once).1.picture c.viewport = once.picture c.viewport := by
  intro once
  have hon : once = happened b k s₀ (hs ++ [.render c]) := by
    simp only [happened, List.foldl_append, List.foldl_cons, List.foldl_nil]; rfl
  have hil := happened_items_length b k hs s₀
  obtain ⟨k1, k2, k3, k4, k5, k6⟩ := redraw_keeps b k c (happened b k s₀ hs)
  let t : Canvassed M G := { once with pictures := [] }
  have none_items : k.hasItems = false → once.items = (happened b k s₀ hs).items := by
    intro e
    have h1 : (happened b k s₀ hs).items = [] := List.length_eq_zero_iff.1 (by rw [hil, hi e]; rfl)
    rw [h1]
    exact List.length_eq_zero_iff.1 (by rw [k3, h1]; rfl)
  have ht : NeverDrawn k (happened b k s₀ hs) t := ⟨k1, rfl, k2, k3, none_items⟩
  have hgg : ∀ (o : Option M) (x : M), o.getD (o.getD x) = o.getD x := by
    intro o x; cases o <;> rfl
  have hsm : SameMatrices c (happened b k s₀ hs) t :=
    ⟨by simp only [t, once, k4, hgg], by simp only [t, once, k5, hgg], by simp only [t, once, k6, hgg]⟩
  obtain ⟨a1, a2⟩ := redrawn_as_new_partial b k s₀ t hs c h0 ht hsm hp hpix hcap hm
  obtain ⟨a2, -⟩ := a2 hok
  have same : renderPiecewise b k ⟨c.viewport, none, none, none⟩ t = renderPiecewise b k c t := by
    rw [redraw_eq, redraw_eq]
    have : takeMatrices b ⟨c.viewport, none, none, none⟩ t = takeMatrices b c t := by
      have e1 : c.model.getD t.model = t.model := by simp only [t, once, k4, hgg]
      have e2 : c.view.getD t.view = t.view := by simp only [t, once, k5, hgg]
      have e3 : c.proj.getD t.proj = t.proj := by simp only [t, once, k6, hgg]
      simp only [takeMatrices, e1, e2, e3, Option.getD_none]
    rw [this]
  have hv : once.vars = (happened b k s₀ hs).vars := k1
  have hm' : MatricesFit b ⟨c.viewport, none, none, none⟩ once := by
    obtain ⟨pv, m, e1, e2⟩ := hm
    refine ⟨pv, m, ?_, ?_⟩
    · simp only [Option.getD_none, once, k5, k6, e1]
    · simp only [Option.getD_none, once, k4, e2]
  rw [hon] at hm' hv
  obtain ⟨b1, b2⟩ := redrawn_as_new_partial b k s₀ t (hs ++ [.render c]) ⟨c.viewport, none, none, none⟩ h0
    (hon ▸ ⟨rfl, rfl, rfl, rfl, fun _ => rfl⟩) (hon ▸ ⟨rfl, rfl, rfl⟩) (by rw [hv]; exact hp)
    (by rw [hv]; exact hpix)
    (fun e => ⟨(hcap e).1, fun x hx => (by
      rcases List.mem_append.1 hx with h | h
      · exact (hcap e).2 x h
      · intro y hy; rw [List.mem_singleton.1 h] at hy; cases hy)⟩) hm'
  rw [same] at b1 b2
  rw [← hon] at b1 b2
  have hok' := b1.trans (a1.symm.trans hok)
  refine ⟨hok', ?_⟩
  rw [(b2 hok').1]
  exact a2.symm

/-- A render whose positions cannot be evaluated, or make no rows of three, leaves all pictures as they are
(in a viewport where the visual was drawn before; not for Pixels, which take other forms). -/
theorem failed_positions_keep (b : Studio M G) (k : VKind) (c : RCall M) (s : Canvassed M G)
    (hk : k ≠ .pixels) (hd : ∃ p, dget s.pictures c.viewport = some p)
    (hpos : ∀ x, s.vars.positions ⟨c.viewport, s.positions, s.items⟩ = .ok x →
      ∃ e, reshapeThree x = .error e) :
    (renderPiecewise b k c s).1.pictures = s.pictures := by
  obtain ⟨p, hd⟩ := hd
  rw [redraw_eq]
  have he : ensurePicture k c.viewport (takeMatrices b c s).1 = ((takeMatrices b c s).1, .ok ()) := by
    unfold ensurePicture
    simp only [takeMatrices, hd]
  rw [he]
  simp only [drawIfFits]
  cases (takeMatrices b c s).1.transform with
  | none => rfl
  | some m =>
    have start : ∀ (f : List (List ℚ) → Doing (Canvassed M G) Unit),
        (((evalVar (·.positions) >>= fun v => computed (reshapeThree v) >>= f) :
          Doing (Canvassed M G) Unit) (takeMatrices b c s).1).1.pictures = s.pictures := by
      intro f
      rw [doing_bind]
      simp only [evalVar]
      have hv : (takeMatrices b c s).1.vars.positions
          ⟨(takeMatrices b c s).1.viewport, (takeMatrices b c s).1.positions, (takeMatrices b c s).1.items⟩
          = s.vars.positions ⟨c.viewport, s.positions, s.items⟩ := rfl
      rw [hv]
      cases hx : s.vars.positions ⟨c.viewport, s.positions, s.items⟩ with
      | error e => rfl
      | ok x =>
        obtain ⟨e, he⟩ := hpos x hx
        simp only
        rw [doing_bind]
        simp only [computed, he]
        rfl
    cases k
    case points => exact start _
    case markers => exact start _
    case pixels => exact absurd rfl hk
    case segments => exact start _
    case paths => exact start _
    case polygons => exact start _

/-- For the examples: one matrix, points where they are, elements in the order given, markers told by their
angles. -/
def plainStudio : Studio Unit Evald where
  mul := fun _ _ => some ()
  place := fun _ p => p
  asRows := reshapeThree
  centre := fun ps => (ps[0]?).getD []
  order := fun keys => List.range keys.length
  outlines := fun _ rows _ _ angles => .ok (rows.map (fun _ => angles))
  paints := fun _ => .ok ()
  strokes := fun _ => .ok ()

/-- Nothing given but positions. -/
def plainVars (positions : List (List ℚ)) : Vars where
  positions := fun _ => .ok (.array (.rows positions))
  indices := fun _ => .ok (.size 1)
  types := fun _ => .ok (.number 0)
  axis := fun _ => .ok .none
  angles := fun _ => .ok (.number 0)
  fill := fun _ => .ok (.number 0)
  line := fun _ => .ok (.number 0)
  width := fun _ => .ok (.number 1)
  sizes := fun _ => .ok (.number 1)
  colors := fun _ => .ok (.number 0)
  caps := fun _ => .ok 1
  styles := fun _ => .ok 1
  joins := fun _ => .ok 1

/-- A visual with one element that was just made. -/
def plainVisual (v : Vars) (items : PointRows) : Canvassed Unit Evald :=
  ⟨v, 0, [[0, 0, 0]], items, (), (), (), some (), []⟩

/-- Colours by depth, as `colormap(Out("screen[positions].z"))`. -/
def byDepth : Source Evald := fun e => .ok (.array (.numbers (e.positions.map thirdOf)))

/-- A render in viewport 1. -/
def plainCall : RCall Unit := ⟨1, none, none, none⟩

/-- Points whose colour is their depth, drawn, moved, and drawn again: the picture of the new place with the
new depth, as if it had never been drawn. -/
example :
    let v := { plainVars [[0, 0, 2]] with fill := byDepth }
    let moved := happened plainStudio .points (plainVisual v [])
      [.render plainCall, .assign (.positions fun _ => .ok (.array (.rows [[5, 6, 7]])))]
    PlacedByItself .points moved.vars ∧ MatricesFit plainStudio plainCall moved ∧
    NeverDrawn .points moved { moved with pictures := [] } ∧
    (renderPiecewise plainStudio .points plainCall moved).2 = .ok () ∧
    (renderPiecewise plainStudio .points plainCall moved).1.picture 1 .shapes = .shapes [[[5, 6]]] ∧
    (renderPiecewise plainStudio .points plainCall moved).1.picture 1 .face = .paint (some (.flat [-6])) := by
  refine ⟨⟨fun _ _ _ _ _ => rfl, fun h => ?_, fun h => ?_⟩, ⟨(), (), rfl, rfl⟩,
    ⟨rfl, rfl, rfl, rfl, fun _ => rfl⟩, by decide +kernel, by decide +kernel, by decide +kernel⟩
  · rcases h with h | h <;> cases h
  · cases h

/-- A failing render in between, in the same viewport, changes nothing in what is drawn after it; another
viewport keeps its picture. -/
example :
    let s := happened plainStudio .segments
      (plainVisual (plainVars [[0, 0, 2], [1, 1, 2]]) [[0]])
      [.render plainCall, .render ⟨2, none, none, none⟩, .assign (.width fun _ => .error .typeError),
        .assign (.positions fun _ => .ok (.array (.rows [[5, 6, 7], [8, 9, 7]]))), .render plainCall,
        .assign (.width fun _ => .ok (.number 3))]
    s.picture 1 .shapes = .shapes [[[5, 6], [8, 9]]] ∧ s.picture 1 .width = .paint (some (.other 1)) ∧
    (renderPiecewise plainStudio .segments plainCall s).2 = .ok () ∧
    (renderPiecewise plainStudio .segments plainCall s).1.picture 1 .width = .paint (some (.other 3)) ∧
    (renderPiecewise plainStudio .segments plainCall s).1.picture 2 .shapes = .shapes [[[0, 0], [1, 1]]] ∧
    MatricesFit plainStudio plainCall s := by
  refine ⟨by decide +kernel, by decide +kernel, by decide +kernel, by decide +kernel, by decide +kernel,
    ⟨(), (), rfl, rfl⟩⟩

/-- Positions that make no rows of three: nothing changes. -/
example :
    let s := happened plainStudio .points (plainVisual (plainVars [[0, 0, 2]]) [])
      [.render plainCall, .assign (.positions fun _ => .ok (.array (.numbers [1, 2])))]
    (renderPiecewise plainStudio .points plainCall s).2 = .error .valueError ∧
    (renderPiecewise plainStudio .points plainCall s).1.picture 1 .shapes = .shapes [[[0, 0]]] := by
  decide +kernel

/-- Markers, paths and polygons drawn once and once more. -/
example :
    let s := plainVisual (plainVars [[0, 0, 2]]) [[0, 0, 0]]
    (∀ k ∈ [VKind.markers, .paths, .polygons],
      (renderPiecewise plainStudio k plainCall (renderPiecewise plainStudio k plainCall s).1).2 = .ok ()) ∧
    (renderPiecewise plainStudio .paths plainCall s).1.picture 1 .cap = .cap 1 ∧
    (renderPiecewise plainStudio .polygons plainCall s).1.picture 1 .face = .paint (some (.other 0)) := by
  decide +kernel

/-- C92 fails for markers whose angle is their depth: they are turned by the depth of the drawing before,
so that drawing twice the same does not give the same. -/
theorem markers_by_depth_fails :
    let s := plainVisual { plainVars [[0, 0, 2]] with angles := byDepth } []
    let once := (renderPiecewise plainStudio .markers plainCall s).1
    let twice := (renderPiecewise plainStudio .markers plainCall once).1
    once.picture 1 .outlines = .outlines [.array (.numbers [0])] ∧
    twice.picture 1 .outlines = .outlines [.array (.numbers [-1])] := by
  decide +kernel

/-- C92 fails for Paths: caps that are assigned after the first render are not drawn … -/
theorem caps_assigned_fails :
    let s := happened plainStudio .paths (plainVisual (plainVars [[0, 0, 2]]) [[0, 0, 0]])
      [.render plainCall, .assign (.caps fun _ => .ok 2)]
    (renderPiecewise plainStudio .paths plainCall s).2 = .ok () ∧
    (renderPiecewise plainStudio .paths plainCall s).1.picture 1 .cap = .cap 1 ∧
    (renderPiecewise plainStudio .paths plainCall { s with pictures := [] }).1.picture 1 .cap = .cap 2 := by
  decide +kernel

/-- … and for Pixels: assigning None leaves the colours of before. -/
theorem pixels_none_fails :
    let s := happened plainStudio .pixels (plainVisual (plainVars [[0, 0, 2]]) [])
      [.render plainCall, .assign (.colors fun _ => .ok .none)]
    (renderPiecewise plainStudio .pixels plainCall s).1.picture 1 .face = .paint (some (.other 0)) ∧
    (renderPiecewise plainStudio .pixels plainCall { s with pictures := [] }).1.picture 1 .face = .blank := by
  decide +kernel

/-- A render that raises leaves a mixture: the new places with the old colours (until a render returns). -/
theorem failed_render_torn :
    let s := happened plainStudio .points (plainVisual (plainVars [[0, 0, 2]]) [])
      [.render plainCall, .assign (.positions fun _ => .ok (.array (.rows [[5, 6, 7]]))),
        .assign (.fill fun _ => .error .keyError)]
    (renderPiecewise plainStudio .points plainCall s).2 = .error .keyError ∧
    (renderPiecewise plainStudio .points plainCall s).1.picture 1 .shapes = .shapes [[[5, 6]]] ∧
    (renderPiecewise plainStudio .points plainCall s).1.picture 1 .face = .paint (some (.other 0)) := by
  decide +kernel

/-- Matrices that do not fit: the render returns and the old picture stays. -/
theorem matrices_unfit_keep (b : Studio M G) (k : VKind) (c : RCall M) (s : Canvassed M G)
    (hd : ∃ p, dget s.pictures c.viewport = some p) (hm : ¬ MatricesFit b c s) :
    (renderPiecewise b k c s).2 = .ok () ∧ (renderPiecewise b k c s).1.pictures = s.pictures := by
  obtain ⟨p, hd⟩ := hd
  rw [redraw_eq]
  have he : ensurePicture k c.viewport (takeMatrices b c s).1 = ((takeMatrices b c s).1, .ok ()) := by
    unfold ensurePicture
    simp only [takeMatrices, hd]
  have ht : (takeMatrices b c s).1.transform = none := by
    simp only [takeMatrices]
    cases h1 : b.mul (c.proj.getD s.proj) (c.view.getD s.view) with
    | none => rfl
    | some pv =>
      simp only [Option.bind_some]
      cases h2 : b.mul pv (c.model.getD s.model) with
      | none => rfl
      | some m => exact absurd ⟨pv, m, h1, h2⟩ hm
  rw [he]
  simp only [drawIfFits, ht]
  exact ⟨trivial, rfl⟩

end Verif
