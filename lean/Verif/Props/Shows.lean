import Verif.Spec.Shows
import Verif.Props.Redraw
/-
C94: every attribute of a visual shows in its drawing.
-/

namespace Verif

variable {M G α β : Type}

/-- The same visual with other variables. -/
def Canvassed.withVars (w : Vars) (s : Canvassed M G) : Canvassed M G := { s with vars := w }

/-- A piece of a program that does the same with other variables. -/
def Blind (v w : Vars) (x : Doing (Canvassed M G) α) : Prop :=
  ∀ s, s.vars = v → x (s.withVars w) = ((x s).1.withVars w, (x s).2) ∧ (x s).1.vars = v

theorem Blind.bind {v w : Vars} {x : Doing (Canvassed M G) α} {f : α → Doing (Canvassed M G) β}
    (hx : Blind v w x) (hf : ∀ a, Blind v w (f a)) : Blind v w (x >>= f) := by
  intro s hs
  obtain ⟨h1, h2⟩ := hx s hs
  rw [doing_bind, doing_bind, h1]
  rcases hxs : x s with ⟨s1, e | a⟩
  · rw [hxs] at h2; exact ⟨rfl, h2⟩
  · rw [hxs] at h2; exact hf a s1 h2

theorem blind_computed {v w : Vars} (r : Except Err α) :
    Blind v w (computed r : Doing (Canvassed M G) α) := fun _ h => ⟨rfl, h⟩

theorem blind_pure {v w : Vars} (a : α) : Blind v w (pure a : Doing (Canvassed M G) α) :=
  fun _ h => ⟨rfl, h⟩

theorem blind_evalVar {v w : Vars} {get : Vars → Source α} (h : get v = get w) :
    Blind v w (evalVar get : Doing (Canvassed M G) α) := by
  intro s hs
  refine ⟨?_, hs⟩
  simp only [evalVar, Canvassed.withVars, hs, h]

theorem blind_putPositions {v w : Vars} (x : PointRows) :
    Blind v w (putPositions x : Doing (Canvassed M G) Unit) := by
  intro s hs
  simp only [putPositions, Canvassed.withVars]
  cases fillRows s.positions x <;> exact ⟨rfl, hs⟩

theorem blind_putItems {v w : Vars} (x : PointRows) :
    Blind v w (putItems x : Doing (Canvassed M G) Unit) := by
  intro s hs
  simp only [putItems, Canvassed.withVars]
  cases fillRows s.items x <;> exact ⟨rfl, hs⟩

theorem blind_putField {v w : Vars} (vp : Nat) (f : Field) (check : Except Err Unit) (c : Content G) :
    Blind v w (putField vp f check c : Doing (Canvassed M G) Unit) := by
  intro s hs
  cases check <;> exact ⟨rfl, hs⟩

/-- The variables that the drawing of a kind of visual reads are the same. -/
theorem blind_drawOn {v w : Vars} (b : Studio M G) (k : VKind) (mo m : M) (vp : Nat) {a : AttrName}
    (ha : a ∈ k.ignores) (h : SameBut a v w) : Blind v w (drawOn b k mo m vp) := by
  cases k
  case points => cases ha
  case markers => cases ha
  case pixels => cases ha
  case segments =>
    have hne : ∀ a', a' ≠ .caps → v.agree w a' := by
      have : a = .caps := by simpa [VKind.ignores] using ha
      rw [← this]; exact h
    refine (blind_evalVar (hne .positions (by decide))).bind fun _ => (blind_computed _).bind fun _ => ?_
    refine (blind_computed _).bind fun _ => ?_
    refine (blind_putField _ _ _ _).bind fun _ => (blind_putPositions _).bind fun _ => ?_
    refine (blind_putItems _).bind fun _ => ?_
    refine (blind_evalVar (hne .line (by decide))).bind fun _ => ?_
    refine (blind_putField _ _ _ _).bind fun _ => ?_
    exact (blind_evalVar (hne .width (by decide))).bind fun _ => blind_putField _ _ _ _
  case paths =>
    have hne : ∀ a', a' ≠ .styles → a' ≠ .joins → v.agree w a' := by
      intro a' h1 h2
      apply h
      have : a = .styles ∨ a = .joins := by simpa [VKind.ignores] using ha
      rcases this with rfl | rfl
      · exact h1
      · exact h2
    refine (blind_evalVar (hne .positions (by decide) (by decide))).bind fun _ => ?_
    refine (blind_computed _).bind fun _ => ?_
    refine (blind_evalVar (hne .indices (by decide) (by decide))).bind fun _ => ?_
    refine (blind_computed _).bind fun _ => (blind_putPositions _).bind fun _ => ?_
    refine (blind_computed _).bind fun _ => (blind_putItems _).bind fun _ => ?_
    refine (blind_putField _ _ _ _).bind fun _ => ?_
    refine (blind_evalVar (hne .line (by decide) (by decide))).bind fun _ => ?_
    refine (blind_computed _).bind fun _ => (blind_putField _ _ _ _).bind fun _ => ?_
    refine (blind_evalVar (hne .width (by decide) (by decide))).bind fun _ => ?_
    exact (blind_computed _).bind fun _ => blind_putField _ _ _ _
  case polygons =>
    have hne : ∀ a', a' ≠ .styles → a' ≠ .joins → v.agree w a' := by
      intro a' h1 h2
      apply h
      have : a = .styles ∨ a = .joins := by simpa [VKind.ignores] using ha
      rcases this with rfl | rfl
      · exact h1
      · exact h2
    refine (blind_evalVar (hne .positions (by decide) (by decide))).bind fun _ => ?_
    refine (blind_computed _).bind fun _ => ?_
    refine (blind_evalVar (hne .indices (by decide) (by decide))).bind fun _ => ?_
    refine (blind_computed _).bind fun _ => (blind_putPositions _).bind fun _ => ?_
    refine (blind_computed _).bind fun _ => (blind_putItems _).bind fun _ => ?_
    refine (blind_putField _ _ _ _).bind fun _ => ?_
    refine (blind_evalVar (hne .fill (by decide) (by decide))).bind fun _ => ?_
    refine (blind_computed _).bind fun _ => (blind_putField _ _ _ _).bind fun _ => ?_
    refine (blind_evalVar (hne .line (by decide) (by decide))).bind fun _ => ?_
    refine (blind_computed _).bind fun _ => (blind_putField _ _ _ _).bind fun _ => ?_
    refine (blind_evalVar (hne .width (by decide) (by decide))).bind fun _ => ?_
    exact (blind_computed _).bind fun _ => blind_putField _ _ _ _

/-- An ignored attribute changes neither the outcome nor the result of a render. -/
theorem ignored_render (b : Studio M G) (k : VKind) (c : RCall M) {a : AttrName} (ha : a ∈ k.ignores)
    (s : Canvassed M G) (w : Vars) (h : SameBut a s.vars w) :
    renderPiecewise b k c (s.withVars w) =
      ((renderPiecewise b k c s).1.withVars w, (renderPiecewise b k c s).2) := by
  rw [redraw_eq, redraw_eq]
  have hens : Blind s.vars w (ensurePicture k c.viewport : Doing (Canvassed M G) Unit) := by
    intro s1 hs
    unfold ensurePicture
    simp only [Canvassed.withVars]
    cases dget s1.pictures c.viewport with
    | some p => exact ⟨rfl, hs⟩
    | none =>
      by_cases hk : k = .paths
      · have hc : s.vars.caps = w.caps := by
          apply h .caps
          rintro rfl
          subst hk
          exact absurd ha (by decide)
        simp only [if_pos hk, hs, hc]
        cases w.caps ⟨s1.viewport, s1.positions, s1.items⟩ <;> exact ⟨rfl, by first | exact hs | rfl⟩
      · simp only [if_neg hk]
        exact ⟨by trivial, hs⟩
  have htm : (takeMatrices b c (s.withVars w)).1 = (takeMatrices b c s).1.withVars w := rfl
  rw [htm]
  obtain ⟨h1, h2⟩ := hens (takeMatrices b c s).1 rfl
  rw [h1]
  rcases hes : ensurePicture k c.viewport (takeMatrices b c s).1 with ⟨s1, e | u⟩
  · rfl
  · rw [hes] at h2
    simp only [drawIfFits]
    have ht : (s1.withVars w).transform = s1.transform := rfl
    rw [ht]
    cases s1.transform with
    | none => rfl
    | some m => exact (blind_drawOn b k s1.model m c.viewport ha h s1 h2).1

theorem agree_apply {v w : Vars} (x : Assign) {a : AttrName} (h : v.agree w a) :
    (x.apply v).agree (x.apply w) a := by
  cases x <;> cases a <;> first | rfl | exact h

/-- … nor anything in any history of assignments and renders. -/
theorem ignored_history (b : Studio M G) (k : VKind) {a : AttrName} (ha : a ∈ k.ignores) :
    ∀ (hs : List (Happening M)) (s : Canvassed M G) (w : Vars), SameBut a s.vars w →
    ∀ vp, (happened b k { s with vars := w } hs).picture vp = (happened b k s hs).picture vp
  | [], _, _, _, _ => rfl
  | .assign x :: hs, s, w, h, vp =>
    ignored_history b k ha hs { s with vars := x.apply s.vars } (x.apply w)
      (fun a' h' => agree_apply x (h a' h')) vp
  | .render c :: hs, s, w, h, vp => by
    have h1 := ignored_render b k c ha s w h
    have h2 : happened b k { s with vars := w } (.render c :: hs) =
        happened b k ((renderPiecewise b k c s).1.withVars w) hs := by
      change happened b k (renderPiecewise b k c (s.withVars w)).1 hs = _
      rw [h1]
    rw [h2]
    exact ignored_history b k ha hs (renderPiecewise b k c s).1 w
      (by rw [(redraw_keeps b k c s).1]; exact h) vp

/-- For the examples: markers told by their axis, their types and their angles. -/
def showStudio : Studio Unit (Evald × Evald × Evald) where
  mul := fun _ _ => some ()
  place := fun _ p => p
  asRows := reshapeThree
  centre := fun ps => (ps[0]?).getD []
  order := fun keys => List.range keys.length
  outlines := fun _ rows axis types angles => .ok (rows.map (fun _ => (axis, types, angles)))
  paints := fun _ => .ok ()
  strokes := fun _ => .ok ()

/-- Two points, or two segments. -/
def showVars (k : VKind) : Vars :=
  plainVars (if k = .segments then [[0, 0, 2], [1, 1, 2], [2, 2, 2], [3, 3, 2]]
    else [[0, 0, 2], [1, 1, 2]])

/-- A visual of two elements that was just made. -/
def showVisual (k : VKind) (v : Vars) : Canvassed Unit (Evald × Evald × Evald) :=
  ⟨v, 0, [[], []], [[], []], (), (), (), some (), []⟩

/-- Something else for an attribute. -/
def otherwise (k : VKind) (v : Vars) : AttrName → Vars
  | .positions => { v with positions := fun _ => .ok (.array (.rows
      (if k = .segments then [[7, 0, 2], [1, 1, 2], [2, 2, 2], [3, 3, 2]]
        else [[7, 0, 2], [1, 1, 2]]))) }
  | .indices => { v with indices := fun _ => .ok (.size 2) }
  | .types => { v with types := fun _ => .ok (.number 7) }
  | .axis => { v with axis := fun _ => .ok (.number 7) }
  | .angles => { v with angles := fun _ => .ok (.number 7) }
  | .fill => { v with fill := fun _ => .ok (.number 7) }
  | .line => { v with line := fun _ => .ok (.number 7) }
  | .width => { v with width := fun _ => .ok (.number 7) }
  | .sizes => { v with sizes := fun _ => .ok (.number 7) }
  | .colors => { v with colors := fun _ => .ok (.number 7) }
  | .caps => { v with caps := fun _ => .ok 2 }
  | .styles => { v with styles := fun _ => .ok 2 }
  | .joins => { v with joins := fun _ => .ok 2 }

theorem otherwise_same (k : VKind) (v : Vars) (a : AttrName) : SameBut a v (otherwise k v a) := by
  intro a' h
  cases a <;> cases a' <;> first | rfl | exact absurd rfl h

/-- The part of the picture where it shows. -/
def showsIn : AttrName → Field
  | .types | .axis | .angles => .outlines
  | .fill | .colors => .face
  | .line => .edge
  | .width => .width
  | .sizes => .sizes
  | .caps => .cap
  | _ => .shapes

theorem others_show (k : VKind) (a : AttrName) (ht : a ∈ k.takes) (hi : a ∉ k.ignores) :
    (renderPiecewise showStudio k plainCall (showVisual k (showVars k))).2 = .ok () ∧
    (renderPiecewise showStudio k plainCall (showVisual k (otherwise k (showVars k) a))).2 = .ok () ∧
    (renderPiecewise showStudio k plainCall (showVisual k (showVars k))).1.picture 1 (showsIn a) ≠
      (renderPiecewise showStudio k plainCall (showVisual k (otherwise k (showVars k) a))).1.picture 1
        (showsIn a) := by
  revert ht hi
  cases k <;> cases a <;> decide +kernel

/-- **C94.** Of the attributes that a visual takes, those that show are all but the caps of Segments and the
styles and joins of Paths and Polygons. -/
theorem attribute_shows_iff (k : VKind) (a : AttrName) (ht : a ∈ k.takes) :
    Shows k a ↔ a ∉ k.ignores := by
  constructor
  · rintro ⟨M, G, b, s, w, c, hs, -, -, hne⟩ hi
    have h := ignored_render b k c hi s w hs
    apply hne
    have : (renderPiecewise b k c { s with vars := w }).1 =
        (renderPiecewise b k c s).1.withVars w := by
      change (renderPiecewise b k c (s.withVars w)).1 = _
      rw [h]
    rw [this]
    rfl
  · intro hi
    obtain ⟨h1, h2, h3⟩ := others_show k a ht hi
    exact ⟨Unit, _, showStudio, showVisual k (showVars k), otherwise k (showVars k) a, plainCall,
      otherwise_same k _ a, h1, h2, fun e => h3 (congrFun e _)⟩

/-- C94 fails: the styles and joins of Paths and Polygons and the caps of Segments do not show. -/
theorem attributes_show_fails :
    AttrName.styles ∈ VKind.paths.takes ∧ ¬ Shows .paths .styles ∧
    AttrName.joins ∈ VKind.paths.takes ∧ ¬ Shows .paths .joins ∧
    AttrName.styles ∈ VKind.polygons.takes ∧ ¬ Shows .polygons .styles ∧
    AttrName.joins ∈ VKind.polygons.takes ∧ ¬ Shows .polygons .joins ∧
    AttrName.caps ∈ VKind.segments.takes ∧ ¬ Shows .segments .caps := by
  refine ⟨by decide, ?_, by decide, ?_, by decide, ?_, by decide, ?_, by decide, ?_⟩ <;>
  · rw [attribute_shows_iff _ _ (by decide)]
    decide

example : Shows .markers .angles := (attribute_shows_iff _ _ (by decide)).2 (by decide)

example : SameBut .styles (showVars .paths) (otherwise .paths (showVars .paths) .styles) ∧
    ¬ (showVars .paths).agree (otherwise .paths (showVars .paths) .styles) .styles := by
  refine ⟨otherwise_same _ _ _, fun h => ?_⟩
  have := congrFun (show (fun _ => .ok 1 : Source Nat) = fun _ => .ok 2 from h) ⟨0, [], []⟩
  exact absurd (Except.ok.inj this) (by decide)

end Verif
