import Verif.Model.Redraw
/-
Vocabulary of C94: the attributes of each kind of visual, and what it means that one shows.
-/

namespace Verif

/-- The attributes. -/
inductive AttrName where
  | positions | indices | types | axis | angles | fill | line | width | sizes | colors | caps | styles
  | joins
deriving DecidableEq, Repr

/-- The attributes that the constructor of each kind of visual takes (gsp/visual/points.py:44-48,
markers.py:48-56, pixels.py:38-40, segments.py:44-48, paths.py:109-116, polygons.py:105-112). -/
def VKind.takes : VKind → List AttrName
  | .points => [.positions, .sizes, .fill, .line, .width]
  | .markers => [.positions, .types, .sizes, .axis, .angles, .fill, .line, .width]
  | .pixels => [.positions, .colors]
  | .segments => [.positions, .caps, .line, .width]
  | .paths => [.positions, .indices, .line, .width, .styles, .joins, .caps]
  | .polygons => [.positions, .indices, .fill, .line, .width, .styles, .joins]

/-- The attributes that do not show (C94 says which). -/
def VKind.ignores : VKind → List AttrName
  | .segments => [.caps]
  | .paths | .polygons => [.styles, .joins]
  | _ => []

/-- Two visuals are given the same for an attribute. -/
def Vars.agree (v w : Vars) : AttrName → Prop
  | .positions => v.positions = w.positions
  | .indices => v.indices = w.indices
  | .types => v.types = w.types
  | .axis => v.axis = w.axis
  | .angles => v.angles = w.angles
  | .fill => v.fill = w.fill
  | .line => v.line = w.line
  | .width => v.width = w.width
  | .sizes => v.sizes = w.sizes
  | .colors => v.colors = w.colors
  | .caps => v.caps = w.caps
  | .styles => v.styles = w.styles
  | .joins => v.joins = w.joins

/-- They are given the same but for one attribute. -/
def SameBut (a : AttrName) (v w : Vars) : Prop := ∀ a', a' ≠ a → v.agree w a'

/-- An attribute shows in the drawings of a kind of visual: there are two visuals of this kind that differ
in nothing else, can both be drawn, and do not give the same picture. -/
def Shows (k : VKind) (a : AttrName) : Prop :=
  ∃ (M G : Type) (b : Studio M G) (s : Canvassed M G) (w : Vars) (c : RCall M),
    SameBut a s.vars w ∧
    (renderPiecewise b k c s).2 = .ok () ∧ (renderPiecewise b k c { s with vars := w }).2 = .ok () ∧
    (renderPiecewise b k c s).1.picture c.viewport ≠
      (renderPiecewise b k c { s with vars := w }).1.picture c.viewport

end Verif
