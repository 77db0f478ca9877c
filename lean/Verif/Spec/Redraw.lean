import Verif.Model.Redraw
/-
Vocabulary of C92: what a drawing may depend on.
-/

namespace Verif

variable {M G α : Type}

/-- A variable that does not refer to the outputs of the visual, "screen[positions]" and the like. -/
def Steady (x : Source α) : Prop :=
  ∀ v p i p' i', x ⟨v, p, i⟩ = x ⟨v, p', i'⟩

/-- Visuals with a second output, "screen[segments]", "screen[paths]" or "screen[polygons]". -/
def VKind.hasItems : VKind → Bool
  | .segments | .paths | .polygons => true
  | _ => false

/-- The variables that decide where and how the elements are placed do not refer to the outputs (the
others may: colours by depth). -/
def PlacedByItself (k : VKind) (v : Vars) : Prop :=
  Steady v.positions ∧
  (k = .paths ∨ k = .polygons → Steady v.indices) ∧
  (k = .markers → Steady v.axis ∧ Steady v.types ∧ Steady v.angles)

/-- `t` is the visual `s` with the same variables and number of elements, as if it had never been drawn: no
collections, and anything in its outputs. -/
structure NeverDrawn (k : VKind) (s t : Canvassed M G) : Prop where
  vars : t.vars = s.vars
  pictures : t.pictures = []
  positions : t.positions.length = s.positions.length
  items : t.items.length = s.items.length
  noItems : k.hasItems = false → t.items = s.items

/-- A call uses the same matrices for both visuals: those it gives, and those of the visual for the
others. -/
def SameMatrices (c : RCall M) (s t : Canvassed M G) : Prop :=
  c.model.getD t.model = c.model.getD s.model ∧ c.view.getD t.view = c.view.getD s.view ∧
    c.proj.getD t.proj = c.proj.getD s.proj

/-- The caps are not assigned in a history. -/
def CapsLeft (hs : List (Happening M)) : Prop :=
  ∀ h ∈ hs, ∀ x, h ≠ .assign (.caps x)

/-- The matrices of a call, with those of the visual for those left out, can be multiplied. -/
def MatricesFit (b : Studio M G) (c : RCall M) (s : Canvassed M G) : Prop :=
  ∃ pv m, b.mul (c.proj.getD s.proj) (c.view.getD s.view) = some pv ∧
    b.mul pv (c.model.getD s.model) = some m

end Verif
