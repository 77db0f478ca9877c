import Verif.Model.Redraw
import Verif.Spec.Visual
/-
Vocabulary of C95: what is seen of the elements of a collection, and what is meant for each.
-/

namespace Verif

variable {M G X : Type}

/-- How many elements a collection has: as many as places or paths. -/
def Picture.count (p : Picture G) : Nat :=
  match p .shapes with
  | .shapes xs => xs.length
  | _ => 0

/-- The place, or the path, of the element drawn at rank `k`. -/
def Picture.shapeAt (p : Picture G) (k : Nat) : Option PointRows :=
  match p .shapes with
  | .shapes xs => xs[k]?
  | _ => none

/-- Its outline, for markers. -/
def Picture.outlineAt (p : Picture G) (k : Nat) : Option G :=
  match p .outlines with
  | .outlines gs => gs[k]?
  | _ => none

/-- A colour of it (`f` is `face` or `edge`); `none`: what matplotlib takes by default. -/
def Picture.colourOf (p : Picture G) (f : Field) (k : Nat) : Option (List ℚ) :=
  match p f with
  | .paint (some a) => colourAt a k
  | _ => none

/-- The width of its lines. -/
def Picture.widthOf (p : Picture G) (k : Nat) : Option ℚ :=
  match p .width with
  | .paint (some a) => widthAt a k
  | _ => none

/-- Its size. -/
def Picture.sizeOf (p : Picture G) (k : Nat) : Option ℚ :=
  match p .sizes with
  | .sizes xs => xs[k]?
  | _ => none

/-- The colour that a value means for element `j` of `n`. -/
def Evald.colour (n j : Nat) : Evald → Option (List ℚ)
  | .array v => meantColour n v.attr j
  | .list v => meantColour n v.attr j
  | .number x => some [x]
  | .none => Option.none

/-- The width that a value means for element `j` of `n`. -/
def Evald.width (n j : Nat) : Evald → Option ℚ
  | .array v => meantWidth n v.attr j
  | .list v => meantWidth n v.attr j
  | .number x => some x
  | .none => Option.none

/-- The size that a value means for element `j`. -/
def Evald.size (j : Nat) : Evald → Option ℚ
  | .array v => v.ravel[j]?
  | .list v => v.ravel[j]?
  | .number x => some x
  | .none => Option.none

/-- A value that says clearly which colours are meant for `n` elements: an array with one colour for each
or with one for all, a single colour whose components are not as many as the elements, a list with one
colour. (A list with several is used in the order of drawing: C90.) -/
def Evald.SaysColour (n : Nat) : Evald → Prop
  | .array v => FitsColour n v.attr
  | .list (.rows xs) => xs.length = 1
  | .list (.numbers _) => True
  | .number _ => True
  | .none => True

/-- The same for widths. -/
def Evald.SaysWidth (n : Nat) : Evald → Prop
  | .array v => FitsWidth n v.attr
  | .list v => v.len = 1
  | .number _ => True
  | .none => True

/-- `n` elements are drawn, each of them once, those of greater depth first, and what is seen at the rank
where an element is drawn is what is meant for it. -/
def Arranged (n : Nat) (depths : List ℚ) (seen want : Nat → X) : Prop :=
  ∃ idx : List Nat, idx.Perm (List.range n) ∧ FartherFirst depths idx ∧
    ∀ k < n, ∃ j, idx[k]? = some j ∧ seen k = want j

/-- The colour that element `j` of `n` is drawn in at rank `k`: its own item of an array with one for each;
otherwise the items of an array or of a list are used in the order of drawing, again and again. -/
def Evald.colourAt (n k j : Nat) : Evald → Option (List ℚ)
  | .array (.rows xs) => if xs.length = n then xs[j]? else xs[k % xs.length]?
  | .list (.rows xs) => xs[k % xs.length]?
  | .array (.numbers xs) => some xs
  | .list (.numbers xs) => some xs
  | .number x => some [x]
  | .none => Option.none

/-- The width, likewise. -/
def Evald.widthAt (n k j : Nat) : Evald → Option ℚ
  | .array (.rows xs) => (if xs.length = n then xs[j]? else xs[k % xs.length]?).bind (·[0]?)
  | .array (.numbers xs) => if xs.length = n then xs[j]? else xs[k % xs.length]?
  | .list (.rows xs) => xs[k % xs.length]?.bind (·[0]?)
  | .list (.numbers xs) => xs[k % xs.length]?
  | .number x => some x
  | .none => Option.none

/-- One colour, given as an array, whose components are as many as the elements: it is taken for an array
with one item for each element. -/
def Evald.Muddled (n : Nat) (x : Evald) : Prop := ∃ xs, x = .array (.numbers xs) ∧ xs.length = n

/-- `n` elements are drawn, each of them once, those of greater depth first, and element `j`, drawn at rank
`k`, is seen as `want k j`. -/
def Ranked (n : Nat) (depths : List ℚ) (seen : Nat → X) (want : Nat → Nat → X) : Prop :=
  ∃ idx : List Nat, idx.Perm (List.range n) ∧ FartherFirst depths idx ∧
    ∀ k < n, ∃ j, idx[k]? = some j ∧ seen k = want k j

/-- The matrix that points are multiplied with in a call. -/
def matrixOf (b : Studio M G) (c : RCall M) (s : Canvassed M G) : Option M :=
  (b.mul (c.proj.getD s.proj) (c.view.getD s.view)).bind (fun pv => b.mul pv (c.model.getD s.model))

/-- What the variables are evaluated with in a viewport. -/
def Canvassed.around (s : Canvassed M G) (vp : Nat) : Surround := ⟨vp, s.positions, s.items⟩

/-- Where on the canvas a point is. -/
def Studio.onCanvas (b : Studio M G) (m : M) (p : List ℚ) : List ℚ := (b.place m p).take 2

/-- Its depth. -/
def Studio.depth (b : Studio M G) (m : M) (p : List ℚ) : ℚ := (b.place m p).getD 2 0

/-- The mean. -/
def meanOf (xs : List ℚ) : ℚ := xs.sum / xs.length

/-- The parameters do what numpy does: points have three coordinates after the projection, the mean of
points has the mean of their depths, and the sort puts keys in ascending order. -/
structure Studio.Proper (b : Studio M G) : Prop where
  three : ∀ m p, (b.place m p).length = 3
  mean : ∀ q, q ≠ [] → (b.centre q).getD 2 0 = meanOf (q.map (·.getD 2 0))
  sorts : ∀ keys, IsArgsort keys (b.order keys)

/-- The variables of a visual give plain values, which depend on nothing: arrays of points, of one colour
and one width for each of `n` elements, a size for all, anything for the outlines. -/
structure Gives (v : Vars) (n : Nat) (given : Nested) (indices : Indices) : Prop where
  positions : ∀ e, v.positions e = .ok (.array given)
  indices : ∀ e, v.indices e = .ok indices
  types : ∃ x, ∀ e, v.types e = .ok x
  axis : ∃ x, ∀ e, v.axis e = .ok x
  angles : ∃ x, ∀ e, v.angles e = .ok x
  fill : ∃ xs, xs.length = n ∧ ∀ e, v.fill e = .ok (.array (.rows xs))
  line : ∃ xs, xs.length = n ∧ ∀ e, v.line e = .ok (.array (.rows xs))
  width : ∃ xs, xs.length = n ∧ ∀ e, v.width e = .ok (.array (.numbers xs))
  sizes : ∃ x, ∀ e, v.sizes e = .ok (.number x)
  colors : ∃ xs, xs.length = n ∧ ∀ e, v.colors e = .ok (.array (.rows xs))
  caps : ∃ x, ∀ e, v.caps e = .ok x

/-- matplotlib takes all colours and widths, the outlines can be made, and pixels are given as points. -/
structure Studio.Accepts (b : Studio M G) : Prop where
  paints : ∀ x, b.paints x = .ok ()
  strokes : ∀ x, b.strokes x = .ok ()
  outlines : ∀ m ps x y z, ∃ gs, b.outlines m ps x y z = .ok gs
  asRows : ∀ rows, b.asRows (.array (.rows rows)) = .ok rows

/-- How `n` elements are made of the points, for each kind. -/
def Counts (b : Studio M G) (k : VKind) (n : Nat) (rows : PointRows) (indices : Indices) (m : M) : Prop :=
  match k with
  | .points | .markers | .pixels => rows.length = n
  | .segments => rows.length = 2 * n
  | .paths | .polygons => ∃ parts, cutPaths (rows.map (b.place m)) indices = .ok parts ∧
      parts.length = n ∧ 0 < n

/-- The outputs as the constructor makes them for `n` elements: a row for each element, or for each point
of paths and polygons. -/
def Made (k : VKind) (n : Nat) (rows : PointRows) (s : Canvassed M G) : Prop :=
  match k with
  | .points | .markers | .pixels => s.positions.length = n
  | .segments => s.positions.length = n ∧ s.items.length = n
  | .paths | .polygons => s.positions.length = rows.length ∧ s.items.length = n

end Verif
