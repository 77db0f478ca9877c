import Verif.Model.Given
import Verif.Model.Visual
/-
Drawing again and again: how `render` of the matplotlib backend goes through the variables of a visual,
writes its outputs and replaces the content of its collection piece by piece
(gsp/visual/visual.py, gsp_matplotlib/visual/*.py).

Simplifications: numbers are rationals; the projection of a point, the sort, the outlines of markers and
the checks of matplotlib are parameters; variables refer to the viewport and to the outputs only (a
transform may name other variables, which are then part of it); array tracking is in Model/Visual.lean.
-/

namespace Verif

/-- Points, or rows of numbers. -/
abbrev PointRows := List (List ℚ)

/-- What transforms are evaluated with (gsp/visual/visual.py:77): the variable "viewport"
(visual.py:123) and the outputs "screen[positions]" and "screen[segments]", "screen[paths]" or
"screen[polygons]". The other outputs are never written. -/
structure Surround where
  viewport : Nat
  positions : PointRows
  items : PointRows
deriving DecidableEq

/-- A variable of a visual, by what `eval_variable` gives for it (gsp/visual/visual.py:65-87). -/
abbrev Source (α : Type) := Surround → Except Err α

/-- The variables of all kinds of visuals. (Indices are given by what they evaluate to, caps by what the
table of matplotlib's names gives, gsp_matplotlib/visual/paths.py:53-56; styles and joins of lines are the
members of LineStyle and LineJoin.) -/
structure Vars where
  positions : Source Evald
  indices : Source Indices
  types : Source Evald
  axis : Source Evald
  angles : Source Evald
  fill : Source Evald
  line : Source Evald
  width : Source Evald
  sizes : Source Evald
  colors : Source Evald
  caps : Source Nat
  styles : Source Nat
  joins : Source Nat

/-- An assignment of a variable (`set_variable`, gsp/visual/visual.py:30-47). -/
inductive Assign where
  | positions (x : Source Evald)
  | indices (x : Source Indices)
  | types (x : Source Evald)
  | axis (x : Source Evald)
  | angles (x : Source Evald)
  | fill (x : Source Evald)
  | line (x : Source Evald)
  | width (x : Source Evald)
  | sizes (x : Source Evald)
  | colors (x : Source Evald)
  | caps (x : Source Nat)
  | styles (x : Source Nat)
  | joins (x : Source Nat)

/-- gsp/visual/visual.py:42-43. -/
def Assign.apply (v : Vars) : Assign → Vars
  | .positions x => { v with positions := x }
  | .indices x => { v with indices := x }
  | .types x => { v with types := x }
  | .axis x => { v with axis := x }
  | .angles x => { v with angles := x }
  | .fill x => { v with fill := x }
  | .line x => { v with line := x }
  | .width x => { v with width := x }
  | .sizes x => { v with sizes := x }
  | .colors x => { v with colors := x }
  | .caps x => { v with caps := x }
  | .styles x => { v with styles := x }
  | .joins x => { v with joins := x }

/-- The parts of a matplotlib collection that `render` sets. -/
inductive Field where
  | shapes | outlines | face | edge | width | sizes | cap
deriving DecidableEq, Repr

/-- What a part holds: nothing yet, places or paths, outlines of markers, what colours or widths were set
to (`none`: the default of matplotlib), sizes, a style of caps. -/
inductive Content (G : Type) where
  | blank
  | shapes (xs : List PointRows)
  | outlines (gs : List G)
  | paint (a : Option Attr)
  | sizes (xs : List ℚ)
  | cap (n : Nat)
deriving DecidableEq

/-- A collection. -/
abbrev Picture (G : Type) := Field → Content G

/-- An empty collection. -/
def Picture.blank {G : Type} : Picture G := fun _ => .blank

/-- One part of it replaced. -/
def Picture.put {G : Type} (p : Picture G) (f : Field) (c : Content G) : Picture G :=
  fun g => if g = f then c else p g

/-- A visual while a program runs: its variables, its outputs, its matrices, its collections. -/
structure Canvassed (M G : Type) where
  vars : Vars
  viewport : Nat
  positions : PointRows
  items : PointRows
  model : M
  view : M
  proj : M
  transform : Option M
  pictures : Dict Nat (Picture G)

/-- What is left open: the product of matrices, the projection of a point (`to_vec4`, the product, and
`to_vec3`), the rows that Pixels make of their positions, the mean of points, the sort, the outlines of
markers for a model matrix, the positions and the three variables, the sort of caps, and whether
matplotlib takes colours and widths. -/
structure Studio (M G : Type) where
  mul : M → M → Option M
  place : M → List ℚ → List ℚ
  asRows : Evald → Except Err PointRows
  centre : PointRows → List ℚ
  order : List ℚ → List Nat
  outlines : M → PointRows → Evald → Evald → Evald → Except Err (List G)
  paints : Option Attr → Except Err Unit
  strokes : Option Attr → Except Err Unit

/-- A piece of a program: an exception leaves behind what was done before it. -/
def Doing (S α : Type) := S → S × Except Err α

instance {S : Type} : Monad (Doing S) where
  pure a := fun s => (s, .ok a)
  bind x f := fun s => match x s with
    | (s, .ok a) => f a s
    | (s, .error e) => (s, .error e)

variable {M G α : Type}

/-- A computation that does not touch the visual. -/
def computed (r : Except Err α) : Doing (Canvassed M G) α := fun s => (s, r)

/-- `self.eval_variable(name)`. -/
def evalVar (get : Vars → Source α) : Doing (Canvassed M G) α :=
  fun s => (s, get s.vars ⟨s.viewport, s.positions, s.items⟩)

/-- `out[...] = value` for rows: as many rows as the output has, or one for all (gsp/visual/visual.py:45).
-/
def fillRows (out value : PointRows) : Except Err PointRows :=
  if value.length = out.length then .ok value
  else match value with
    | [r] => .ok (List.replicate out.length r)
    | _ => .error .valueError

/-- `self.set_variable("screen[positions]", …)`. -/
def putPositions (value : PointRows) : Doing (Canvassed M G) Unit :=
  fun s => match fillRows s.positions value with
    | .ok new => ({ s with positions := new }, .ok ())
    | .error e => (s, .error e)

/-- `self.set_variable("screen[segments]", …)`, and for paths and polygons. -/
def putItems (value : PointRows) : Doing (Canvassed M G) Unit :=
  fun s => match fillRows s.items value with
    | .ok new => ({ s with items := new }, .ok ())
    | .error e => (s, .error e)

/-- A list of points as the value of an output of shape (n,3): the empty list makes an array of shape
(0,), which does not fit. -/
def meansOf (value : PointRows) : Except Err PointRows :=
  if value = [] then .error .valueError else .ok value

/-- The collection of a viewport. -/
def Canvassed.picture (s : Canvassed M G) (vp : Nat) : Picture G := (dget s.pictures vp).getD .blank

/-- A setter of the collection of a viewport, after matplotlib's check of the value. -/
def putField (vp : Nat) (f : Field) (check : Except Err Unit) (c : Content G) :
    Doing (Canvassed M G) Unit :=
  fun s => match check with
    | .ok () => ({ s with pictures := dset s.pictures vp ((s.picture vp).put f c) }, .ok ())
    | .error e => (s, .error e)

/-- `positions[:,2] = 1 - positions[:,2]` (gsp_matplotlib/visual/points.py:69, markers.py:122). -/
def turnedDepth : List ℚ → List ℚ
  | [x, y, z] => [x, y, 1 - z]
  | p => p

/-- The third coordinate. -/
def thirdOf (p : List ℚ) : ℚ := p.getD 2 0

/-- PointRows in pairs, for `reshape(-1,2,3)`. -/
def pairUp : PointRows → Except Err (List PointRows)
  | [] => .ok []
  | [_] => .error .valueError
  | p :: q :: r => (pairUp r).map ([p, q] :: ·)

/-- The first two coordinates of each point, `[...,:2]`. -/
def flatShape (ps : PointRows) : PointRows := ps.map (·.take 2)

/-- Points.render (gsp_matplotlib/visual/points.py:62-97). -/
def drawPointsOn (b : Studio M G) (m : M) (vp : Nat) : Doing (Canvassed M G) Unit := do
  let value ← evalVar (·.positions)
  let rows ← computed (reshapeThree value)
  let ps := rows.map (fun p => turnedDepth (b.place m p))
  let n := ps.length
  let idx := b.order (ps.map thirdOf)
  putField vp .shapes (.ok ()) (.shapes ((permute idx ps).map (fun p => flatShape [p])))
  putPositions ps
  let fill ← evalVar (·.fill)
  putField vp .face (b.paints (handOver n idx fill)) (.paint (handOver n idx fill))
  let line ← evalVar (·.line)
  putField vp .edge (b.paints (handOver n idx line)) (.paint (handOver n idx line))
  let width ← evalVar (·.width)
  putField vp .width (b.strokes (handOver n idx width)) (.paint (handOver n idx width))
  let sizes ← evalVar (·.sizes)
  let sizes ← computed (settleSizes n idx sizes)
  putField vp .sizes (.ok ()) (.sizes sizes)

/-- Markers.render with generate_markers (gsp_matplotlib/visual/markers.py:32-66, 102-153): the three
variables of the outlines are evaluated before "screen[positions]" is written. -/
def drawMarkersOn (b : Studio M G) (model m : M) (vp : Nat) : Doing (Canvassed M G) Unit := do
  let value ← evalVar (·.positions)
  let rows ← computed (reshapeThree value)
  let axis ← evalVar (·.axis)
  let types ← evalVar (·.types)
  let angles ← evalVar (·.angles)
  let outlines ← computed (b.outlines model rows axis types angles)
  let ps := rows.map (fun p => turnedDepth (b.place m p))
  let n := ps.length
  let idx := b.order (ps.map thirdOf)
  putPositions ps
  putField vp .outlines (.ok ()) (.outlines (permute idx outlines))
  putField vp .shapes (.ok ()) (.shapes ((permute idx ps).map (fun p => flatShape [p])))
  let fill ← evalVar (·.fill)
  putField vp .face (b.paints (handOver n idx fill)) (.paint (handOver n idx fill))
  let line ← evalVar (·.line)
  putField vp .edge (b.paints (handOver n idx line)) (.paint (handOver n idx line))
  let width ← evalVar (·.width)
  putField vp .width (b.strokes (handOver n idx width)) (.paint (handOver n idx width))
  let sizes ← evalVar (·.sizes)
  let sizes ← computed (settleSizes n idx sizes)
  putField vp .sizes (.ok ()) (.sizes sizes)

/-- Pixels.render (gsp_matplotlib/visual/pixels.py:68-82): colours that are `None` are not set. -/
def drawPixelsOn (b : Studio M G) (m : M) (vp : Nat) : Doing (Canvassed M G) Unit := do
  let value ← evalVar (·.positions)
  let rows ← computed (b.asRows value)
  let ps := rows.map (b.place m)
  let n := ps.length
  let idx := b.order (ps.map thirdOf)
  putField vp .shapes (.ok ()) (.shapes ((permute idx ps).map (fun p => flatShape [p])))
  putPositions ps
  let colors ← evalVar (·.colors)
  if colors = .none then return ()
  else putField vp .face (b.paints (handOver n idx colors)) (.paint (handOver n idx colors))

/-- Segments.render (gsp_matplotlib/visual/segments.py:61-86). -/
def drawSegmentsOn (b : Studio M G) (m : M) (vp : Nat) : Doing (Canvassed M G) Unit := do
  let value ← evalVar (·.positions)
  let rows ← computed (reshapeThree value)
  let segments ← computed (pairUp (rows.map (b.place m)))
  let n := segments.length
  let depth := segments.map (fun q => - thirdOf (b.centre q))
  let idx := b.order depth
  putField vp .shapes (.ok ()) (.shapes ((permute idx segments).map flatShape))
  putPositions (segments.map List.flatten)
  putItems (depth.map ([·]))
  let line ← evalVar (·.line)
  putField vp .edge (b.paints (handOver n idx line)) (.paint (handOver n idx line))
  let width ← evalVar (·.width)
  putField vp .width (b.strokes (handOver n idx width)) (.paint (handOver n idx width))

/-- What Paths and Polygons pass on, `n` being the number of paths and `nv` that of vertices
(gsp_matplotlib/visual/paths.py:117-144, polygons.py:112-155). -/
def handOverPieces (n nv : Nat) (idx : List Nat) : Evald → Except Err (Option Attr)
  | .array v => (sortPathAttr n nv idx v.attr).map some
  | .list v => .ok (some v.attr)
  | .number x => .ok (some (.other x))
  | .none => .ok Option.none

/-- Paths.render and Polygons.render (gsp_matplotlib/visual/paths.py:76-144, polygons.py:72-155);
`filled` for Polygons. -/
def drawPiecesOn (b : Studio M G) (filled : Bool) (m : M) (vp : Nat) : Doing (Canvassed M G) Unit := do
  let value ← evalVar (·.positions)
  let rows ← computed (reshapeThree value)
  let ps := rows.map (b.place m)
  let indices ← evalVar (·.indices)
  let parts ← computed (cutPaths ps indices)
  let n := parts.length
  let nv := ps.length
  let idx := b.order (parts.map (fun q => - thirdOf (b.centre q)))
  putPositions ps
  let means ← computed (meansOf (parts.map b.centre))
  putItems means
  putField vp .shapes (.ok ()) (.shapes ((permute idx parts).map flatShape))
  if filled then
    let fill ← evalVar (·.fill)
    let fill ← computed (handOverPieces n nv idx fill)
    putField vp .face (b.paints fill) (.paint fill)
  let line ← evalVar (·.line)
  let line ← computed (handOverPieces n nv idx line)
  putField vp .edge (b.paints line) (.paint line)
  let width ← evalVar (·.width)
  let width ← computed (handOverPieces n nv idx width)
  putField vp .width (b.strokes width) (.paint width)

/-- The part of `render` that draws. -/
def drawOn (b : Studio M G) (k : VKind) (model m : M) (vp : Nat) : Doing (Canvassed M G) Unit :=
  match k with
  | .points => drawPointsOn b m vp
  | .markers => drawMarkersOn b model m vp
  | .pixels => drawPixelsOn b m vp
  | .segments => drawSegmentsOn b m vp
  | .paths => drawPiecesOn b false m vp
  | .polygons => drawPiecesOn b true m vp

/-- The first render in a viewport makes the collection (points.py:40-46 and the like); Paths give it the
caps they have then (gsp_matplotlib/visual/paths.py:51-59). -/
def ensurePicture (k : VKind) (vp : Nat) : Doing (Canvassed M G) Unit :=
  fun s => match dget s.pictures vp with
    | some _ => (s, .ok ())
    | none =>
      if k = .paths then
        match s.vars.caps ⟨s.viewport, s.positions, s.items⟩ with
        | .ok c => ({ s with pictures := dset s.pictures vp (Picture.blank.put .cap (.cap c)) }, .ok ())
        | .error e => (s, .error e)
      else ({ s with pictures := dset s.pictures vp .blank }, .ok ())

/-- Visual.render (gsp/visual/visual.py:110-123): the matrices, their product, the viewport. -/
def takeMatrices (b : Studio M G) (c : RCall M) : Doing (Canvassed M G) Unit :=
  fun s =>
    let model := c.model.getD s.model
    let view := c.view.getD s.view
    let proj := c.proj.getD s.proj
    ({ s with
       model := model, view := view, proj := proj, viewport := c.viewport,
       transform := (b.mul proj view).bind (fun pv => b.mul pv model) }, .ok ())

/-- With matrices that do not fit nothing is drawn (points.py:57-60 and the like). -/
def drawIfFits (b : Studio M G) (k : VKind) (vp : Nat) : Doing (Canvassed M G) Unit :=
  fun s => match s.transform with
    | none => (s, .ok ())
    | some m => drawOn b k s.model m vp s

/-- `render` of the backend (gsp_matplotlib/visual/points.py:28-100 and the like). -/
def renderPiecewise (b : Studio M G) (k : VKind) (c : RCall M) : Doing (Canvassed M G) Unit := do
  takeMatrices b c
  ensurePicture k c.viewport
  drawIfFits b k c.viewport

/-- What can happen to a visual: a variable is assigned, or it is rendered (by the program, or by a resize,
which gives no matrices: points.py:50-52). -/
inductive Happening (M : Type) where
  | assign (a : Assign)
  | render (c : RCall M)

/-- One of them; exceptions are caught by the program, or by matplotlib. -/
def happen (b : Studio M G) (k : VKind) (s : Canvassed M G) : Happening M → Canvassed M G
  | .assign a => { s with vars := a.apply s.vars }
  | .render c => (renderPiecewise b k c s).1

/-- A history. -/
def happened (b : Studio M G) (k : VKind) (s : Canvassed M G) (hs : List (Happening M)) :
    Canvassed M G :=
  hs.foldl (happen b k) s

end Verif
