import Verif.Model.Values
/-
Visuals: their variables (gsp/visual/visual.py), and how the matplotlib backend renders them
(gsp_matplotlib/visual/*.py).

Simplifications: what matplotlib draws is a list of elements with attributes; the content of a
collection is replaced at once, at the end of `render` (the code replaces it piece by piece, so
that an exception can leave a mixture: see Model/Redraw.lean); numbers are rationals.
-/

namespace Verif

/-! ### Variables (visual.py:30-63) -/

/-- The two dictionaries of a visual. The names of both are fixed by the constructor. -/
structure VarState (V : Type) where
  ins : Dict String V
  outs : Dict String V
deriving DecidableEq

variable {V : Type}

/-- set_variable (visual.py:30-47). `fill old v` is `old[...] = v`, which writes into the array
and raises when the shapes do not fit. -/
def setVariable (fill : V → V → Except Err V) (s : VarState V) (name : String) (v : V) :
    VarState V × Except Err Unit :=
  match dget s.ins name with
  | some _ => ({ s with ins := dset s.ins name v }, .ok ())
  | none => match dget s.outs name with
    | some old => match fill old v with
      | .ok new => ({ s with outs := dset s.outs name new }, .ok ())
      | .error e => (s, .error e)
    | none => (s, .error .indexError)

/-- get_variable (visual.py:49-63). -/
def getVariable (s : VarState V) (name : String) : Except Err V :=
  match dget s.ins name with
  | some v => .ok v
  | none => match dget s.outs name with
    | some v => .ok v
    | none => .error .indexError

/-- The dictionary transforms are evaluated with, `in | out` (visual.py:77): the outs win. -/
def evalEnv (s : VarState V) : Dict String V :=
  s.outs.foldl (fun d kv => dset d kv.1 kv.2) s.ins

/-! ### Matrices, viewports, tracking -/

/-- Which backend class: those that make their collection with `axes.scatter`, and those that
make it themselves. -/
inductive VKind where
  | points | markers | pixels | segments | paths | polygons
deriving DecidableEq, Repr

/-- Points, Markers and Pixels call `axes.scatter`, which adds the collection to the axes, and
then `axes.add_collection`, which adds it again (points.py:42-46, markers.py:82-86,
pixels.py:48-52 in gsp_matplotlib/visual). -/
def VKind.scatters : VKind → Bool
  | .points | .markers | .pixels => true
  | _ => false

/-- The state rendering works on: the matrices of the visual (visual.py:24-28), per viewport the
collection and its content (`none`: empty), the resize handlers in the order of registration,
what was added to the axes of which viewport, and the global tracker class of new arrays
(`none`: not tracked). -/
structure RState (M D : Type) where
  model : M
  view : M
  proj : M
  transform : Option M
  collections : Dict Nat (Option D)
  handlers : List Nat
  children : List Nat
  tracker : Option Nat
deriving DecidableEq

variable {M D : Type}

/-- A visual that was just made (visual.py:22-28). -/
def rinit (one : M) (tracker : Option Nat) : RState M D :=
  ⟨one, one, one, some one, [], [], [], tracker⟩

/-- A call of `render`. -/
structure RCall (M : Type) where
  viewport : Nat
  model : Option M
  view : Option M
  proj : Option M
deriving DecidableEq

/-- Visual.render (visual.py:110-121). `mul` fails when the shapes do not fit. -/
def storeMatrices (mul : M → M → Option M) (s : RState M D) (c : RCall M) : RState M D :=
  let model := c.model.getD s.model
  let view := c.view.getD s.view
  let proj := c.proj.getD s.proj
  { s with
    model := model, view := view, proj := proj,
    transform := (mul proj view).bind (fun pv => mul pv model) }

/-- What depends on the kind of visual and its variables: `prepare` may fail before the
collection is made (the caps of Paths, paths.py:53-56; it is not called when the collection
exists), `draw` computes the content of the collection or fails. `canvas` tells the canvas of a
viewport. -/
structure RBody (M D : Type) where
  kind : VKind
  canvas : Nat → Nat
  mul : M → M → Option M
  prepare : Except Err Unit
  draw : M → Nat → Except Err D

/-- Creation of the collection and of the resize handler on the first render in a viewport
(points.py:40-52 and the like). -/
def ensureCollection (b : RBody M D) (s : RState M D) (vp : Nat) : RState M D × Except Err Unit :=
  match dget s.collections vp with
  | some _ => (s, .ok ())
  | none => match b.prepare with
    | .error e => (s, .error e)
    | .ok () =>
      ({ s with
         collections := dset s.collections vp none,
         handlers := s.handlers ++ [vp],
         children := s.children ++ (if b.kind.scatters then [vp, vp] else [vp]) }, .ok ())

/-- `render` of the backend (gsp_matplotlib/visual/points.py:28-100; pixels.py:33-86,
markers.py:68-156, segments.py:29-89, paths.py:31-147, polygons.py likewise). The tracker class
is set to `None`, and restored at the end; an exception skips the restoration. -/
def render (b : RBody M D) (s : RState M D) (c : RCall M) : RState M D × Except Err Unit :=
  let s := storeMatrices b.mul s c
  let tracker := s.tracker
  let s := { s with tracker := none }
  match ensureCollection b s c.viewport with
  | (s, .error e) => (s, .error e)
  | (s, .ok ()) =>
    match s.transform with
    | none => ({ s with tracker := tracker }, .ok ())
    | some m => match b.draw m c.viewport with
      | .error e => (s, .error e)
      | .ok d =>
        ({ s with collections := dset s.collections c.viewport (some d), tracker := tracker },
          .ok ())

/-- A resize event of a canvas: every handler registered with it renders its viewport again,
without matrices (points.py:50-52). Exceptions are reported by matplotlib, and the other
handlers run. -/
def resize (b : RBody M D) (s : RState M D) (canvas : Nat) : RState M D :=
  (s.handlers.filter (fun vp => b.canvas vp = canvas)).foldl
    (fun s vp => (render b s ⟨vp, none, none, none⟩).1) s

/-- What can happen to a visual. -/
inductive REvent (M : Type) where
  | render (c : RCall M)
  | resize (canvas : Nat)
deriving DecidableEq

/-- One event. -/
def rstep (b : RBody M D) (s : RState M D) : REvent M → RState M D
  | .render c => (render b s c).1
  | .resize cv => resize b s cv

/-- A history. -/
def rrun (b : RBody M D) (s : RState M D) (es : List (REvent M)) : RState M D :=
  es.foldl (rstep b) s

/-! ### Depth sort and attributes -/

/-- An attribute as evaluated: an array with one item per element or of any other length
(`items`: shape (m, ...)), an array of numbers (`flat`: shape (m,)), or something else, as a
number, that matplotlib takes for all elements. -/
inductive Attr where
  | items (xs : List (List ℚ))
  | flat (xs : List ℚ)
  | other (x : ℚ)
deriving DecidableEq

/-- `xs[sort_indices]`. -/
def permute {α : Type} (idx : List Nat) (xs : List α) : List α :=
  idx.filterMap (xs[·]?)

/-- points.py:76-79 and the like: an array as long as there are elements is sorted with them,
anything else is passed on. -/
def sortAttr (n : Nat) (idx : List Nat) : Attr → Attr
  | .items xs => if xs.length = n then .items (permute idx xs) else .items xs
  | .flat xs => if xs.length = n then .flat (permute idx xs) else .flat xs
  | .other x => .other x

/-- The colour matplotlib draws the element at place `k` with: an array of shape (m, 4) is used
cyclically; an array of shape (4,) is one colour (matplotlib.colors.to_rgba_array). -/
def colourAt (a : Attr) (k : Nat) : Option (List ℚ) :=
  match a with
  | .items xs => xs[k % xs.length]?
  | .flat xs => some xs
  | .other x => some [x]

/-- The width matplotlib draws the element at place `k` with: an array of numbers is used
cyclically. -/
def widthAt (a : Attr) (k : Nat) : Option ℚ :=
  match a with
  | .items xs => xs[k % xs.length]?.bind (·[0]?)
  | .flat xs => xs[k % xs.length]?
  | .other x => some x

/-- The size: an array of one item per element is sorted with them, anything else is repeated
for each element (points.py:94-97, markers.py:150-153). -/
def sortSizes (n : Nat) (idx : List Nat) : Attr → List Attr
  | .items xs => if xs.length = n then (permute idx xs).map .flat else List.replicate n (.items xs)
  | .flat xs => if xs.length = n then (permute idx xs).map .other else List.replicate n (.flat xs)
  | .other x => List.replicate n (.other x)

/-- Paths and polygons refuse attributes given per vertex (paths.py:117-144,
polygons.py:112-155): `n` paths, `nv` vertices. -/
def sortPathAttr (n nv : Nat) (idx : List Nat) (a : Attr) : Except Err Attr :=
  match a with
  | .items xs =>
    if xs.length = n then .ok (.items (permute idx xs))
    else if xs.length = nv then .error .notImplemented else .ok (.items xs)
  | .flat xs =>
    if xs.length = n then .ok (.flat (permute idx xs))
    else if xs.length = nv then .error .notImplemented else .ok (.flat xs)
  | .other x => .ok (.other x)

/-- An element as it is drawn: its shape (offset, marker or path), its two colours, its width
and its size. -/
structure Elem (G : Type) where
  shape : Option G
  fill : Option (List ℚ)
  line : Option (List ℚ)
  width : Option ℚ
  size : Option Attr
deriving DecidableEq

/-- The elements of Points and Markers in the order they are drawn (points.py:70-97,
markers.py:123-153); Segments and Pixels have some of these attributes only. -/
def drawn {G : Type} (idx : List Nat) (shapes : List G) (fill line width size : Attr) :
    List (Elem G) :=
  let n := shapes.length
  (List.range n).map (fun k =>
    ⟨(permute idx shapes)[k]?, colourAt (sortAttr n idx fill) k, colourAt (sortAttr n idx line) k,
      widthAt (sortAttr n idx width) k, (sortSizes n idx size)[k]?⟩)

/-- The elements of Paths and Polygons in the order they are drawn (paths.py:113-144,
polygons.py:109-155), `nv` being the number of vertices. (They have no size.) -/
def drawnPaths {G : Type} (nv : Nat) (idx : List Nat) (shapes : List G) (fill line width : Attr) :
    Except Err (List (Elem G)) := do
  let n := shapes.length
  let fill ← sortPathAttr n nv idx fill
  let line ← sortPathAttr n nv idx line
  let width ← sortPathAttr n nv idx width
  return (List.range n).map (fun k =>
    ⟨(permute idx shapes)[k]?, colourAt fill k, colourAt line k, widthAt width k, none⟩)

/-- The key elements are sorted by, from the depth (the z coordinate after projection; for
segments, paths and polygons its mean): points.py:69-70, markers.py:122-123, pixels.py:72,
segments.py:69-70, paths.py:108-109. -/
def VKind.sortKey : VKind → ℚ → ℚ
  | .points, z => 1 - z
  | .markers, z => 1 - z
  | .pixels, z => z
  | .segments, z => -z
  | .paths, z => -z
  | .polygons, z => -z

/-- `np.argsort(keys)`: some arrangement of the indices that puts the keys in ascending order.
(numpy's choice among equal keys is left open.) -/
def IsArgsort (keys : List ℚ) (idx : List Nat) : Prop :=
  idx.Perm (List.range keys.length) ∧ (permute idx keys).Pairwise (· ≤ ·)

/-! ### Paths and polygons (paths.py:84-104, polygons.py likewise) -/

/-- `positions[a:b]` for any integers. -/
def pySlice {α : Type} (xs : List α) (a b : Int) : List α :=
  let n : Int := xs.length
  let clamp := fun i : Int => if i < 0 then max 0 (i + n) else min i n
  (xs.take (clamp b).toNat).drop (clamp a).toNat

/-- The specification of paths. -/
inductive Indices where
  | size (n : Int)
  | sizes (ns : List Int)
  | lists (ix : List (List Int))
deriving DecidableEq

/-- One size: `len(positions) // size` groups. -/
def cutEqual {α : Type} (xs : List α) (size : Int) : Except Err (List (List α)) :=
  if size = 0 then .error .zeroDivision
  else
    let count := (Int.fdiv xs.length size).toNat
    .ok ((List.range count).map (fun i : Nat => pySlice xs (i * size) ((i + 1) * size)))

/-- A list of sizes: `start` and `end` move on. -/
def cutSizes {α : Type} (xs : List α) : Int → List Int → List (List α)
  | _, [] => []
  | start, s :: ss => pySlice xs start (start + s) :: cutSizes xs (start + s) ss

/-- The paths. -/
def cutPaths {α : Type} (xs : List α) : Indices → Except Err (List (List α))
  | .size n => cutEqual xs n
  | .sizes ns => .ok (cutSizes xs 0 ns)
  | .lists ixs => ixs.mapM (fun ix => ix.mapM (npGet xs))

end Verif
