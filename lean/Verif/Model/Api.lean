import Verif.Model.Json
import Mathlib.Logic.Equiv.List
/-
The instrumented classes of `gsp` and of its Matplotlib backend `gsp_matplotlib`, with the
converters both packages register: the two programs between which command files travel.
-/

namespace Verif

/-- An instrumented function: class, function, the name given to the decorator, and the
parameters after `self` with declared types and default value. -/
structure Row where
  cls : String
  func : String
  name : Option String
  params : List (String × List String × Option Val)
deriving DecidableEq, Repr

/-- The signature of a row. A parameter without annotation has no declared types. -/
def Row.sig (r : Row) : Sig :=
  { params := r.params.map (·.1)
    defaults := r.params.filterMap (fun p => p.2.2.map (fun d => (p.1, d)))
    annots := (r.params.filter (fun p => p.2.1 ≠ [])).map (fun p => (p.1, p.2.1)) }

/-- The row of a function of a class. -/
def findRow (rows : List Row) (cls func : String) : Option Row :=
  rows.find? (fun r => r.cls = cls ∧ r.func = func)

/-- A required parameter. -/
def req (name : String) (types : List String) : String × List String × Option Val :=
  (name, types, none)

/-- An optional parameter. -/
def opt (name : String) (types : List String) (d : Val) : String × List String × Option Val :=
  (name, types, some d)

/-- `Transform | Buffer`, `Transform | Buffer | T`: the types of per-item parameters. -/
def itemTypes (more : List String) : List String := ["Transform", "Buffer"] ++ more

/-! ### gsp -/

/-- gsp/core: buffer.py:20-52, canvas.py:28-62, data.py:28-80, list.py:22-37,
viewport.py:30-76. -/
def gspCore : List Row :=
  [⟨"Buffer", "__init__", some "core.Buffer", [req "count" ["int"], req "dtype" ["dtype"],
      opt "data" ["memoryview", "bytes"] .none]⟩,
   ⟨"Buffer", "set_data", none, [req "offset" ["int"], req "data" ["memoryview"]]⟩,
   ⟨"Canvas", "__init__", some "core.Canvas", [req "width" ["int"], req "height" ["int"],
      req "dpi" ["float"]]⟩,
   ⟨"Canvas", "render", some "render", [req "target" ["str"]]⟩,
   ⟨"Data", "__init__", some "core.Data", [opt "uri" ["str"] (.str ""),
      opt "nbytes" ["int"] (.int 0), opt "dtype" ["list"] .none]⟩,
   ⟨"Data", "set_data", none, [req "offset" ["int"], req "data" ["bytes"]]⟩,
   ⟨"List", "__init__", some "core.List", [req "data" ["Buffer"],
      req "itemsizes" ["Buffer", "int"]]⟩,
   ⟨"Viewport", "__init__", some "core.Viewport", [req "canvas" ["Canvas"],
      req "x" ["Transform", "float", "int"], req "y" ["Transform", "float", "int"],
      req "width" ["Transform", "float", "int"], req "height" ["Transform", "float", "int"],
      req "color" ["Color"]]⟩,
   ⟨"Viewport", "render", none, [req "target" ["str"]]⟩]

/-- The parameters of the constructors in gsp/visual: pixels.py:38-40, points.py:44-49,
markers.py:48-56, segments.py:44-48, paths.py:109-117, polygons.py:105-113. -/
def visualParams : List (String × List (String × List String × Option Val)) :=
  [("Pixels", [req "positions" (itemTypes []), req "colors" (itemTypes ["Color"])]),
   ("Points", [req "positions" (itemTypes []), req "sizes" (itemTypes ["float"]),
      req "fill_colors" (itemTypes ["Color"]), req "line_colors" (itemTypes ["Color"]),
      req "line_widths" (itemTypes ["float"])]),
   ("Markers", [req "positions" (itemTypes []), req "types" (itemTypes ["Marker"]),
      req "sizes" (itemTypes ["float"]), req "axis" (itemTypes ["Vec3"]),
      req "angles" (itemTypes ["float"]), req "fill_colors" (itemTypes ["Color"]),
      req "line_colors" (itemTypes ["Color"]), req "line_widths" (itemTypes ["float"])]),
   ("Segments", [req "positions" (itemTypes []), req "line_caps" (itemTypes ["LineCap"]),
      req "line_colors" (itemTypes ["Color"]), req "line_widths" (itemTypes ["float"])]),
   ("Paths", [req "positions" (itemTypes []), req "indices" (itemTypes ["List", "int"]),
      req "line_colors" (itemTypes ["Color"]), req "line_widths" (itemTypes ["float"]),
      req "line_styles" (itemTypes ["LineStyle"]), req "line_joins" (itemTypes ["LineJoin"]),
      req "line_caps" (itemTypes ["LineCap"])]),
   ("Polygons", [req "positions" (itemTypes []), req "indices" (itemTypes ["List", "int"]),
      req "fill_colors" (itemTypes ["Color"]), req "line_colors" (itemTypes ["Color"]),
      req "line_widths" (itemTypes ["float"]), req "line_styles" (itemTypes ["LineStyle"]),
      req "line_joins" (itemTypes ["LineJoin"])])]

/-- The six constructors, and `Visual.render` (gsp/visual/visual.py:89-93) which all inherit. -/
def gspVisual : List Row :=
  visualParams.flatMap (fun v =>
    [⟨v.1, "__init__", some ("visual." ++ v.1), v.2⟩,
     ⟨v.1, "render", none, [req "viewport" ["Viewport"], opt "model" ["Matrix"] .none,
        opt "view" ["Matrix"] .none, opt "proj" ["Matrix"] .none]⟩])

/-- The parameters of the constructors in gsp/transform: transform.py:12-15,
accessor.py:15-129, operator.py:10-13 and 149-197, measure.py:46-229, colormap.py:13-17,
out.py:14-15. -/
def transformParams : List (String × List (String × List String × Option Val)) :=
  [("Transform", [opt "base" ["Transform"] .none, opt "next" ["Transform"] .none,
      opt "buffer" ["Buffer"] .none]),
   ("Accessor", [opt "buffer" (itemTypes []) .none, opt "key" ["str"] .none]),
   ("Operator", [req "operator" ["str"], opt "left" (itemTypes ["int", "float"]) .none,
      opt "right" (itemTypes ["int", "float"]) .none]),
   ("Colormap", [opt "colormap" ["str"] .none, opt "vmin" ["float"] .none,
      opt "vmax" ["float"] .none]),
   ("Out", [opt "name" ["str"] .none])] ++
  (["X", "Y", "Z", "W", "R", "G", "B", "A"].map (fun c =>
    (c, [opt "buffer" (itemTypes []) .none]))) ++
  (["Add", "Sub", "Mul", "Div"].map (fun c =>
    (c, [opt "left" (itemTypes ["float", "int"]) .none,
         opt "right" (itemTypes ["float", "int"]) .none]))) ++
  (["Measure", "Pixel", "Inch", "Point", "Centimeter", "Millimeter", "Meter",
    "Kilometer"].map (fun c => (c, [])))

/-- The classes that derive from `Operator` (gsp/transform/operator.py). -/
def operatorClasses : List String := ["Operator", "Add", "Sub", "Mul", "Div"]

/-- gsp/transform: the constructors, the setters of transform.py:41-78 which all inherit,
those of operator.py:63-99, and colormap.py:41-50. -/
def gspTransform : List Row :=
  transformParams.flatMap (fun v =>
    [⟨v.1, "__init__", some ("transform." ++ v.1), v.2⟩,
     ⟨v.1, "set_base", none, [opt "base" ["Transform"] .none]⟩,
     ⟨v.1, "set_next", none, [opt "next" ["Transform"] .none]⟩,
     ⟨v.1, "set_buffer", none, [opt "buffer" (itemTypes ["float", "int"]) .none]⟩]) ++
  operatorClasses.flatMap (fun c =>
    [⟨c, "set_operator", none, [req "operator" ["str"]]⟩,
     ⟨c, "set_left", none, [req "left" (itemTypes ["float", "int"])]⟩,
     ⟨c, "set_right", none, [req "right" (itemTypes ["float", "int"])]⟩]) ++
  [⟨"Colormap", "set_colormap", none, [req "colormap" ["str"]]⟩]

/-- All instrumented functions of `gsp`. -/
def gspRows : List Row := gspCore ++ gspVisual ++ gspTransform

/-! ### gsp_matplotlib -/

/-- gsp_matplotlib/core: buffer.py:14-36, canvas.py:16-62, list.py:14-17,
viewport.py:15-50. `Canvas` and `Viewport` call the constructors of `gsp`, whose decorator
checks the declared types; `render` is not decorated there, so nothing is checked. -/
def mplCore : List Row :=
  [⟨"Buffer", "__init__", some "core.Buffer", [req "count" ["int"], req "dtype" ["dtype"],
      opt "data" ["memoryview", "bytes"] .none]⟩,
   ⟨"Buffer", "set_data", none, [req "offset" ["int"], req "data" ["memoryview", "bytes"]]⟩,
   ⟨"Canvas", "__init__", some "core.Canvas", [req "width" ["int"], req "height" ["int"],
      req "dpi" ["float"]]⟩,
   ⟨"Canvas", "render", none, [req "target" []]⟩,
   ⟨"List", "__init__", some "core.List", [req "data" ["Buffer"],
      req "itemsizes" ["Buffer", "int"]]⟩,
   ⟨"Viewport", "__init__", some "core.Viewport", [req "canvas" ["Canvas"],
      req "x" ["Transform", "float", "int"], req "y" ["Transform", "float", "int"],
      req "width" ["Transform", "float", "int"], req "height" ["Transform", "float", "int"],
      req "color" ["Color"]]⟩,
   ⟨"Viewport", "render", none, [req "target" []]⟩]

/-- gsp_matplotlib/visual/markers.py:19-26 declares `None` for `axis` too. -/
def mplVisualParams (v : String × List (String × List String × Option Val)) :
    List (String × List String × Option Val) :=
  v.2.map (fun p => if v.1 = "Markers" ∧ p.1 = "axis" then
    req "axis" (itemTypes ["Vec3", "NoneType"]) else p)

/-- gsp_matplotlib/visual: the constructors are decorated again, with the same names but for
`Segments` (segments.py:19). `render` calls the decorated one of `gsp`; all but
pixels.py:33 make the viewport optional. -/
def mplVisual : List Row :=
  visualParams.flatMap (fun v =>
    [⟨v.1, "__init__", some (if v.1 = "Segments" then "visual.Points" else "visual." ++ v.1),
        mplVisualParams v⟩,
     ⟨v.1, "render", none, [if v.1 = "Pixels" then req "viewport" ["Viewport"]
          else opt "viewport" ["Viewport"] .none, opt "model" ["Matrix"] .none,
        opt "view" ["Matrix"] .none, opt "proj" ["Matrix"] .none]⟩])

/-- All functions of `gsp_matplotlib` that can be called by commands. -/
def mplRows : List Row := mplCore ++ mplVisual

/-- The classes found under `gsp_matplotlib.<path>` (gsp_matplotlib/__init__.py:5-11,
core/__init__.py:5-10, visual/__init__.py:5-10); there is no `transform` and no
`core.Data`. Paths through submodules, which are never recorded, are left out. -/
def mplPaths : Dict String String :=
  [("core.List", "List"), ("core.Buffer", "Buffer"), ("core.Canvas", "Canvas"),
   ("core.Viewport", "Viewport"), ("visual.Pixels", "Pixels"), ("visual.Points", "Points"),
   ("visual.Markers", "Markers"), ("visual.Segments", "Segments"), ("visual.Paths", "Paths"),
   ("visual.Polygons", "Polygons"), ("Canvas", "Canvas"), ("Viewport", "Viewport"),
   ("Buffer", "Buffer")]

/-- The same for `gsp` (gsp/__init__.py:5-11 and the packages it imports). -/
def gspPaths : Dict String String :=
  (gspRows.filter (fun r => r.func = "__init__")).filterMap (fun r =>
    r.name.map (fun n => (n, r.cls)))

/-! ### Classes of values -/

/-- Names of the enumerations of gsp/core/types.py:102-248. -/
def enumClasses : List String :=
  ["Marker", "LineStyle", "LineCap", "LineJoin", "Shading", "Render"]

/-- The classes of numpy's dtype objects end in `DType`. -/
def isDtypeClass (c : String) : Bool := (c.toList.reverse).take 5 == "DType".toList.reverse

/-- `inspect.getmro` for the classes of values (Python, numpy and gsp/core/types.py). -/
def apiMro (c : String) : List String :=
  if c = "bool" then ["bool", "int", "object"]
  else if c = "OID" then ["OID", "int", "object"]
  else if enumClasses.contains c then [c, "IntEnum", "int", "ReprEnum", "Enum", "object"]
  else if c = "Color" ∨ c = "Vec2" ∨ c = "Vec3" then [c, "tuple", "object"]
  else if c = "tracked" then ["tracked", "ndarray", "object"]
  else if isDtypeClass c then [c, "dtype", "object"]
  else [c, "object"]

/-- The bases of the class of a class (gsp/io/convert.py:122): `type` derives from `object`,
the class of enumerations from `type`. -/
def apiMetaBases (c : String) : List String :=
  if enumClasses.contains c then ["type"] else ["object"]

/-! ### Converters -/

/-- The payload of a colour with the given components. -/
def colorCode (l : List Int) : Nat := _root_.Encodable.encode l

/-- `core.Color(*obj)`: four components. -/
def toColor (l : List Int) : Except Err Val :=
  if l.length = 4 then .ok (.inst "Color" (colorCode l)) else .error .typeError

/-- What is needed of numpy. `count`, `dtype` and `content` are the arguments with which `Tracker`
(gsp_matplotlib/__init__.py:71-76) builds the buffer of an array: item count, dtype, content.
`describe` and `parse` are the two conversions between dtypes and texts
(gsp/io/convert.py:145-180, modelled in `Dtype`). All are opaque functions. -/
structure ArrayInfo where
  count : Nat → Int
  dtype : Nat → Nat
  content : Nat → Nat
  describe : Nat → String := fun _ => "<f4::1"
  parse : String → Option Nat := fun s => if s = "<f4::1" then some 0 else none
  buffer : Nat → Option Int := fun _ => none

/-- The number of the buffer of an array that GSP tracks (gsp_matplotlib/__init__.py:65-67). -/
def ArrayInfo.bufferId (A : ArrayInfo) : Val → Option Int
  | .inst _ p => A.buffer p
  | _ => none

def ArrayInfo.kwargs (A : ArrayInfo) : Val → Dict String Val
  | .inst _ p => [("count", .int (A.count p)), ("dtype", .inst "Float32DType" (A.dtype p)),
      ("data", .inst "memoryview" (A.content p))]
  | _ => []

/-- Arrays that GSP tracks: `tracked` and the classes derived from it. -/
def isTracked : Val → Bool
  | .inst c _ => c = "tracked"
  | _ => false

/-- The members of an enumeration and the other integers. -/
def intValue : Val → Option Int
  | .int n | .oid n => some n
  | .bool b => some (if b then 1 else 0)
  | .inst c p => if enumClasses.contains c then some p else none
  | _ => none

/-- The conversion functions: gsp/__init__.py:20-46 (0-6), gsp/core/data.py:8-10 (7),
gsp_matplotlib/__init__.py:22-68 (8-13), gsp/io/convert.py:145-180 (14, 15), gsp/__init__.py:47-49
(16: the registered object of a number; other values, floats included, are not found). Several
always raise: `bytes(str)` (0), `_color` on a
named tuple (3, 4), the names `Matrix` and `List` which are not imported (8), `.view` on a
list (9, 10). A tracked array has had its buffer since it was made, or has none; `view` gives it no
other (12, 13). Its buffer is found by its id here, which the program is assumed not to change. The call
of `set_data` by the tracker is left out. All dtypes made from a text count as instances of one
class. -/
def apiConv (A : ArrayInfo) (f : Nat) (x : Val) : ConvFn :=
  match f with
  | 0 => .pure (fun _ => .error .typeError)
  | 1 => .pure (fun v => match v with | .list l => toColor l | _ => .error .typeError)
  | 2 => .pure (fun v => match v with | .tuple l => toColor l | _ => .error .typeError)
  | 3 => .pure (fun _ => .error .attributeError)
  | 4 => .pure (fun _ => .error .attributeError)
  | 5 => .pure (fun v => match v with | .list l => .ok (.tuple l) | _ => .error .typeError)
  | 6 => .pure (fun v => match v with | .tuple l => .ok (.list l) | _ => .error .typeError)
  | 7 => .pure (fun _ => .ok (.list []))
  | 8 => .pure (fun _ => .error .nameError)
  | 9 => .pure (fun _ => .error .attributeError)
  | 10 => .pure (fun v => .error (if v = .list [] then .attributeError else .typeError))
  | 11 => .pure (fun v => match v with
      | .int n => if 1 ≤ n ∧ n ≤ 12 then .ok (.inst "Marker" n.toNat) else .error .valueError
      | _ => .error .valueError)
  | 12 => if isTracked x then .look A.bufferId else .make "Buffer" A.kwargs
  | 13 => .look A.bufferId
  | 14 => .pure (fun v => match v with
      | .inst _ p => .ok (.str (A.describe p))
      | _ => .error .attributeError)
  | 15 => .pure (fun v => match v with
      | .str s => match A.parse s with
        | some p => .ok (.inst "Float32DType" p)
        | none => .error .valueError
      | _ => .error .attributeError)
  | 16 => .look intValue
  | _ => .pure (fun _ => .error .nameError)

/-- What `import gsp` registers. -/
def gspConverters : Dict (String × String) Nat :=
  [(("dtype", "str"), 14), (("str", "dtype"), 15), (("NoneType", "list"), 7),
   (("str", "memoryview"), 0), (("list", "Color"), 1),
   (("tuple", "Color"), 2), (("Color", "list"), 3), (("Color", "tuple"), 4),
   (("list", "tuple"), 5), (("tuple", "list"), 6), (("int", "Canvas"), 16)]

/-- What `import gsp_matplotlib` adds. -/
def allConverters : Dict (String × String) Nat :=
  gspConverters ++ [(("ndarray", "Matrix"), 8), (("list", "Buffer"), 9), (("list", "List"), 10),
   (("int", "Marker"), 11), (("ndarray", "Buffer"), 12), (("tracked", "Buffer"), 13)]

/-! ### The programs -/

/-- `len(value)` works. -/
def hasLen : Val → Bool
  | .str _ | .bytes _ | .list _ | .tuple _ | .obj _ => true
  | .inst c _ => c = "ndarray" || c = "tracked" || c = "memoryview" || c = "Color"
  | _ => false

/-- `len(positions) // indices` for an integer, and a number of items that can be allocated
(positions are assumed not to be empty); `len(indices)` otherwise
(gsp/visual/paths.py:160-163, polygons.py:155-158). -/
def indicesRaise (v : Val) : Option Err :=
  match intValue v with
  | some n => if n = 0 then some .zeroDivision else if n < 0 then some .valueError else none
  | none => if hasLen v then none else some .typeError

/-- The bodies of `gsp`: constructors of visuals take `len(positions)` (for instance
gsp/visual/pixels.py:69), those of paths and polygons look at `indices`, `Measure` calls
`super.__init__` on the type `super` itself (gsp/transform/measure.py:48); the others store
their arguments. Simplification: all objects count as having a length; transforms have none. -/
def gspRaises (o : Obj) (f : String) (b : Dict String Val) : Option Err :=
  if o.cls = "Measure" ∧ f = "__init__" then some .typeError
  else match dget b "positions" with
    | some v => if hasLen v then (dget b "indices").elim none indicesRaise else some .typeError
    | none => none

/-- The program `gsp`. -/
def gspProg (A : ArrayInfo) : Prog where
  sig := fun c f => (findRow gspRows c f).map Row.sig
  override := fun c f => (findRow gspRows c f).bind Row.name
  mro := apiMro
  metaBases := apiMetaBases
  raises := gspRaises
  conv := apiConv A
  resolve := fun p => dget gspPaths p

/-- `Markers.generate_markers` (gsp_matplotlib/visual/markers.py:32-65), which the constructor calls with
the positions as they are given: if there is an axis it takes `positions[i]`, and a GSP object has no
items. (Positions are assumed not to be empty.) -/
def axisRaise (o : Obj) (f : String) (b : Dict String Val) : Option Err :=
  if o.cls = "Markers" ∧ f = "__init__" then
    match dget b "axis", dget b "positions" with
    | some .none, _ => none
    | some _, some (.obj _) => some .typeError
    | _, _ => none
  else none

/-- The lookup of the caps among the three members of `LineCap` (gsp_matplotlib/visual/paths.py:53-56;
types.py:230-233). `eval_variable` (gsp/visual/visual.py:65-87) leaves numbers, texts, lists and `None` as
they are and makes an array of anything else; lists and arrays are no keys. Simplification: all objects
give arrays (a `List` gives a KeyError), and floats are left to `draw`. -/
def capRaise : Val → Option Err
  | .float _ => none
  | .obj _ | .list _ | .tuple _ | .bytes _ => some .typeError
  | v => match intValue v with
    | some n => if n = 1 ∨ n = 2 ∨ n = 3 then none else some .keyError
    | none => match v with
      | .none | .str _ => some .keyError
      | _ => some .typeError

/-- `Paths.render` looks for the caps that the constructor was given. -/
def capsRaise (o : Obj) (f : String) : Option Err :=
  if o.cls = "Paths" ∧ f = "render" then
    ((dget o.log "__init__").bind (dget · "line_caps")).bind capRaise
  else none

/-- The bodies of `gsp_matplotlib`. `Viewport.render` raises `NotImplemented`, which is no
exception (core/viewport.py:49-50). With recording on (`on`), the decorator of `List.__init__`
evaluates the annotation `Buffer`, a name which core/list.py does not import
(gsp/io/command.py:218). `draw` stands for the exceptions of Matplotlib and numpy, and for those that
depend on the contents of buffers or on the classes of the objects that are given. -/
def mplRaises (on : Bool) (draw : Obj → String → Dict String Val → Option Err) (o : Obj)
    (f : String) (b : Dict String Val) : Option Err :=
  if o.cls = "Viewport" ∧ f = "render" then some .typeError
  else if on = true ∧ o.cls = "List" ∧ f = "__init__" then some .nameError
  else match gspRaises o f b with
    | some e => some e
    | none => match axisRaise o f b with
      | some e => some e
      | none => match capsRaise o f with
        | some e => some e
        | none => draw o f b

/-- The program `gsp_matplotlib`, in a process in which recording is on if `on`. It is used
here to replay command files. -/
def mplProg (A : ArrayInfo) (on : Bool) (draw : Obj → String → Dict String Val → Option Err) :
    Prog where
  sig := fun c f => (findRow mplRows c f).map Row.sig
  override := fun c f => (findRow mplRows c f).bind Row.name
  mro := apiMro
  metaBases := apiMetaBases
  raises := mplRaises on draw
  conv := apiConv A
  resolve := fun p => dget mplPaths p

/-- How instances are written to JSON: dtypes by their text, `memoryview` and arrays in base64
(gsp/io/json.py:15-22), named tuples as arrays and enumeration members as numbers (by `json`
itself); a `Matrix` cannot be written. `text` and `raw` are opaque. -/
def apiCodec (text raw : Nat → String) : Codec := fun c p =>
  if isDtypeClass c then some (.str (text p))
  else if c = "memoryview" ∨ c = "ndarray" ∨ c = "tracked" then some (.str (raw p))
  else if c = "Color" ∨ c = "Vec2" ∨ c = "Vec3" then
    some (.arr (((_root_.Encodable.decode p : Option (List Int)).getD [])))
  else if enumClasses.contains c then some (.int p)
  else none

end Verif
