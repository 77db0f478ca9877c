# Formal model of vispy/GSP: design

## 1. What is built

A Lean 4 model of the GSP Python packages (`gsp`, `gsp_matplotlib`) and of the
parts of `examples/common` that hold state. It is written function by function,
with exceptions as values. The properties of `properties.jsonl` are theorems about it.

Layout of `lean/Verif`:

| directory | contents |
|---|---|
| `Model/` | definitions that mirror the Python code; each cites file and lines |
| `Spec/`  | small specifications, written without the model's helpers |
| `Lemmas/`| helper lemmas, no property is stated there |
| `Props/` | the property theorems, and beside each an `example` showing that a non-trivial case meets the hypotheses |
| `Tests/` | the project's own unit tests (`/repo/tests`), restated as examples on the model |

Conventions:

* When the code does not have the property, the negation is proved on a concrete
  witness (theorem names ending in `_fails`), and the part that does hold is proved
  under the exact condition that excludes the defect (`_partial`). The status is then
  `partial`, also when the part is everything that could be proved of this code.
* Stateful code is a state and a step function; properties of histories are invariants or
  simulations proved by induction over lists of operations, with no bound on their length.
* Every claim is tested against wrong programs: `seeded/LOG.jsonl` has one line per edit
  of the model, with the theorems that then fail and those that had to be tightened.

## 2. Trusted base

* Lean's kernel. No `sorry`, no added axiom, no `native_decide`/`bv_decide`.
* Axioms: every theorem depends at most on `propext`, `Classical.choice` and `Quot.sound`
  (`#print axioms`). Closed computations are checked by the kernel (`rfl`, `decide +kernel`).
* The reading of the Python source, and of the parts of Python, numpy, `json`, `base64`, `re`
  and Matplotlib it calls, as written in the comments of `Model/`.
* Numbers: Python `int` is `Int` or `Nat`; `float` is an exact rational or real number; in Raster (C88) the results of float operations are rounded to the nearest double, and in
  Rounded, RoundedBall, RoundedDepth, RoundedMeasure, RoundedGlm, RoundedPlace and Times (C102, C103, C106, C107, C108, C109, C111) by any rounding of a given precision.
  Elsewhere rounding is not modelled; nowhere are NaN, infinities and the overflow of numpy integers.
* Nothing was executed: the model was written from the source text. No test compares the model
  with the running program. As a check of the reading, the project's unit tests were restated on the
  model (`Tests/`): the model gives what they assert, except `test_mix` of the swizzles, which does not
  hold of this code. Not restated: tests of fancy indices, of structured fields of tracked arrays
  (skipped by the project) and of the classes of returned objects.

## 3. What is modelled, and what is not

| code in /repo | model | left out |
|---|---|---|
| `gsp/object.py` | Session, Keys (`__eq__`, `__hash__`) | |
| `gsp/io/command.py` | Session, Value, Threads, Times | logging |
| `gsp/io/convert.py` | Convert, Dtype, Session | converters that keep state |
| `gsp/io/json.py`, `gsp/__init__.py` | Json, Base64, JsonText | in Json a file is a list of decoded commands, or broken; JsonText relates this to its text |
| `gsp/io/ansi.py`, `gsp/io/text.py`, `gsp/io/mkdocs.py` | Listing, Print | colours and spacing of the listing: a block is its names, numbers and lines |
| `gsp/log.py` | | set-up of logging |
| `gsp/core/*.py` | Api (signatures), Svg, SvgArc, SvgText, Markers | docstrings, `Path` of Matplotlib beyond `arc` |
| `gsp/transform/*.py` | Transform, Values, RoundedMeasure, Repr | `light.py`, which nothing imports and which calls functions that do not exist |
| `gsp/visual/*.py`, `gsp_matplotlib/visual/*.py` | Visual, Api, Redraw, Clip, Cover, Fill, RoundedDepth, RoundedPlace | what Matplotlib draws: collections are the vertices and attributes handed over |
| `gsp_matplotlib/core/viewport.py`, `canvas.py` | Viewport, Values (resolution), Raster (image) | window handling, what Matplotlib draws |
| `gsp_matplotlib/core/buffer.py`, `list.py` | Api, Frames, Tracked (copy of an array) | |
| `gsp_matplotlib/__init__.py` | Api (converters), Tracked and Derived (tracker) | |
| `gsp_matplotlib/glm/ndarray/*.py`, `vec234.py`, `mat234.py` | Tracked, Derived, Foreign, Swizzle, Ragged, Vectors | reading with fancy indices through views |
| `gsp_matplotlib/glm/tracked_array.py` | TrackedLegacy | (an older copy of `ndarray/tracked.py` which nothing imports) |
| `gsp_matplotlib/glm/glm.py`, `shapes.py`, `trackball.py` | Glm, Mesh, Shapes, FrontFace, Facing, Trackball, RoundedBall, RoundedGlm | |
| `examples/common/camera.py`, `asset_downloader.py` | Trackball, Interactive, Rounded, Download | |
| `scripts/check_expected_output.py`, `run_all_examples.py` | Checker, Regress | the similarity of images (a parameter), printing |
| `examples/common/launcher.py` | Launcher (commands mode), Interactive (camera mode), Hook (`onRender`), Image (image mode), Regress (names of files) | the parser of options |
| `examples/lidar-point-cloud.py` | Cloud | reading the file |
| other `scripts/` | | command line programs |

Main simplifications, each repeated at the definition it concerns:

* An object of the session machine is its class, its id and the list of calls its body received.
  What bodies do beyond raising is a parameter (`Prog.raises`), so the theorems on recording and
  replay hold for every program.
* Attributes of Matplotlib objects are reduced to what GSP writes into them.
* Strings are Unicode strings; the file system is one file that can be absent, broken or whole.

## 4. Plan and result per property

For each property: the modelled code, the method, the status in `MANIFEST.json` and what was found.

| id | modelled code | method | status | result |
|---|---|---|---|---|
| C01 Object identifiers are never reused | `Object`/`OID` and the whole session machine (Session) | invariant by induction over histories | proved | Ids are distinct for every history without explicit id assignment or replay; those two operations are the only exceptions (hypothesis Op.assignsId = false) and minted ids stay distinct even then. |
| C02 The object registry never lies about ids | the registry of the session machine | invariant by induction over histories | proved | The whole statement is proved. |
| C03 A recorded call is logged exactly once, in the active queue, and nowhere else | the `command` decorator: parameter collection, type check, push | case analysis of the modelled decorator | proved | Every outermost call of a recorded method that passes the argument check appends exactly one command to the active queue, and nothing for nested calls. |
| C04 A call with a badly typed argument is rejected and not logged | the type check of the decorator | case analysis against a declarative `accepts` | partial | The claim is false for GSP objects passed as arguments (they are replaced by their id before the check). Proved for all other arguments; a rejected call has already taken effect. |
| C05 Command ids are unique and increase along every queue | `CID`, `push` | invariant by induction over histories | proved | The whole statement is proved. |
| C06 A queue name always denotes the same queue | `NamedSingleton.__call__` | invariant over histories; negation for `"default"` | partial | The queue created on demand calls itself default but is not the queue named default: proved as a negation. |
| C07 Replaying a queue does not alter it | `CommandQueue.run` | frame lemma over the fold; negation when a command raises | partial | An exception during replay leaves the queue read-only: proved as a negation; the rest of the claim is proved. |
| C08 Replaying a command repeats the call that was recorded | parameter collection and `Command.execute` | equality of bound arguments for all signatures; negations | partial | False in general: arguments that are identifiers or go through converters change. Proved for plain arguments. |
| C09 Replay rebuilds the scene | the session machine, objects as call logs | simulation of the recorded history by its replay | partial | False for dotted class names from memory. Proved for any clean session, any transport of names and values, any target process. |
| C10 Replay never loses an object | creation commands replayed over the registry | induction; negation for id gaps | partial | False when the history has gaps; the exact condition is proved. |
| C11 Saving then loading a session preserves every command | `dump_command`, `load`, method strings (Json) | round trip for all queues | partial | Saving and loading gives the same commands, for all queues whose delayed conversions build no object and whose values can be encoded (json_save_load). Every save that succeeds, with conversions that build objects too, gives a file that loads everywhere and has, for each command the queue then holds, one that stands for it (save_load_any_partial). Missing, because it is false: a parameter recorded both as an object and as a default to be converted; the file then has the object built from the default (save_load_overlap_fails). |
| C12 Dump/load acts on the queue it is given | queue selection of `dump`/`load` | case analysis; negation for an empty queue | partial | False of the code: an empty queue given explicitly is replaced by the active queue. Proved for non-empty queues and for the active queue. |
| C13 Buffer contents survive serialisation | base64 (Base64) | round trip by strong induction on length | proved | The whole statement is proved. |
| C14 Type descriptions survive their textual form | dtype codec (Dtype) | round trip for all field lists; negations | partial | False of the code for shapes of several dimensions, which are flattened, and for field names that hold a separator. Proved on the fragment that the text can express. |
| C15 A saved file defines every object before using it | `dump` with delayed converters | induction; negation when a converter creates objects | partial | False of the code exactly when a delayed conversion builds an object while saving or looks up the number of an object that no earlier command creates (saved_defines_first_iff, number_before_canvas_fails); then no process without objects can run the file (built_replay_fails, and gsp_array_session_fails for GSP and ordinary numpy arrays; gsp_defines_first_iff for GSP in general). Proved for the recorded commands of every successful session. Missing: parameters given both as an object and as a value. |
| C16 One converter per pair of types | converter table and lookup (Convert) | refinement to a finite map over histories | partial | All proved except that registering a tuple of types is not atomic, which is false of the code. |
| C17 A failed load leaves the session as it was | `gsp.load` | negation, and exactly what is lost and kept | partial | False of the code: the registry and the active queue are emptied first. Proved: exactly what is lost and what is kept. |
| C18 Combining transforms never modifies them | transform heap with references (Transform) | frame lemma by induction on the copied structure | partial | That no existing transform changes is proved for every heap and operation. That the result shares nothing is false of the code for operators whose right operand is a number; proved for all others. |
| C19 A copied transform computes the same thing | transform copy/evaluate | induction; negation for a constant right operand | partial | False of the code for operators whose right operand is a number (it is lost); proved for all others, at any depth. For every transform the value of the copy is proved (copy_value): the same one exactly when no such operator is evaluated, TypeError otherwise, never another value (copy_same_iff); copying again changes nothing more (copy_again). |
| C20 Composition of transforms is associative | `__call__` chain | negation; the form that does hold | partial | False of the code: a(b)(c) evaluates as a(c). Proved: a(b) is composition, and the exact value of a(b)(c), for all b and c (call_composes, call_again), including those that lose a number when copied. |
| C21 A bound transform cannot be rebound | `bound`, `last`, `__call__` | induction on chains | partial | Proved for all chains of transforms of one argument; false of the code for operators. |
| C22 Transform arithmetic is pointwise arithmetic | operator overloads, numpy broadcasting (Values) | induction and case analysis | partial | Proved for operands that lose nothing when copied; false of the code for (x+1)+y, 1/x and 2*(10*pixel). The value for all operands is arith_value; two transforms with values combine exactly when neither evaluates an operator with a number on the right, and raise TypeError otherwise (arith_same_iff). |
| C23 Measures are mutually consistent | measures over the rationals | algebra; negation for the metre | partial | False of the code: a metre is 1000 centimetres. All the other ratios are proved for every resolution and value. |
| C24 A measure converts pixels to normalised coordinates and leaves z alone | measures in viewports | algebra; negation for the z coordinate | partial | False of the code for z, which becomes 0; the scaling of x, y and scalars is proved. |
| C25 A colormap uses the bounds it is given | colormap normalisation | algebra; negation for a zero bound | partial | False of the code when a bound is 0 (it is ignored); proved for all other bounds; colormap_zero_bound and colormap_outcome say what every bound gives. |
| C26 Accessors and outputs select the component they name | accessor and out | case analysis over component strings | partial | False of the code for keys of several letters, which give the first component only; accessor_key says what every key gives. |
| C27 Visual variables behave as named cells | `Visual` variables (Visual) | induction over histories | partial | Proved for input variables over all histories; outputs are filled in place, and a name that is both is evaluated with the output no assignment reaches. |
| C28 Rendering composes projection, view and model, and remembers those omitted | `Visual.render` and its matrices | induction over histories | proved | For all histories of renders and resizes, with failures. |
| C29 Every drawn element keeps its own attributes | depth sort and attribute permutation | permutation lemmas; negations | partial | False of the code for a single colour and four elements, and for shorter lists of colours; proved otherwise, for every order the sort may choose. For colours, `colours_kept_iff` says exactly which attributes are kept under every order (SaysColours). |
| C30 Nearer elements are drawn over farther ones | depth sort | permutation lemmas; negation for `Pixels` | partial | Proved for all visuals but Pixels, where the order is inverted. |
| C31 Paths and polygons partition their vertices | path partition | induction over size lists | partial | Proved when the sizes add up to the number of vertices; otherwise vertices are lost without an error; the two iff theorems say exactly when every vertex is in a path. |
| C32 One drawing per viewport, however many renders | `render` as a state machine with events | induction over histories | proved | For all histories, with failures. |
| C33 Rendering leaves array tracking as it was | the tracking flag in `render` | induction; negation for an exception | partial | False of the code when render raises; proved when it returns. |
| C34 Viewport placement and aspect | viewport placement (Viewport) | field arithmetic, induction over resizes | partial | Placement and aspect hold after a resize for the sizes given; the constructor overwrites the limits with 1 until the first resize, a width of 0 gets the width of the canvas, and a default size on a canvas measured in floats is taken for a fraction. |
| C35 A ragged array is a list of arrays | ragged arrays (Ragged) | refinement to list of lists | partial | Making, reading and writing items and slices as a list of lists does. It is no list where it refuses the empty list, empty slices and items of another length, and a stepped slice gives the items in between; each of these is stated for all keys. |
| C36 The dirty region covers every modified byte | dirty regions over strided byte memory (Tracked) | invariant over histories; negations | partial | All shapes, keys and histories, but for slices that go backwards, single numbers assigned through views and operators in place other than +=, -= and *=, where it is false. |
| C37 The tracked buffer mirrors the array | the tracker and its copy | invariant over histories; negations | partial | All histories of assignments through the array, its views and nested views. False with operators in place and slices that go backwards. |
| C38 Swizzles read and write the named components | swizzles (Swizzle) | case analysis over lengths; negation for coinciding sizes | partial | Reads for all names. Writes for all values when the number of vectors differs from the number of named components; swizzle_writes_fails shows what happens when they are the same. |
| C39 Vector conversions preserve coordinates | `to_vec2/3/4`, `as_vec` | induction over rows | partial | Proved for floats in all sizes. Integer vectors are truncated or refused, and a single flat vector of 4 is cut in two. |
| C40 Rotation matrices are rotations | rotation matrices over the reals (Glm) | algebra and trigonometry | partial | Over the reals. The rotations about an axis are exact when the small number of normalize is neglected, and rotate_near bounds its effect; the zero axis gives no rotation and no error. |
| C41 Projections map the view volume to the unit cube | frustum, ortho, perspective | algebra; negations | partial | Perspectives are right. Frustums are right just when bottom = -top and orthographic projections just when left = -right, because one entry of each matrix is at the wrong place. |
| C42 Affine helpers do what they say | translate, scale, viewport | algebra over any field | proved | Over any field where 2 is not 0. |
| C43 The trackball always holds a rotation | trackball (Trackball) | invariant over histories of drags | partial | Over the reals. The rotation is proved for all histories and the reading back for angles between -90 and 90 degrees. Larger angles are read back wrong (ball_read_any gives the angle read, ball_read_back_iff says exactly when it is the one set), and setting one angle forgets the drags made since the other was read or set. |
| C44 Sphere meshes are well formed | sphere (Shapes) | arithmetic, real algebra | proved | sphere, any number of slices and stacks |
| C45 Front and back faces partition the triangles | frontback | real algebra | proved | front exactly when the corners turn counterclockwise; flat triangles are back |
| C46 SVG parsing yields well-formed paths | SVG parser (Svg) | induction over token lists | proved | For all token sequences; the text is split into tokens outside this model. svg_subpath_fails shows what happens when a subpath is not begun by a move, which SVG allows after a close: AttributeError or TypeError. |
| C47 Relative SVG commands equal absolute ones | SVG parser | simulation of one spelling by another | proved | The case of every item may be chosen freely; letters may be left out where SVG allows it. |
| C48 Marker outlines fit the unit square | scaling of outlines | field arithmetic | proved | Exact arithmetic instead of floats. |
| C49 The camera zoom stays within its bounds | camera zoom | invariant over scroll histories | proved | Over the reals. |
| C50 A downloaded asset is complete | asset cache with crash points (Download) | induction over call histories; negation | partial | complete in every history without an interruption while writing; false otherwise: an interrupted LFS download leaves a truncated file that later calls return |
| C51 A failed save keeps the previous file | `gsp.save` | case analysis; negation | partial | False of the code: the file is truncated before the values are encoded. The outcome of every save is proved (save_outcome), and the file is lost exactly when all conversions succeed and a value cannot be written (save_destroys_iff). |
| C52 A resize redraws every viewport as it was drawn | resize events (Visual) | induction over histories; negation | partial | False of the code with two viewports; proved for one, and resize_draws says what is drawn for any number of viewports. |
| C53 Every collection is in its axes once | `add_collection` in `render` | induction over histories; negation | partial | False of the code for Points, Markers and Pixels (in every history); proved for the others. |
| C54 The view matrix puts the eye at the origin and looks at the centre | lookat | real algebra; negation | partial | Over the reals. The statements hold when the small number of normalize is neglected; lookat_near bounds its effect on each axis. The default arguments give a matrix without inverse, and the transpose option is ignored. |
| C55 Aligning two vectors gives the rotation from one to the other | align | real algebra; negation | partial | Over the reals, for vectors that are not parallel; exact when the small number of normalize is neglected, and align_near bounds its effect on each entry. Parallel vectors, equal ones included, give a matrix of nan. |
| C56 Dragging takes what is under the pointer along | drags of trackball and camera | real algebra; negation | partial | Proved for the trackball. False for the camera, which gives the trackball the new place of the pointer as the start of the drag. |
| C57 Elliptical arcs join the points they are given | `elliptical_arc` (SvgArc) | trigonometry, derivative of the ellipse | proved | Over the reals, with matplotlib's Path.arc as modelled; sweep flag 0 or 1. |
| C58 Meshes are closed surfaces | sphere and polyhedra | counting of sides, real algebra; negations | partial | proved for the sphere and for all polyhedra except the icosahedron, which raises NameError |
| C59 A marker does not depend on where its outline was drawn | scaling of outlines | field arithmetic; negation | partial | False in general: only shifts by the same amount in both directions, and enlargements, leave the marker unchanged; a shift in one direction shrinks it and moves it off centre, because minimum and maximum are taken over both coordinates together. svg_same_marker_iff says exactly which shifts leave it unchanged. |
| C60 SVG path text is read whatever its spelling | the regular expressions of the tokenizer (SvgText) | induction over spellings; negation | partial | All spellings of numbers and separators but two that SVG allows: arc flags written with nothing between, and a point with no digit after it followed by an exponent. For those svg_text_fails shows the wrong tokens. |
| C61 Every marker type has an outline | the marker table (Markers) | evaluation of the twelve outlines by the kernel, with the arc theorems | proved | All twelve markers, from the text in the source to the scaled outline, with the arcs of C57. |
| C62 A saved session is rebuilt by the program that loads it | recording, saving, loading and running between two programs | simulation, composed from C09, C11 and conversion lemmas | partial | Sessions with delayed conversions included, for two arbitrary programs whose methods have the same parameter names. False when conversions build objects while saving (built_replay_fails). False for references given for optional parameters, where the default is delivered in place of the object (optional_object_fails; Rebuilt says so). Empty sessions: save_load_run_empty. |
| C63 Replayed objects have different ids | replay with delayed conversions | invariant; negation | partial | False when a delayed conversion builds an object; proved otherwise. |
| C64 Which saved scenes the Matplotlib backend can run | tables of the public classes of both packages (Api) | C62 for these tables; negations for every file that names a missing class, or gives a number for a line enumeration to a recording backend | partial | The tables of public classes, methods, annotations and converters of both packages are modelled. Proved for processes that do not record and scenes of canvases, viewports, buffers, lists and the six visuals (canvases given as objects; by number see C80, the files are the same), and for processes that record and the same scenes without lists and without members of LineCap, LineStyle and LineJoin. False in general: with recording on no scene with a list or such a member runs, and no process runs a scene with a transform or a Data object, nor markers with an axis, nor draws paths whose caps are not a member of LineCap. Whatever Matplotlib raises, the replay of the scenes that are proved stops with such an exception or succeeds. |
| C65 The regression scripts accept what they should | scripts/check_expected_output.py and run_all_examples.py (Checker); sorting is any function meeting SortSpec | mutual induction on JSON values; uniqueness of sorted permutations of a partial order; negations for every sort | partial | Proved which JSON values are accepted: those with the same elements in any order. False as stated: [x, y] matches [y, x], lists of null or of mixed types raise, a session recorded again never matches because of its timestamps, and without --stop-on-error failing examples are not reported. |
| C66 Listings show the session and leave it alone | listings of gsp/io/ansi.py and text.py (Listing) | invariant over histories (recorded parameters are annotated); negations | partial | Proved for recorded sessions whose delayed conversions succeed and build no objects. False otherwise: printing an array builds a buffer and records it, queues loaded from a file print only when their commands have no parameters, and the plain text format always raises AttributeError. |
| C67 Documentation examples are independent and printed in full | gsp/io/mkdocs.py: entering, printing, source extraction (Listing) | simulation between the session and a session that only runs the example; induction over lines; negations | partial | Proved unless the active queue is read-only, as a failed replay leaves it. False then, and for the source when a block begins with an empty line, holds a short line of spaces, or stands on the line of its with statement (the loop never ends). |
| C68 Marker outlines are closed and have the shape of their name | the marker table (Markers) | evaluation of the twelve outlines by the kernel; negations | partial | The outlines of square, minus and diamond are not closed, and star and spade are not symmetric. Proved for the others by evaluation of the whole table in the kernel; control points of curves are compared, arcs by their end points. |
| C69 Objects can be keys, and equality is an equivalence | Object.__eq__, __hash__, the id setter and dictionaries of viewports (Keys) | refinement of a hash table to a map by identity, by induction over histories; induction on nesting; negations | partial | Keys work in every history in which no identifier is changed. Equality is transitive; reflexive only for objects without arrays, symmetric only between objects with the same attributes; equal objects have different hashes. |
| C70 Buffers hold what they are given and saved sessions show every frame | Buffer, List, the tracker and the recorded set_data (Frames, on top of Tracked and Base64) | simulation between the live array and the replayed buffer, by induction over histories; negations | partial | A replay shows the frames of the session exactly when none differs from the array as it was saved. With set_data as documented, the same file would give every frame (for arrays that tell what they change, C37). |
| C71 Saved files are read back to the letter, and never by halves | the text `json.dump`, `json.dumps(indent=2)` and `json.load` write and read: strings with escapes and surrogate pairs, numbers, lists, dictionaries, pieces written before an exception; the documents of gsp/io/json.py | mutual induction over trees: the reader gives back what the writer wrote; what the reader has read does not change when the text goes on, so no beginning of a dictionary can be read | proved | For every tree of values, both layouts, every crash point and every value json refuses. The texts of floats are those repr gives (a parameter, with the grammar of FloatWord). A lone surrogate, which Lean strings cannot hold, is read as U+FFFD. |
| C72 Examples can save their commands and run them again | _ExampleLauncher.render in commands mode (Launcher) | C64 in the process of the session itself; C15 for the negation | partial | Proved for examples made with the functions of the backend other than List, with arguments that can be saved and no members of the line enumerations. False of every example that gives an ordinary numpy array for a buffer: the cycle raises. |
| C73 Vectors and matrices are what their names say | vec234.py, mat234.py, ndarray/vectors.py, ndarray/matrices.py (Vectors) | a table of constructors evaluated in the kernel against the meaning of names; counts by cases; groups of numbers by induction | partial | Proved for all 39 constructors and all counts against the meaning of their names. False of the documentation of byte, ubyte and float, which have no second dimension, and of imat2 and umat2, which are not made of bytes. |
| C74 A mesh file is read as what it says | glm.py: mesh, fit, center, camera (Mesh) | induction over the lines of a file; every path of the code ends in an exception | partial | False of the code for every file: fit uses a name that does not exist, and so do center and (by wrong arguments) camera fail for all arguments. Proved of the part of mesh that reads the lines. |
| C75 Clamping and normalising | glm.py: clamp, normalize (Mesh, Glm) | order and field reasoning | proved | Over linear orders and the reals. |
| C76 Buffers of views of plain arrays | glm/ndarray/tracked.py, vec234.py as_vecN: views of arrays that are not tracked (Foreign) | invariant over histories of assignments; packed and strided positions compared | partial | Proved for arrays without gaps and all histories of assignments to forward slices through the array or its views; with gaps between the vectors, for assignments to all vectors at once and to single numbers. False with gaps when one vector is assigned: the buffer keeps the old one. |
| C77 An example with a camera shows what the camera sees | launcher.py camera mode, camera.py update (Interactive), with Visual and Trackball | invariant over mouse events and new sizes | partial | Proved for the first viewport and visuals that can be drawn. False with several viewports: every visual is drawn into the first one, and the others never follow the camera. |
| C78 What is seen depends on the zoom and the window only | camera.py connect and on_scroll, viewport.py _update (Interactive) | invariant over histories of two kinds of events | partial | Over the reals. Proved from the first new size on for windows that are not wider than high. False for wider ones, where a scroll changes the scale by the ratio of the sides, and before the first new size, where a window that is not square distorts. |
| C79 Parts of a point cloud keep their points and colours | examples/lidar-point-cloud.py crop and downsample (Cloud) | masks are filters; a random choice is any list of different indices | partial | Downsampling is proved, and cropping when all bounds are given; crop_form says exactly what is kept otherwise. False without bounds: every crop loses the points at the ends. |
| C80 A canvas may be given by its number | gsp/__init__.py int_to_Object with the recording decorator and save (Session, Json, Api) | simulation: the two sessions agree but for delayed look-ups, which find the same objects | proved | Without changes of ids; with them it is false (renumbered_canvas_fails). unknown_number_never_saved is for any program, when no conversion builds an object. |
| C81 A tracked array can be given wherever its buffer can | gsp_matplotlib/__init__.py Tracker, ndarray_to_Buffer, tracked_to_Buffer with the recording decorator, save and the launcher (Session, Json, Api, Launcher) | simulation as for C80, for any parameter without a default; the corollaries apply C64 and C72 to the session with the buffers | partial | Proved for parameters without a default. With a default it is false (handle_default_fails): the command of an object also carries the default of the parameter, the command of an array does not. |
| C82 A visual is saved with the contents of the array it was given | tracked.py __new__ and __array_finalize__, gsp_matplotlib/__init__.py Tracker, tracked_to_Buffer (Derived) | invariant: every array has the buffer of its origin, which is a small recursion over the program | partial | Proved for arrays made by GSP. False of views, copies, results and joined arrays: saved_is_origin and saved_contents_exact say what is saved for every array of every program. |
| C83 Work on copies leaves the buffer of the original alone | the same, with tracked.py __setitem__ (Derived) | invariant over programs, from the invariant of C37 for each array; direct computation for the copy | partial | Proved when items are assigned only through arrays made by GSP and their views. False otherwise: copy_overwrites says that the first assignment to a copy puts the copy into the buffer of the original. Additions in place report every byte of an array made by GSP; of a computed array they report the region of the array or view it was computed from. |
| C84 Assignments through index arrays and masks are tracked or refused | tracked.py __setitem__ with index arrays and masks (Derived) | equivalences for one assignment, and the invariant of C37 over histories | partial | Proved for keys that are refused, and for index arrays that pick among the first rows as many as they pick. False of all others: pick_region and pick_mirror say exactly when the region and the tracker are right. |
| C85 How a call ends is decided by its arguments | gsp/io/command.py command (binding, body, recording) (Session) | case analysis on the decorator, from equivalences for the binding of arguments and for the check of types | proved | For the creation of objects, an exception of the body or of the recording leaves the new object in the table of objects (create_outcome says which); the claim that nothing changes is for AttributeError and TypeError. |
| C86 Wrong indices and values raise the exception that says so, and change nothing | tracked.py __setitem__, swizzle.py __getattr__, colormap.py evaluate, viewport.py _update, Tracker, Object.__eq__ (Tracked, Foreign, Swizzle, Values, Viewport, Frames, Keys) | induction over keys and histories; case analysis | proved | A refused value may still extend the dirty region. A bound of a colormap that is 0 counts as not given (C25). |
| C87 Outlines that are not complete are refused | gsp/core/svg.py _parse_path, _next_pos (Svg) | the induction over items of C46, with an incomplete item at the end | proved | For paths whose subpaths all begin with a move, as in C46. |
| C88 The image of a canvas has the size and the picture of the canvas | canvas.py Canvas.__init__ and render without a target, the size of the figure and reshape (Raster) | error bounds for two roundings to the nearest double; index arithmetic for the bytes | partial | Proved: the picture has the columns and rows of the canvas or one less, and when it has them the image is the picture, byte by byte; at a resolution that is a power of two every canvas gives its picture. False in general: a canvas of 29 × 29 pixels at 100 dpi raises ValueError, a canvas whose size is a measure or a float raises TypeError, and after a new size of the window the image raises ValueError or holds the pixels in the wrong places. |
| C89 Markers face the axis they are given | Markers.generate_markers and its use in render | the matrix of align is a rotation (C55) whose used part is symmetric; list induction over the markers | partial | The direction faced is that of the position, not of the axis: proved for axes that are the positions, for markers that are not on the line of sight through the origin (these are not drawn). False in general. markers_made_iff says exactly which types and angles are accepted. Over the reals, the small number of normalize neglected (C55 align_near bounds it). |
| C90 The form in which attributes are given does not matter | Visual.eval_variable, the constructor and the rendering of Points for each form of each attribute (Given) | case analysis on the forms; exchanges of two points as orders of depth | partial | True without lists: arrays, buffers, tuples and transforms that give the same sizes, colours and widths are drawn alike. False for lists: colours in a list follow the order of drawing and not the points (list_colours_by_rank), sizes in a list raise, positions in a list, from a transform or with two coordinates raise, and one size in an array raises for several points. colours_list_same_iff, sizes_drawn_iff and positions_drawn_iff say exactly which values are drawn. |
| C91 A visual that can be made can be drawn | the outputs set apart by the constructors of the six visuals, and what rendering writes into them, by shapes (Room) | broadcasting as a function on shapes; arithmetic on sizes for each visual | partial | Exactly which shapes and indices are drawn. False as stated: positions of two coordinates (but for Pixels), segments given vertex by vertex, indices given as a ragged array, a List or a transform, indices that make no path, and other numbers of positions than the visual was made with raise. |
| C92 What is drawn does not depend on what was drawn before | render of the six backend classes step by step (evaluation of the variables, writing of the outputs, setters of the collection), set_variable, the matrices | two runs side by side: a relational invariant over the steps of each render, an invariant over histories, witnesses for the failures | partial | False of the code for markers whose axis, types or angles refer to the outputs, for caps assigned after the first render and for Pixels whose colours become None; proved for all other histories, with failures. |
| C93 A Matrix is as good as the array it was made of | Matrix.__init__ and __array__, the product of matrices in Visual.render with the shapes of numpy | case analysis of the products; induction over histories | partial | False of the code: tuples, lists and float64 arrays do not make the Matrix of their values, and a Matrix is one-dimensional for numpy, so that it is never used and nothing is drawn (proved for every role, call and history); proved for plain arrays. |
| C94 Every attribute of a visual shows in its drawing | as C92 | noninterference: each step of a render does the same with other values of the ignored attributes; induction over histories; one pair of visuals for each attribute that shows | partial | False of the code for the caps of Segments and the styles and joins of Paths and Polygons, which never show in any history; attribute_shows_iff says exactly which attributes show. |
| C95 After a render that returns, the canvas shows the visual as it is now | the step by step render of Model/Redraw.lean | a render that returns is taken apart step by step (bind_ok and the like), the parts of the collection are read off and compared, rank by rank, with what is meant for the element drawn there; the converse by going through the steps forwards | partial | Proved for all six kinds when colours and widths say clearly what is meant; false for one colour given to four points as an array (shown_points_fails) and for the order of pixels (shown_pixels_fails). |
| C96 An example's onRender is heard before every drawing | launcher.py update with onRender, Camera.update, the update function of points-3d.py | invariant over histories of mouse events and window sizes: every visual holds the matrices of the camera and shows the arrays as they are; the arrays are the fold of the calls | partial | Proved for all functions, visuals and histories, with the exact condition for an example to start. Sizes and line widths of points-3d follow the zoom after every history; that a point covers the same part of the scene holds while the window keeps its size (points_cover_partial) and fails when the window gets another size (points_cover_fails). |
| C97 The image an example saves shows its canvas as the window does | launcher.py with matplotlib_image, pyplot current figure, scripts of canvases, viewports, visuals and renders | invariant over scripts by induction from the end; matrices of the two camera modes computed | partial | What is on the image is described exactly for every example. It is of the canvas made last, whatever canvas is given (image_canvas_fails). Visuals rendered without matrices are drawn without the camera: places agree with the window in the mode ortho (image_places_partial), not in perspective (image_places_fails), and in both modes what is painted over what is reversed (image_order_fails). |
| C98 A length given in pixels or inches stays that long on the canvas | Measure.evaluate with the viewport, Viewport._update, render of positions, the limits set by the camera | invariant over histories: limits are not 0 while sizes are not, places are those of the current limits; field arithmetic for one drawing | partial | Proved for every viewport, history and unit but the meter, which is ten times too long (lengths_meter_fails), without matrices and with the camera of the mode ortho; with the default perspective camera lengths are multiplied by a constant other than 1 (lengths_perspective_fails). After a zoom of which the visual is not told its lengths change by the ratio of the limits (lengths_zoomed). |
| C99 The regression test finds every change of an example | run_all_examples.py main, names of output files in launcher.py, check_expected_output.py main (Regress, Checker) | induction over texts and over the list of examples; negations for leftovers, colliding names and files of commands | partial | Proved with --stop-on-error, for examples whose titles hold no .py (output_name_iff: exactly those have files named after them). False without the flag, as the Makefile runs it: an example that raises passes when an earlier run has left its image (regression_stale, regression_fails); regression_check_iff says exactly what is compared. Expected files of commands are never matched by a later run. |
| C100 A replay repeats the session in order, command by command | `CommandQueue.run`, `Command.execute`, `save`, `load` (Model/Session, Model/Json, Model/Api) | simulation between session and replay for every prefix (Lemmas/Lockstep), on top of the step lemma of C09 | partial | For every session that starts with replayable actions, whatever follows: the states the replay goes through (InStep), one command per action, the part that was executed before an exception, and that nothing is executed after it; also through a JSON file and for gsp with the Matplotlib backend. Missing, because false of the code: sessions that cannot be replayed at all (C09, dotted class names from memory; C62, C64). |
| C101 A printed command or queue can be read back | `Command.__str__`, `Command.dump`, `CommandQueue.__str__`, `text.dump_command` (Model/Print) | invariant over histories (every recorded command has an id), injectivity of the texts by cutting them at their separators | partial | The full claim is false: a loaded file may have an id that is no number (queues_print_fails, exact condition in queue_prints_iff); a constructor decorated without a name prints as a call of __init__ (creations_marked_fails; in gsp it does not happen); the text format raises KeyError for every command that refers to an object (text_command). Proved: recorded queues always print, texts determine what they show. |
| C102 Rounding keeps colormaps and the zoom within their bounds | `Colormap.evaluate` (Normalize), `Camera.on_scroll` and the limits set by `Camera.connect`, with a rounding after each operation (Model/Rounded) | invariant over histories for an abstract rounding (monotone, idempotent, nearly exact); a concrete rounding that meets it (chop), which is also the witness of the drift | partial | Colormaps and zoom: proved for every rounding. False of the code: the shape of the view is computed anew from rounded limits at each turn of the wheel and drifts (aspect_kept_fails, with a rounding to 53 bits); aspect_rounded bounds the drift after n turns. |
| C103 Rounding never deforms a scene that is turned | `Trackball.drag_to`, `_set_orientation` with computed products and turns (Model/RoundedBall) | invariant over histories: the length is 1 up to 2·count+1 roundings, and the count is at most 97 | proved | For every way to compute turns, products and normalised quaternions with lengths that are off by at most a part ε; ball_rounded for ε = 10^-14. The matrix is computed exactly from the quaternion (the code rounds it once more, to float32, which does not build up). |
| C104 The older tracked arrays keep their tracker up to date | `tracked_array.__setitem__` of glm/tracked_array.py, which no module imports (Model/TrackedLegacy) | equality with the model of ndarray/tracked.py for histories without assignments through views, and the exact bytes told by an assignment through a view | partial | Proved for assignments to the array itself that go forward. False for views: the bytes of the view are told at the offset 0 (legacy_view_told, for every view and history; legacy_view_told_iff says when the tracker is right nevertheless). |
| C105 Objects and commands are recorded correctly from several threads | `Object.__init__`, `NamedSingleton.__call__`, `CommandQueue.__init__`, `push`, `run`, the wrapper of recorded functions and `Command.__init__` as threads whose steps are single accesses to what they share (Model/Threads) | invariants by induction over schedules; witnesses of the schedules that break the rest; an invariant of a run that never ends | partial | Identifiers, numbers that differ, at most one command per call and the order of commands: proved for all schedules. Exactly one command per call: proved when a queue is active from the start and no thread runs it; without the first, in some queue (threads_recorded_partial). False of the code: two threads may each create the active queue, and commands are lost; numbers need not increase along a queue; two threads that run a queue may leave it read-only, or one of them never returns; calls made while another thread runs the queue are not recorded. Proved when one thread only runs queues: they are writable whenever it does not, and calls made meanwhile are recorded (threads_writable_partial, threads_between_partial). |
| C106 Rounding draws no element over one that is clearly nearer | the depths elements are sorted by, with every product, sum and quotient rounded and sums in any order (Model/RoundedDepth) | error bounds by induction over the order of the sum, then comparison of keys | proved | For every rounding with relative error at most u, every order of summation, fused or not, and every scene between the near and the far plane. The bounds are 116 u K for points and markers and 110 u K + 6 (h+1) u for the others. order_rounded_fails shows that some bound is needed. Overflow, nan and gradual underflow are not modelled. Pixels are left out: their order is inverted (C30). |
| C107 Commands tell when their calls were made | `Command.__init__`, `dump_command`, `load` with the clock and the rounding of `datetime` (Model/Times) | invariant over histories; error bounds for the two roundings against half a microsecond | partial | Order of the times, and listings to the microsecond until 2106, for all histories and all roundings. False of loaded sessions: load takes neither the time nor the number of a command from the file but those of the moment it is loaded. |
| C108 Rounding does not change lengths visibly | the evaluation of measures with every operation rounded (Model/RoundedMeasure) | relative errors as factors that multiply along the operations; a relation carried through the broadcasting of numpy | proved | For every rounding of relative precision u < 1 (9 roundings at most; for 53 bits less than a part in 10^15). rounded_units_differ shows that equality cannot be asked for. Overflow and underflow are not modelled; numbers stored with 32 bits are covered by measure_rounded with their precision. |
| C109 Rounding keeps what a projection shows | `frustum`, `ortho`, `perspective` with every operation and every stored entry rounded (Model/RoundedGlm) | relative errors as factors that multiply along the operations; error bounds for the divided coordinates | proved | The bounds on points are for a far plane at least twice as far as the near one. np.tan is assumed to be accurate to the precision. The rounding of the product of the matrix with a point is not part of this claim (C106 treats it). rounded_near_plane_moves shows that exact planes cannot be asked for. |
| C110 A transform can be recognised from what it prints | `Transform.__repr__`, `Operator.__repr__`, `Buffer.__repr__` on the heap of transforms (Model/Repr) | unique reading of the texts by induction over what they tell; refinement of printing to that | partial | False as stated: a transform bound to a number (10 * Pixel()) cannot be printed, since its id is asked for; one bound to 0 prints like an unbound one; every operator leaves a parenthesis open. Proved: texts identify what they tell of (operands being transforms, None, numbers, or buffers whose type has a simple name), and exactly which transforms print. Texts of tuples, arrays and structured types as operands are not modelled. |
| C111 Rounding does not move what is drawn | `Visual.render` up to the division by the last coordinate, with every operation rounded (Model/RoundedPlace) | error bounds of rounded dot products in any order, carried through the division | proved | For every rounding of relative precision u, with a condition on how much cancels near the plane of the eye. The bound in pixels is for cameras 5 away with a perspective whose factors are at most 16/5, and vertices in the cube from -1 to 1. Matplotlib's own transformation to pixels, overflow and underflow are not modelled. |
| C112 What lies outside the view volume is not drawn | `Points.render` up to the offsets, limits of the axes, perspective, camera (Model/Clip, Glm, Trackball) | algebra of the divided coordinates; invariant of the camera over events; negation | partial | False as stated: nothing is clipped in depth. Points behind the eye are shown, mirrored, as are points before the near and beyond the far plane. Proved: exactly what is shown, that points behind the eye are drawn before (under) those in front, and the property for points between the planes, which includes all scenes around the origin that fit between the planes of an example's camera. camera_zoom_shows adds the zoom. Over the reals, for the centres of points. |
| C113 A segment is drawn where its points are seen | `Segments.render` up to the lines handed over (Model/Clip) | a projective map on a segment: explicit parameters both ways; negation | partial | False for segments through the plane of the eye: no inner point of such a segment is seen on the line that is drawn. Proved for all segments whose ends are on the same side, with any matrix, and for the cameras of the examples. Over the reals; paths and polygons, whose edges are treated alike, are not stated separately. |
| C114 Where two elements overlap, the nearer one is on top | the keys that points, segments, paths and polygons are sorted by, after a perspective (Model/Cover, Clip) | monotony of the depth; bounds of means; negation by two crossing segments | partial | Proved for points and markers, and for elements of which one is nearer as a whole (a plane parallel to the window lies between them). False for other segments, paths and polygons: the order is that of the means of the depths of the vertices, whatever the perspective. Pixels are drawn in the opposite order (C30). Over the reals; rounding is treated in C106. |
| C115 A triangle is filled where its points are seen | `Polygons.render` for triangles, up to the outlines handed over (Model/Fill, Clip) | a projective map on weighted means: explicit weights both ways; negation | partial | False for triangles with a vertex behind the eye, of which another part of the window is filled. Proved for all triangles in front of the eye, with any matrix, and for the cameras of the examples. Over the reals; polygons with more vertices are not stated. |
| C116 A front face is one whose outside is seen | `frontback` on projected triangles, in real numbers (Model/FrontFace, Clip) | the projected area as a triple product; sign of the product of the distances; negation | partial | False for triangles with an odd number of corners behind the eye, for which the answer is the opposite (front_face_iff). Proved for all triangles in front of the eye, for the cameras of the examples, and for all triangles under an orthographic projection. Over the reals. |
| C117 The front faces of a convex mesh are seen whole | `frontback` on the projected faces of a convex mesh (Model/FrontFace, Clip) | the plane of a front face separates the eye from the mesh; weighted means; the last front plane that a line of sight crosses | proved | Over the reals, for perspectives with the mesh in front of the eye, and for orthographic projections. That nothing but the front faces is seen is stated for the cameras of the examples. |
| C118 The faces of the meshes are seen counter-clockwise from outside | the meshes of shapes.py and `frontback` on their projected faces (Model/Shapes, FrontFace, Clip) | coordinates a + b r with whole a and b, r the golden ratio, checked by the kernel; negations for three shapes | partial | False for the octahedron, whose faces are all inside out, so that frontback tells as front faces ones whose middle is hidden; for the cube and the tetrahedron, of which some faces are inside out and others not; and for the icosahedron, which cannot be made. Proved for the dodecahedron and for spheres of at least 3 slices. Over the reals. |

## 5. Defects found

The `_fails` theorems are defects of the code at this commit, each with a witness:

| property | defect |
|---|---|
| C04 | arguments that are GSP objects are never type checked |
| C04 | a rejected call has already been executed |
| C06 | the queue made on demand is named `default` but is not the queue `CommandQueue("default")` |
| C07 | an exception during a replay leaves the queue read-only |
| C08, C62 | an optional object argument is recorded as its default |
| C09 | the creation of an object of any public class cannot be replayed from memory: the dotted name raises TypeError |
| C10 | when recorded ids have gaps, a created object is first registered under a temporary id, which can remove another one |
| C63 | the object built by a delayed conversion takes the next id, which a recorded creation then takes over |
| C12 | an empty queue given to `dump` or `load` is replaced by the active queue |
| C14 | the text of a dtype flattens shapes of several dimensions, and cannot be read when a field name holds a separator |
| C15 | saving runs delayed conversions, whose objects are created after the command that refers to them |
| C16 | registering a tuple of types is not atomic |
| C17 | a failed load has already emptied the registry and the active queue |
| C18, C19 | the copy of an operator with a number on the right shares its left operand and loses the number |
| C20 | `a(b)(c)` evaluates as `a(c)` |
| C21 | calling an operator raises AttributeError or has no effect |
| C22 | `(x + 1) + y`, `1 / x` and `2 * (10 * pixel)` raise |
| C23 | a metre is 1000 centimetres |
| C24 | a measure sets z to 0 |
| C25 | a bound of 0 of a colormap is ignored |
| C26 | an accessor of several letters gives the first component |
| C27 | reading an output does not give what was set; a name that is input and output is evaluated with the output |
| C29 | one colour for four elements is taken for four items and shuffled; shorter lists of colours are applied in depth order |
| C30 | `Pixels` draws nearer elements first |
| C31 | vertices that do not fill a path, or are beyond the sizes, are dropped without an error |
| C33 | an exception in `render` leaves tracking off |
| C34 | a new viewport has square limits; a width of 0 is that of the canvas; float canvas sizes are taken for fractions |
| C35 | ragged arrays refuse empty lists and empty slices; stepped slices give the items in between |
| C36, C37 | writes through backward slices and some operators in place are not in the dirty region |
| C38 | as many vectors as named components: a write is transposed |
| C39 | a flat vector of 4 is cut in two, integers are truncated |
| C40, C54, C55 | zero axes, the default arguments of `lookat` and parallel vectors give singular or undefined matrices |
| C41 | `frustum` and `ortho` have an entry at the wrong place |
| C43, C56 | the angles of the trackball beyond 90 degrees are read back wrong; the camera passes the new pointer position as the old one |
| C46 | a subpath that does not begin with a move raises AttributeError or TypeError |
| C50, C51 | interrupted downloads and failed saves leave truncated files |
| C52, C53 | a resize draws all viewports with the matrices of the last one; points are added to the axes twice |
| C58 | `icosahedron()` raises NameError, the tetrahedron is not regular |
| C59 | markers depend on the position of the outline in its drawing |
| C60 | arc flags without separators and `1.e5` are read wrong |
| C64 | with recording on, the backend cannot run any saved scene with a list or with a member of `LineCap`, `LineStyle` or `LineJoin`, which arrives as a number; transforms and `Data` have no class in the backend |
| C65 | the check of JSON files ignores the order of lists, raises TypeError on lists of nulls or mixed values, and rejects every session recorded again (timestamps); failing examples do not make `run_all_examples.py` fail; it raises when `GSP_SC_INTERACTIVE` is set |
| C66 | printing a session builds and records a buffer for every ordinary numpy array; a queue loaded from a file raises TypeError as soon as a command has a parameter; the text format always raises AttributeError |
| C67 | after a failed replay an example prints nothing; its ids collide with those of earlier objects; blocks that begin with an empty line or hold a short line of spaces are printed wrong; an example on the line of its `with` makes the extraction loop for ever |
| C64 | segments created with the classes of the backend are recorded as `visual.Points` and can never be run again |
| C68 | the outlines of `square`, `minus` and `diamond` are not closed; `star` and `spade` are slightly asymmetric |
| C69 | a visual is not equal to itself: the comparison raises ValueError; all canvases, and all viewports, of `gsp` are equal but have different hashes; a viewport whose identifier is changed is drawn on twice; `a == b` can be true while `b == a` raises |
| C70 | `set_data` does nothing, and the data of a buffer are written to the file as they are when it is saved: a replayed animation shows its last frame throughout; the buffer of an array with several axes gives a wrong number of items; `len` of a list of equal parts raises NameError |
| C11 | when an object is given for a parameter whose default is converted into an object, the saved file refers to the one built from the default |
| C72 | with `--command_file_cycle` every example that gives an ordinary numpy array for a buffer saves its commands and then raises `KeyError` |
| C73 | `byte`, `ubyte` and `float` give `(count,)` arrays, documented as `(count,1)`; `imat2` and `umat2` are documented as bytes |
| C74 | `mesh`, `fit` and `center` raise NameError for every file and every list of vertices; `camera` raises TypeError for all arguments |
| C76 | for a field of an array of structures (`as_vec4(Z["color"])`) the region is computed with the gaps and the bytes are sent without them: after `C[1] = 1, 2, 3, 4` the buffer holds the old vector |
| C77 | an example with several viewports draws all its visuals into the first one, and the other viewports do not follow the camera |
| C78 | in a window wider than high one notch of the wheel changes the scale by the ratio of the sides, and a new size changes it back; before the first new size windows that are not square distort |
| C79 | a bound that is not given is replaced by the extreme of the points, which is then excluded: cropping without bounds loses points, and raises for an empty cloud |
| C80 | a viewport of a number that belongs to no canvas is accepted and recorded; the error comes only when saving. After a canvas's id is set, viewports given its number can no longer be saved. A number given before its canvas exists leads to a file that uses the canvas before creating it |
| C81 | an optional parameter given a buffer is saved as the buffer and the default, given the array of that buffer as the buffer alone |
| C82 | views, copies and results of operators are saved as the whole array they come from; arrays joined by `np.concatenate` raise AttributeError when given to a visual |
| C83 | copies share the tracker of the original: `b = a.copy(); b[0] = 1` writes all of `b` into the buffer of `a` |
| C84 | `Z[np.array([3])] = 9` is accepted and reports the first item as modified, not the fourth |
| C88 | `Canvas(29, 29, 100.0).render(None)` raises ValueError: 29 / 100 * 100 is below 29, Matplotlib draws 28 × 28 pixels, and the bytes cannot be given the shape of the canvas |
| C88 | a canvas whose size is a measure cannot be rendered to an array: `reshape` is given floats |
| C88 | after its window got another size a canvas still gives its image the old shape: ValueError, or an array of the right shape with the pixels in the wrong places |
| C64 | the constructor of markers of the backend subscripts the positions when there is an axis: as saved positions are GSP objects, no saved scene with such markers can be run |
| C64 | drawing paths looks the caps up among the members of `LineCap`: paths with caps given as a buffer, a list or `None`, all accepted by the constructor, cannot be drawn |
| C83 | an array computed from a view has the region of that view: `+=` on it reports bytes that it does not have and leaves others out |
| C89 | the axis of markers is not used: they face the direction of their position, and those on the line of sight through the origin are not drawn |
| C89 | an array with a single type is refused for several markers, an array with a single angle is not |
| C90 | colours given as a list with one colour for each point are not sorted with the points: the farthest point gets the first colour |
| C90 | sizes given as a list raise ValueError, and so does one size in an array or from a transform for several points |
| C90 | positions given as a list raise AttributeError when rendered, as a transform TypeError, and positions of two coordinates (which the documentation allows) ValueError |
| C91 | segments given by their vertices (shape (2n,3)) raise ValueError when rendered, for two segments or more |
| C91 | paths and polygons whose indices are a ragged array take the indices for sizes; a List raises TypeError (it cannot be iterated over) or NameError (`len` of a List with one size), a transform TypeError |
| C91 | paths and polygons of which none is complete raise ValueError instead of drawing nothing |
| C91 | a visual whose positions are replaced by another number of positions raises ValueError |
| C92 | Markers evaluate axis, types and angles before "screen[positions]" is written, so that an angle computed from the screen coordinates lags one render behind; the caps of Paths are read once, when the collection is made; Pixels whose colours become None keep the colours of before; a render that raises leaves the new places with the old colours. |
| C93 | `Matrix` reads the bytes of its argument as float32: tuples and lists raise, float64 arrays give twice as many numbers; it holds them in one dimension, so that the product in `render` raises, which is swallowed: nothing is drawn, until another matrix is given. |
| C94 | The caps of Segments (always round) and the styles and joins of Paths and Polygons are taken, stored and never used. |
| C95 | one colour given to four points as an array of four numbers is drawn as another colour; of two pixels the farther one hides the nearer |
| C96 | In points-3d.py the sizes of points follow the zoom but not the size of the window: in a window twice as large each point covers half as much of the scene (points_cover_fails). |
| C97 | matplotlib_image saves pyplot's current figure, the canvas made last, not the canvas given (image_canvas_fails); the visuals are drawn without the camera, so places differ from the window in perspective (image_places_fails) and nearer elements are painted under farther ones (image_order_fails). |
| C98 | A meter is ten times as long as it should be on the canvas (lengths_meter_fails); with the camera of the mode perspective every length is multiplied by 1/(5 tan 17.5°), about 0.63 (lengths_perspective_fails). |
| C99 | `make test_examples_image` followed by `make test_examples_output` succeeds although every example raises, as long as the images of an earlier run are in examples/output; examples called a.pyb.py and ab.py write the same file |
| C101 | `text.dump_command` raises `KeyError` for every command with a parameter that refers to an object: `command.annotations` has no key ending with `(id)` (`text_command`) |
| C101 | A JSON file whose command has a text as id loads, then printing the queue raises `TypeError` (`queues_print_fails`) |
| C102 | `Camera.on_scroll` computes the aspect of the view from the limits it has set before, so that the shape of the view drifts by rounding errors as the wheel is turned (`aspect_kept_fails`; tiny, bounded by `aspect_rounded`) |
| C104 | `tracked_array` (glm/tracked_array.py) tells its tracker the bytes of a view at the offset 0, so that an assignment through a view overwrites the beginning of the mirror (`legacy_mirror_fails`) |
| C105 | Recording is not safe for threads: two first calls may each create the active queue, so that commands are lost (`threads_lost_fails`); two threads that run the same queue may leave it read-only for good (`threads_run_fails`) or never return, because the queue gets the commands that are executed from it (`threads_endless_fails`); calls made while another thread runs the queue are not recorded (`threads_meanwhile_fails`); numbers need not increase along a queue (`threads_numbers_fails`) |
| C107 | `load` forgets the times and the numbers in the file: the commands of a loaded session bear the time of loading (`loaded_times_fails`) |
| C110 | `repr(10 * Pixel())` raises AttributeError: the id of the number is asked for (transform.py:207). A transform bound to 0 or to an empty buffer prints as if it were not bound. The text of an operator has an unclosed parenthesis (operator.py:143). |
| C112 | nothing is clipped in depth: points behind the eye are shown, mirrored through it (`behind_mirrored`), and so are points before the near plane and beyond the far one |
| C113 | a segment that goes through the plane of the eye is drawn as the line between its projected ends, on which none of its inner points is seen (`segment_shows_fails`) |
| C114 | segments, paths and polygons are sorted by the mean depth of their vertices, so that a nearer one may be drawn under a farther one where they overlap (`elements_cover_fails`) |
| C115 | for a triangle with a vertex behind the eye the wrong part of the window is filled (`triangle_shows_fails`) |
| C116 | `frontback` tells the wrong side of triangles with an odd number of corners behind the eye |
| C118 | The faces of `octahedron` are listed clockwise seen from outside, so that `frontback` tells those turned away as front faces; in `cube` and `tetrahedron` some faces are listed clockwise and others counter-clockwise (shapes.py:12, 53, 62-63). |

## 6. Testing the theorems

`seeded/LOG.jsonl` was made with a scratch copy of the project: one edit of one model
definition, a full rebuild, proofs that fail replaced by `sorry`, and then `#print axioms` for all
theorems of the manifest. A theorem counts as failed when it depends on `sorryAx` or no longer
elaborates. Edits under which no claim failed are marked with the theorems that were then
tightened, and run again (ids ending in `b`).
