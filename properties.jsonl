{"id": "C01", "title": "Object identifiers are never reused", "statement": "Whatever a session does (creating objects, calling recorded methods, switching, emptying or replaying queues, assigning ids), two distinct constructor calls never mint the same object id, and minted ids are strictly increasing starting from 1.", "quantifier": "every finite history of session operations (create, call, queue, empty, record, run, set id)", "why_tests_cant": "Uniqueness ranges over all pairs of objects of all histories; a test sees one history.", "anchors": ["gsp/object.py:OID.__new__", "gsp/object.py:Object.__init__"]}
{"id": "C02", "title": "The object registry never lies about ids", "statement": "At every moment of every session, if the registry Object.objects maps id k to an object, that object's own id is k, even after ids have been reassigned and queues replayed.", "quantifier": "every finite history of session operations, every id", "why_tests_cant": "An invariant of all reachable states, including those reached by id collisions that tests do not build.", "anchors": ["gsp/object.py:Object.__init__", "gsp/object.py:Object.id", "gsp/io/command.py:Command.execute"]}
{"id": "C03", "title": "A recorded call is logged exactly once, in the active queue, and nowhere else", "statement": "A call of an instrumented method appends exactly one command (right class, method, id and next command id) at the end of the active queue when recording is on, the queue is not read-only, the call was not marked __no_command__ and the argument types are accepted; in every other case every queue keeps exactly the commands it had.", "quantifier": "all sessions, all instrumented methods, all arguments", "why_tests_cant": "Requires all combinations of recording flag, queue flags, suppression and arguments, in every state.", "anchors": ["gsp/io/command.py:command", "gsp/io/command.py:CommandQueue.push", "gsp/io/command.py:record"]}
{"id": "C04", "title": "A call with a badly typed argument is rejected and not logged", "statement": "When recording is on, a call one of whose arguments neither has (a subclass of) one of the declared types, nor is None, nor can be converted to a declared type raises ValueError and logs nothing; a call all of whose arguments pass is never rejected.", "quantifier": "all signatures, all class hierarchies, all converter registries, all arguments", "why_tests_cant": "The decision depends on an arbitrary class hierarchy and an arbitrary converter table.", "anchors": ["gsp/io/command.py:command", "gsp/io/convert.py:get_converter"]}
{"id": "C05", "title": "Command ids are unique and increase along every queue", "statement": "In every queue the command ids are strictly increasing in queue order, and no command id occurs twice in the session.", "quantifier": "every finite history of session operations over any number of queues", "why_tests_cant": "Invariant over unbounded interleavings of several queues.", "anchors": ["gsp/io/command.py:CID", "gsp/io/command.py:Command.__init__", "gsp/io/command.py:CommandQueue.push"]}
{"id": "C06", "title": "A queue name always denotes the same queue", "statement": "Asking twice for the same queue name, with anything in between, returns the same queue; a newly created queue becomes the active one, an already existing queue is returned without changing the active one, and 'active' (or None) returns the active queue.", "quantifier": "every history of queue requests, all names", "why_tests_cant": "A property of arbitrary request histories; fails only for one particular order of requests.", "anchors": ["gsp/io/command.py:NamedSingleton.__call__", "gsp/io/command.py:CommandQueue.__init__", "gsp/io/command.py:queue"]}
{"id": "C07", "title": "Replaying a queue does not alter it", "statement": "Running the active queue leaves the commands of every queue unchanged and gives the read-only flag back its previous value, whether or not a command fails.", "quantifier": "all queues, all commands, all outcomes of the executed commands", "why_tests_cant": "Needs every possible failing command position and every state.", "anchors": ["gsp/io/command.py:CommandQueue.run"]}
{"id": "C08", "title": "Replaying a command repeats the call that was recorded", "statement": "Executing a recorded command calls the same method of the object with the same id with the same value for every parameter as the original call (positional, keyword or default), object arguments being the registered object with the same id.", "quantifier": "all signatures, all ways of passing arguments, all argument values", "why_tests_cant": "Ranges over all signatures and argument passing styles.", "anchors": ["gsp/io/command.py:command", "gsp/io/command.py:Command.execute"]}
{"id": "C09", "title": "Replay rebuilds the scene", "statement": "Replaying a recorded history yields, for each recorded id, an object of the same class that received the same sequence of calls with the same arguments.", "quantifier": "every recorded history, any number of objects and calls", "why_tests_cant": "Unbounded histories; needs induction.", "anchors": ["gsp/io/command.py:CommandQueue.run", "gsp/io/command.py:Command.execute", "gsp/object.py:Object.id"]}
{"id": "C10", "title": "Replay never loses an object", "statement": "After replaying creation commands with pairwise distinct ids, every one of these ids is still registered.", "quantifier": "all sequences of distinct ids, all values of the id counter at start", "why_tests_cant": "The failure depends on a coincidence between recorded ids and freshly minted temporary ids.", "anchors": ["gsp/io/command.py:Command.execute", "gsp/object.py:Object.__init__", "gsp/object.py:Object.id"]}
{"id": "C11", "title": "Saving then loading a session preserves every command", "statement": "Loading what was dumped gives as many commands, in the same order, each naming the same class and method and carrying the same id and the same parameters up to JSON encoding.", "quantifier": "all queues, all commands", "why_tests_cant": "Ranges over all command sequences, names and parameter values.", "anchors": ["gsp/io/json.py:dump_command", "gsp/io/json.py:dump", "gsp/io/json.py:load"]}
{"id": "C12", "title": "Dump/load acts on the queue it is given", "statement": "json.dump, json.save and json.load with an explicit queue operate on that queue and leave the other queues alone.", "quantifier": "all sessions, all choices of queue and active queue", "why_tests_cant": "Fails only for a corner state (an empty queue), tests use non-empty ones.", "anchors": ["gsp/io/json.py:dump", "gsp/io/json.py:load", "gsp/io/command.py:CommandQueue.__len__"]}
{"id": "C13", "title": "Buffer contents survive serialisation", "statement": "The base64 text written for a buffer's bytes decodes to exactly these bytes, for contents of any length.", "quantifier": "all byte strings", "why_tests_cant": "All lengths and all byte values.", "anchors": ["gsp/io/json.py:default", "gsp_matplotlib/core/buffer.py:Buffer.__init__"]}
{"id": "C14", "title": "Type descriptions survive their textual form", "statement": "Converting a numpy dtype to its string form and back gives the same dtype.", "quantifier": "all structured or plain dtypes with any number of fields, any shapes, any field names", "why_tests_cant": "Unbounded number of fields, names and shapes.", "anchors": ["gsp/io/convert.py:numpy_dtype_to_str", "gsp/io/convert.py:numpy_str_to_dtype"]}
{"id": "C15", "title": "A saved file defines every object before using it", "statement": "In the text dumped for a session, every object reference appears after the command that creates the object.", "quantifier": "all sessions, all conversions triggered while dumping", "why_tests_cant": "Depends on the order in which delayed conversions create objects.", "anchors": ["gsp/io/json.py:dump", "gsp/io/json.py:dump_command", "gsp/io/convert.py:Converter"]}
{"id": "C16", "title": "One converter per pair of types", "statement": "The converter table behaves as a finite map: registering an already registered pair raises and changes nothing, unregistering removes exactly the named pairs, looking up a pair gives the exact converter, or else the wildcard one, or else nothing.", "quantifier": "all histories of register and unregister calls, all type names", "why_tests_cant": "All histories and lookups.", "anchors": ["gsp/io/convert.py:register", "gsp/io/convert.py:unregister", "gsp/io/convert.py:is_registered", "gsp/io/convert.py:get_converter", "gsp/io/convert.py:convert"]}
{"id": "C17", "title": "A failed load leaves the session as it was", "statement": "gsp.load with an unknown format, or on an unreadable file, raises and leaves the registry and the queues unchanged.", "quantifier": "all sessions, file names, formats and file contents", "why_tests_cant": "All failure points of the load.", "anchors": ["gsp/__init__.py:load", "gsp/io/json.py:load"]}
{"id": "C18", "title": "Combining transforms never modifies them", "statement": "Calling a transform, composing two transforms, copying one or combining them with + - * / leaves every already existing transform exactly as it was, and the result shares no transform with its operands.", "quantifier": "all heaps of transforms (any sharing, any chain length), all operands", "why_tests_cant": "Aliasing property over arbitrary object graphs.", "anchors": ["gsp/transform/transform.py:Transform.__call__", "gsp/transform/transform.py:Transform.copy", "gsp/transform/operator.py:Operator.__init__", "gsp/transform/operator.py:Operator.copy"]}
{"id": "C19", "title": "A copied transform computes the same thing", "statement": "Evaluating the copy of a transform gives the same result as evaluating the transform.", "quantifier": "all transforms (any nesting of operators and chains), all variable bindings", "why_tests_cant": "Unbounded expression trees.", "anchors": ["gsp/transform/transform.py:Transform.copy", "gsp/transform/operator.py:Operator.copy", "gsp/transform/operator.py:Operator.evaluate"]}
{"id": "C20", "title": "Composition of transforms is associative", "statement": "a(b)(c) and a(b(c)) evaluate to the same thing.", "quantifier": "all transforms a, b, c", "why_tests_cant": "All chains of all lengths.", "anchors": ["gsp/transform/transform.py:Transform.__call__", "gsp/transform/transform.py:Transform.last"]}
{"id": "C21", "title": "A bound transform cannot be rebound", "statement": "Applying a transform to a value binds the last transform of its chain, and raises ValueError when, and only when, the chain is already bound.", "quantifier": "all chains of transforms, all values", "why_tests_cant": "All chain lengths.", "anchors": ["gsp/transform/transform.py:Transform.__call__", "gsp/transform/transform.py:Transform.bound", "gsp/transform/transform.py:Transform.last"]}
{"id": "C22", "title": "Transform arithmetic is pointwise arithmetic", "statement": "Evaluating a+b, a-b, a*b, a/b, -a, and the variants with a number on either side, gives the arithmetic combination of the evaluated operands, in the right order.", "quantifier": "all transform expressions, all operand kinds, all variable bindings", "why_tests_cant": "All expression trees and both operand orders.", "anchors": ["gsp/transform/transform.py:Transform.__radd__", "gsp/transform/transform.py:Transform.__rsub__", "gsp/transform/transform.py:Transform.__rmul__", "gsp/transform/transform.py:Transform.__neg__", "gsp/transform/operator.py:Operator.evaluate"]}
{"id": "C23", "title": "Measures are mutually consistent", "statement": "For every resolution and value: 1 inch = 72 points = 2.54 centimetres, 10 millimetres = 1 centimetre, 100 centimetres = 1 metre, 1000 metres = 1 kilometre, and a pixel is one unit.", "quantifier": "all dpi values, all measured values", "why_tests_cant": "All resolutions and values.", "anchors": ["gsp/transform/measure.py:Inch.evaluate", "gsp/transform/measure.py:Point.evaluate", "gsp/transform/measure.py:Centimeter.evaluate", "gsp/transform/measure.py:Millimeter.evaluate", "gsp/transform/measure.py:Meter.evaluate", "gsp/transform/measure.py:Kilometer.evaluate"]}
{"id": "C24", "title": "A measure converts pixels to normalised coordinates and leaves z alone", "statement": "A measure of a scalar spans value/size of the extent, a 2d or 3d coordinate is scaled by 1/width and 1/height, and the z coordinate of a 3d coordinate is not changed.", "quantifier": "all canvas and viewport sizes, limits and values", "why_tests_cant": "All sizes and dimensions.", "anchors": ["gsp/transform/measure.py:Measure.evaluate", "gsp/transform/measure.py:Measure.dpi"]}
{"id": "C25", "title": "A colormap uses the bounds it is given", "statement": "Values are normalised with the given vmin and vmax, and with the data minimum or maximum only when a bound was not given; all normalised values lie in [0,1] when the bounds enclose the data.", "quantifier": "all data, all bounds", "why_tests_cant": "All numeric bounds, including zero.", "anchors": ["gsp/transform/colormap.py:Colormap.evaluate"]}
{"id": "C26", "title": "Accessors and outputs select the component they name", "statement": "X Y Z W, R G B A and indexed accessors return the named component of every item of the chained value; an unbound accessor raises.", "quantifier": "all accessors, chains, buffers and output names", "why_tests_cant": "All chains, component strings and shapes.", "anchors": ["gsp/transform/accessor.py:Accessor.evaluate", "gsp/transform/out.py:Out.evaluate"]}
{"id": "C27", "title": "Visual variables behave as named cells", "statement": "A variable read after being set gives the value last set, setting one variable does not change another, and unknown names raise.", "quantifier": "all histories of set_variable, all names", "why_tests_cant": "All histories.", "anchors": ["gsp/visual/visual.py:Visual.set_variable", "gsp/visual/visual.py:Visual.get_variable", "gsp/visual/visual.py:Visual.eval_variable"]}
{"id": "C28", "title": "Rendering composes projection, view and model, and remembers those omitted", "statement": "After any sequence of render calls the matrix applied to the positions is the product projection.view.model of the matrices last given for each role.", "quantifier": "all sequences of render calls with any subset of the three matrices", "why_tests_cant": "All histories of partial updates.", "anchors": ["gsp/visual/visual.py:Visual.render"]}
{"id": "C29", "title": "Every drawn element keeps its own attributes", "statement": "Depth sorting permutes positions and per-element colours, sizes and widths consistently: the k-th drawn element is an original element with exactly its own attributes, every element is drawn exactly once, and uniform attributes stay the same for every element.", "quantifier": "all numbers of elements, positions and attributes", "why_tests_cant": "All permutations and all element counts; fails only for particular counts.", "anchors": ["gsp_matplotlib/visual/points.py:Points.render", "gsp_matplotlib/visual/markers.py:Markers.render", "gsp_matplotlib/visual/segments.py:Segments.render", "gsp_matplotlib/visual/paths.py:Paths.render", "gsp_matplotlib/visual/polygons.py:Polygons.render"]}
{"id": "C30", "title": "Nearer elements are drawn over farther ones", "statement": "In every visual, when two elements have different depths, the farther one is drawn first.", "quantifier": "all visuals, all element counts and depths", "why_tests_cant": "All depth configurations.", "anchors": ["gsp_matplotlib/visual/points.py:Points.render", "gsp_matplotlib/visual/pixels.py:Pixels.render", "gsp_matplotlib/visual/segments.py:Segments.render"]}
{"id": "C31", "title": "Paths and polygons partition their vertices", "statement": "The vertices are cut in consecutive groups of the requested sizes: no vertex is lost, duplicated or moved to another path.", "quantifier": "all vertex lists and all size specifications (one size, list of sizes, lists of indices)", "why_tests_cant": "All sizes and vertex counts.", "anchors": ["gsp_matplotlib/visual/paths.py:Paths.render", "gsp_matplotlib/visual/polygons.py:Polygons.render"]}
{"id": "C32", "title": "One drawing per viewport, however many renders", "statement": "Any sequence of renders and resizes creates exactly one collection and one resize handler per distinct viewport.", "quantifier": "all sequences of renders over all viewports", "why_tests_cant": "All histories.", "anchors": ["gsp_matplotlib/visual/points.py:Points.render", "gsp_matplotlib/visual/pixels.py:Pixels.render"]}
{"id": "C33", "title": "Rendering leaves array tracking as it was", "statement": "After render returns or raises, newly created arrays are tracked exactly as before.", "quantifier": "all visuals, all outcomes of render", "why_tests_cant": "All exception points.", "anchors": ["gsp_matplotlib/visual/points.py:Points.render", "gsp_matplotlib/visual/paths.py:Paths.render", "gsp_matplotlib/glm/ndarray/tracked.py:tracked"]}
{"id": "C34", "title": "Viewport placement and aspect", "statement": "A viewport given in pixels occupies that many pixels of the canvas, one given in fractions that fraction; its limits have the aspect ratio of its size and the smaller one equals the zoom.", "quantifier": "all canvas sizes, positions, sizes and zooms", "why_tests_cant": "All real sizes.", "anchors": ["gsp_matplotlib/core/viewport.py:Viewport._update"]}
{"id": "C35", "title": "A ragged array is a list of arrays", "statement": "Building a ragged array from a list, or from data and sizes, then reading, measuring and writing items agrees with the same operations on the plain list of arrays.", "quantifier": "all lists of arrays, all sizes, all indices and slices", "why_tests_cant": "All sizes, including empty items, and all index forms.", "anchors": ["gsp_matplotlib/glm/ndarray/ragged.py:ragged.__init__", "gsp_matplotlib/glm/ndarray/ragged.py:ragged.__getitem__", "gsp_matplotlib/glm/ndarray/ragged.py:ragged.__setitem__"]}
{"id": "C36", "title": "The dirty region covers every modified byte", "statement": "After any assignments to a tracked array or its views, the reported dirty region contains every byte modified since the last clear, and a single assignment through a contiguous slice reports exactly its bytes.", "quantifier": "all shapes, strides, keys and histories of assignments", "why_tests_cant": "All strided layouts and histories.", "anchors": ["gsp_matplotlib/glm/ndarray/tracked.py:tracked._compute_extents", "gsp_matplotlib/glm/ndarray/tracked.py:tracked._update", "gsp_matplotlib/glm/ndarray/tracked.py:tracked.__setitem__"]}
{"id": "C37", "title": "The tracked buffer mirrors the array", "statement": "After every item assignment the buffer that tracks an array holds the same bytes as the array.", "quantifier": "all histories of assignments through the array and its views", "why_tests_cant": "All histories, shapes and keys.", "anchors": ["gsp_matplotlib/glm/ndarray/tracked.py:tracked.__setitem__", "gsp_matplotlib/__init__.py:Tracker"]}
{"id": "C38", "title": "Swizzles read and write the named components", "statement": "Z.abc reads the named components in that order, and Z.abc = v makes the components named read back v and leaves the others unchanged.", "quantifier": "all component strings, array lengths and values", "why_tests_cant": "All lengths; fails only when the length coincides with the number of components.", "anchors": ["gsp_matplotlib/glm/ndarray/swizzle.py:swizzle.__getattr__", "gsp_matplotlib/glm/ndarray/swizzle.py:swizzle.__setattr__"]}
{"id": "C39", "title": "Vector conversions preserve coordinates", "statement": "Extending coordinates to 3 or 4 dimensions and dropping back recovers the original, extension adds z=0 and w=1, and reduction from 4 dimensions divides by w.", "quantifier": "all arrays of any length and dimension", "why_tests_cant": "All arrays.", "anchors": ["gsp_matplotlib/glm/vec234.py:to_vec2", "gsp_matplotlib/glm/vec234.py:to_vec3", "gsp_matplotlib/glm/vec234.py:to_vec4"]}
{"id": "C40", "title": "Rotation matrices are rotations", "statement": "xrotate, yrotate, zrotate and rotate about a unit axis give orthogonal matrices of determinant 1 that fix their axis, and successive rotations about the same axis add their angles.", "quantifier": "all angles, all axes", "why_tests_cant": "All real angles and axes.", "anchors": ["gsp_matplotlib/glm/glm.py:xrotate", "gsp_matplotlib/glm/glm.py:yrotate", "gsp_matplotlib/glm/glm.py:zrotate", "gsp_matplotlib/glm/glm.py:rotate"]}
{"id": "C41", "title": "Projections map the view volume to the unit cube", "statement": "perspective, frustum and ortho map the eight corners of their view volume to the corners of the cube [-1,1]^3.", "quantifier": "all volume parameters", "why_tests_cant": "All real parameters; fails only for asymmetric volumes.", "anchors": ["gsp_matplotlib/glm/glm.py:perspective", "gsp_matplotlib/glm/glm.py:frustum", "gsp_matplotlib/glm/glm.py:ortho"]}
{"id": "C42", "title": "Affine helpers do what they say", "statement": "translate adds the translation to every point, scale multiplies each coordinate, viewport maps the cube to the requested rectangle, and translations and scales compose and invert.", "quantifier": "all points, translations and scales", "why_tests_cant": "All real vectors.", "anchors": ["gsp_matplotlib/glm/glm.py:translate", "gsp_matplotlib/glm/glm.py:scale", "gsp_matplotlib/glm/glm.py:viewport"]}
{"id": "C43", "title": "The trackball always holds a rotation", "statement": "After any sequence of drags and orientation settings the trackball's matrix is orthogonal with determinant 1, and an orientation set with angles strictly between -90 and 90 degrees is read back.", "quantifier": "all sequences of drags with any coordinates, all angles", "why_tests_cant": "All histories of drags.", "anchors": ["gsp_matplotlib/glm/trackball.py:Trackball.drag_to", "gsp_matplotlib/glm/trackball.py:Trackball._rotate", "gsp_matplotlib/glm/trackball.py:_q_rotmatrix"]}
{"id": "C44", "title": "Sphere meshes are well formed", "statement": "Every face index of a sphere mesh is a valid vertex index, the mesh has the expected number of vertices and faces, and every vertex is at distance radius from the centre.", "quantifier": "all radii, slices and stacks", "why_tests_cant": "All resolutions.", "anchors": ["gsp_matplotlib/glm/shapes.py:sphere"]}
{"id": "C45", "title": "Front and back faces partition the triangles", "statement": "Every triangle is classified as exactly one of front and back, and reversing a non degenerate triangle swaps its class.", "quantifier": "all lists of triangles", "why_tests_cant": "All coordinates.", "anchors": ["gsp_matplotlib/glm/glm.py:frontback"]}
{"id": "C46", "title": "SVG parsing yields well-formed paths", "statement": "A parsed path has as many codes as vertices, each curve has exactly the number of points its kind requires, and a path whose subpaths are all explicitly moved to never raises.", "quantifier": "all token sequences", "why_tests_cant": "All path descriptions of any length.", "anchors": ["gsp/core/svg.py:_parse_path"]}
{"id": "C47", "title": "Relative SVG commands equal absolute ones", "statement": "Replacing absolute commands by relative ones (with coordinates relative to the current point) gives the same path.", "quantifier": "all command sequences and coordinates", "why_tests_cant": "All sequences.", "anchors": ["gsp/core/svg.py:_parse_path"]}
{"id": "C48", "title": "Marker outlines fit the unit square", "statement": "Every vertex of a normalised path has both coordinates between -1/2 and 1/2, and the proportions of the drawing are preserved.", "quantifier": "all paths with at least two distinct coordinates", "why_tests_cant": "All paths.", "anchors": ["gsp/core/svg.py:svg_to_path"]}
{"id": "C49", "title": "The camera zoom stays within its bounds", "statement": "Starting from a zoom between 0.1 and 5, whatever the user scrolls, the zoom stays between 0.1 and 5.", "quantifier": "all sequences of scroll events", "why_tests_cant": "All event histories.", "anchors": ["examples/common/camera.py:Camera"]}
{"id": "C50", "title": "A downloaded asset is complete", "statement": "A file returned by the asset cache is the complete remote file, even if an earlier download was interrupted.", "quantifier": "all crash points of earlier downloads", "why_tests_cant": "All crash points.", "anchors": ["examples/common/asset_downloader.py"]}
{"id": "C51", "title": "A failed save keeps the previous file", "statement": "When saving a session raises, the file that was there before still holds what it held.", "quantifier": "all sessions, all recorded values, all file names and formats", "why_tests_cant": "Depends on which recorded value is refused and on when the file is opened; no test enumerates the values.", "anchors": ["gsp/__init__.py:save", "gsp/io/json.py:save", "gsp/io/json.py:dump"]}
{"id": "C52", "title": "A resize redraws every viewport as it was drawn", "statement": "When a canvas is resized, each visual is drawn again in each of its viewports with the matrices that were last given for that viewport.", "quantifier": "all histories of renders over all viewports, followed by a resize", "why_tests_cant": "All histories; the failure needs two viewports with different matrices.", "anchors": ["gsp_matplotlib/visual/points.py:Points.render", "gsp/visual/visual.py:Visual.render"]}
{"id": "C53", "title": "Every collection is in its axes once", "statement": "Rendering a visual in a viewport puts one drawing in the axes of this viewport, so that translucent elements are blended once.", "quantifier": "all visuals and histories of renders and resizes", "why_tests_cant": "All histories.", "anchors": ["gsp_matplotlib/visual/points.py:Points.render", "gsp_matplotlib/visual/markers.py:Markers.render", "gsp_matplotlib/visual/pixels.py:Pixels.render"]}
{"id": "C54", "title": "The view matrix puts the eye at the origin and looks at the centre", "statement": "For every eye, centre and up vector with the eye not at the centre and the up vector not along the line of sight, the view matrix is a rigid motion that takes the eye to the origin, the centre to the negative depth axis at its distance from the eye, and the up vector to a direction that points upwards with no sideways part; the transpose option gives the transposed matrix.", "quantifier": "all triples of real vectors; the degenerate triples are characterised", "why_tests_cant": "The claim ranges over a continuum of views; a test checks a handful of them, mostly along the axes.", "anchors": ["gsp_matplotlib/glm/glm.py: lookat", "gsp_matplotlib/glm/glm.py: normalize"]}
{"id": "C55", "title": "Aligning two vectors gives the rotation from one to the other", "statement": "For every two vectors that are not zero, the matrix returned for them is a rotation and takes the direction of the first to the direction of the second.", "quantifier": "all pairs of real vectors of three numbers", "why_tests_cant": "The claim ranges over all pairs of directions, and the pairs on which the code divides by zero are a set that random tests never meet.", "anchors": ["gsp_matplotlib/glm/glm.py: align", "gsp_matplotlib/glm/glm.py: normalize"]}
{"id": "C56", "title": "Dragging takes what is under the pointer along", "statement": "A drag inside the ball turns the scene so that the point seen under the pointer at the start is seen under the pointer at the end, whatever was done before, for the trackball and for a camera that is dragged with the mouse; a drag that goes nowhere changes nothing.", "quantifier": "all histories of the trackball, all drags inside the ball", "why_tests_cant": "The claim is about every orientation reached by earlier drags and about a continuum of drags.", "anchors": ["gsp_matplotlib/glm/trackball.py:Trackball.drag_to", "gsp_matplotlib/glm/trackball.py:Trackball._rotate", "gsp_matplotlib/glm/trackball.py:Trackball._project", "examples/common/camera.py:Camera.on_motion"]}
{"id": "C57", "title": "Elliptical arcs join the points they are given", "statement": "An arc of a marker outline starts at the current point, ends at the given end point, has its points on an ellipse with the given rotation and radii (enlarged as little as needed), turns in the direction of the sweep flag and is the long or the short one as the large flag says.", "quantifier": "all end points, radii, rotations and flags", "why_tests_cant": "All real coordinates and all combinations of flags.", "anchors": ["gsp/core/svg.py:endpoint_to_center", "gsp/core/svg.py:arc_path"]}
{"id": "C58", "title": "Meshes are closed surfaces", "statement": "Every side of a face of a sphere or polyhedron is shared by exactly two faces, and the faces of a sphere all turn the same way seen from outside.", "quantifier": "all radii and numbers of slices and stacks, and all polyhedra of the module", "why_tests_cant": "All resolutions.", "anchors": ["gsp_matplotlib/glm/shapes.py"]}
{"id": "C59", "title": "A marker does not depend on where its outline was drawn", "statement": "Shifting or enlarging the path description of a marker leaves the marker that is drawn unchanged.", "quantifier": "all outlines, all shifts and all positive factors", "why_tests_cant": "All outlines and all shifts.", "anchors": ["gsp/core/svg.py:svg_to_path", "gsp/core/types.py:Marker"]}
{"id": "C60", "title": "SVG path text is read whatever its spelling", "statement": "A path description is cut into its commands and numbers for every spelling SVG allows: signs, exponents, digits left out before the point, white space, commas, or nothing between numbers where they can be told apart; two spellings of the same path give the same outline.", "quantifier": "all path descriptions, all spellings", "why_tests_cant": "Texts of any length with any mix of spellings.", "anchors": ["gsp/core/svg.py:_tokenize_path", "gsp/core/svg.py:COMMAND_RE", "gsp/core/svg.py:FLOAT_RE"]}
{"id": "C61", "title": "Every marker type has an outline", "statement": "Marker.path gives, for every marker of the enumeration, without an exception, an outline with as many codes as vertices that begins with a move and fits the unit square around the origin.", "quantifier": "all marker types", "why_tests_cant": "A test can check the twelve outlines on floats, not that the exact outline fits.", "anchors": ["gsp/core/types.py:Marker.path", "gsp/core/svg.py:svg_to_path"]}
{"id": "C62", "title": "A saved session is rebuilt by the program that loads it", "statement": "Save a session with gsp.save, load the file with gsp.load in another process (possibly a rendering backend with its own declared types, converters and bodies) and run the active queue: the second process holds one object per object of the session, registered under the same id, of the same class, which received the same calls in the same order, with references leading to the copies, converted arguments delivered in converted form, and the other arguments delivered in their JSON form; what the process held before is kept.", "quantifier": "all programs and backends, all converter tables, all sessions, all states of the loading process", "why_tests_cant": "It composes recording, conversion, saving, loading and replaying over arbitrary histories and two arbitrary programs.", "anchors": ["gsp/io/command.py:command", "gsp/io/command.py:Command.execute", "gsp/io/json.py:dump", "gsp/io/json.py:load", "gsp/__init__.py:save", "gsp/__init__.py:load"]}
{"id": "C63", "title": "Replayed objects have different ids", "statement": "After a session has been replayed in a fresh process, no two objects of that process have the same id.", "quantifier": "all sessions, all converter tables, all programs", "why_tests_cant": "Collisions need a conversion that builds an object between two recorded creations; all interleavings matter.", "anchors": ["gsp/io/command.py:Command.execute", "gsp/object.py:OID", "gsp_matplotlib/__init__.py:list_to_Buffer"]}
{"id": "C64", "title": "Which saved scenes the Matplotlib backend can run", "statement": "A scene built with the public classes of gsp and saved with gsp.save can be loaded and run by gsp_matplotlib, as long as Matplotlib itself raises nothing; the backend then holds every object of the scene under its id, with the same calls.", "quantifier": "all scenes made of the public classes and methods of gsp, all arguments, all loading processes", "why_tests_cant": "The classes and parameters of two packages, the converters and the file format must agree for every scene; the examples try a few.", "anchors": ["gsp/core/*.py", "gsp/visual/*.py", "gsp/transform/*.py", "gsp_matplotlib/core/*.py", "gsp_matplotlib/visual/*.py", "gsp/__init__.py:save", "gsp/io/command.py:CommandQueue.run"]}
{"id": "C65", "title": "The regression scripts accept what they should", "statement": "check_expected_output.py succeeds exactly when every expected image or JSON file exists in the output folder and has the same content: for JSON files the same value up to the order of keys, and every file matches itself. run_all_examples.py fails when an example fails, and passes exactly the arguments after the first -- to the examples.", "quantifier": "all folders of expected and output files, all JSON values, all sorting algorithms, all sets of examples, arguments and environments", "why_tests_cant": "These scripts are the project's own tests; what they accept must be known for every file, not for the present ones.", "anchors": ["scripts/check_expected_output.py:json_deep_comp", "scripts/check_expected_output.py:verify_file_content", "scripts/check_expected_output.py:main", "scripts/run_all_examples.py:main", "scripts/run_all_examples.py:split_argv", "gsp/io/json.py:dump_command"]}
{"id": "C66", "title": "Listings show the session and leave it alone", "statement": "The commands of a session can be printed after any history, also after loading them from a file: one block per command, in order, with its name, its number, and one line per parameter with its declared types. Printing changes nothing in the session, and a listing that fails does not damage the file it was to be written to.", "quantifier": "all programs, all histories of operations, all loaded files, all queues", "why_tests_cant": "What a listing meets depends on the whole history, on the registered converters and on the file that was loaded.", "anchors": ["gsp/io/ansi.py:dump", "gsp/io/ansi.py:dump_command", "gsp/io/ansi.py:save", "gsp/io/text.py:dump", "gsp/io/command.py:Command"]}
{"id": "C67", "title": "Documentation examples are independent and printed in full", "statement": "An example of the documentation prints the listing and the JSON document it would print if it ran alone, whatever ran before it in the same process, and its own source line by line without the indentation of the block.", "quantifier": "all earlier histories, all examples that refer to their own objects, all source files and indentations", "why_tests_cant": "All examples of the documentation share one process; what each prints must not depend on the others, whose number and order vary.", "anchors": ["gsp/io/mkdocs.py:mkdocs", "gsp/io/mkdocs.py:mkdocs.__enter__", "gsp/io/mkdocs.py:mkdocs.__exit__", "gsp/io/ansi.py:dump", "gsp/io/json.py:dump"]}
{"id": "C68", "title": "Marker outlines are closed and have the shape of their name", "statement": "The outline of every marker is closed, so that its border has no gap, and symmetric to the vertical middle of its drawing; the square is a square, the diamond has four equal sides, and the plus and the cross are unchanged by a quarter turn.", "quantifier": "all marker types, in exact arithmetic", "why_tests_cant": "A rendering test compares pixels with a tolerance; a missing side of a thin border or a corner a hundredth off is within it.", "anchors": ["gsp/core/types.py:Marker.path", "gsp/core/svg.py:parse_path"]}
{"id": "C69", "title": "Objects can be keys, and equality is an equivalence", "statement": "A viewport used as a key of a dictionary is found again whatever happens to it, so that a visual has exactly one drawing per viewport; an object is equal to itself, equality is symmetric and transitive, never raises, and equal objects have equal hashes.", "quantifier": "all objects, attributes, and histories of creations, attribute changes, identifier changes and renders", "why_tests_cant": "Tests compare a few objects of one class; the contract between equality and hash is about every pair of objects in every later state, and the identifier that is the hash may be changed at any time.", "anchors": ["gsp/object.py:Object.__eq__", "gsp/object.py:Object.__hash__", "gsp/object.py:Object.id", "gsp_matplotlib/visual/pixels.py:Pixels.render", "gsp/visual/visual.py:Visual.__init__"]}
{"id": "C70", "title": "Buffers hold what they are given and saved sessions show every frame", "statement": "A buffer has as many items as it says, they are the data it was given, and new data replace the old; a list knows its length; a saved session, replayed, shows at every render the data that were shown when it was recorded.", "quantifier": "all buffers, lists, and histories of changes to an array and renders", "why_tests_cant": "Tests save a scene whose arrays never change after the first render; the contents at every render of every history of assignments are needed, and the file is written with the memory as it is at the end.", "anchors": ["gsp_matplotlib/core/buffer.py:Buffer", "gsp/core/buffer.py:Buffer.set_data", "gsp/core/list.py:List.__len__", "gsp_matplotlib/__init__.py:Tracker", "gsp/io/json.py"]}
{"id": "C71", "title": "Saved files are read back to the letter, and never by halves", "statement": "The text written by save and returned by dump is read back as exactly the values that were written, whatever characters and numbers they hold, on every system. If saving stops at any point, by a crash or because a value cannot be written, the file left behind is refused by load, which then changes nothing in the queue.", "quantifier": "all values json can hold, all saved sessions, all crash points, all values that cannot be written", "why_tests_cant": "All strings, numbers and nestings, and a crash after every single character.", "anchors": ["gsp/io/json.py:dump", "gsp/io/json.py:load", "gsp/io/json.py:default"]}
{"id": "C72", "title": "Examples can save their commands and run them again", "statement": "An example started with `commands --command_file_cycle` whose scene was built and saved without errors loads its own file and runs it with the Matplotlib backend without errors; afterwards every object of the scene is registered again under its id, of the same class and with the same calls, and the objects built first are unchanged.", "quantifier": "all scenes made of the public classes and methods of gsp in a process with the Matplotlib backend, all arguments, all file names", "why_tests_cant": "The examples in the repository are a few scenes; whether reloading works depends on every argument's conversion and on the order in which saving records what it builds.", "anchors": ["examples/common/launcher.py:_ExampleLauncher.render", "gsp/__init__.py:save", "gsp/io/json.py:load", "gsp/io/command.py:CommandQueue.run"]}
{"id": "C73", "title": "Vectors and matrices are what their names say", "statement": "vecN, matN and their variants give, for every count, an array of that many elements with N (or N by N) numbers of the type the letter of the name means, as documented; the memory is that of the elements; negative counts are refused. as_vecN regroups the numbers of an array without changing or moving any, and refuses arrays that do not divide.", "quantifier": "all constructors, all counts (none, numbers, tuples), all arrays", "why_tests_cant": "All counts and shapes, 39 constructors, all arrays.", "anchors": ["gsp_matplotlib/glm/vec234.py", "gsp_matplotlib/glm/mat234.py", "gsp_matplotlib/glm/ndarray/vectors.py", "gsp_matplotlib/glm/ndarray/matrices.py"]}
{"id": "C74", "title": "A mesh file is read as what it says", "statement": "mesh returns the vertices of a Wavefront file, fitted to the unit cube, and its faces, in the order of the file; fit, center and camera return fitted vertices, centred vertices and a matrix.", "quantifier": "all files, all lists of vertices, all angles", "why_tests_cant": "All files, with all forms of lines and corners.", "anchors": ["gsp_matplotlib/glm/glm.py:mesh", "gsp_matplotlib/glm/glm.py:fit", "gsp_matplotlib/glm/glm.py:center", "gsp_matplotlib/glm/glm.py:camera"]}
{"id": "C75", "title": "Clamping and normalising", "statement": "clamp gives a number between its bounds, the same if it was there, and keeps order. normalize keeps the direction and gives length 1 up to its small constant.", "quantifier": "all numbers and vectors", "why_tests_cant": "All real numbers.", "anchors": ["gsp_matplotlib/glm/glm.py:clamp", "gsp_matplotlib/glm/glm.py:normalize"]}
{"id": "C76", "title": "Buffers of views of plain arrays", "statement": "An array made by as_vec2, as_vec3, as_vec4 or view(tracked) from an ordinary array, or from a part of one, is tracked like one made by GSP: after every item assignment through it, or through views made of it, its buffer holds its items.", "quantifier": "all shapes, offsets and gaps, all histories of item assignments", "why_tests_cant": "The positions in the buffer and in memory differ with the gaps of the array and add up over histories.", "anchors": ["gsp_matplotlib/glm/ndarray/tracked.py:__array_finalize__", "gsp_matplotlib/glm/ndarray/tracked.py:__setitem__", "gsp_matplotlib/glm/vec234.py:as_vec4", "gsp_matplotlib/__init__.py:register_converter"]}
{"id": "C77", "title": "An example with a camera shows what the camera sees", "statement": "While an example runs with a camera, each of its visuals is drawn, in the viewports it was rendered into and in no other, as the camera sees it: after every mouse event and every new size of the window its drawing is the one made with the camera's current projection, view and model.", "quantifier": "all visuals, all viewports, all sequences of mouse events and window sizes", "why_tests_cant": "Histories of events are unbounded, and a test looks at one camera position.", "anchors": ["examples/common/launcher.py:render", "examples/common/launcher.py:parse_args", "examples/common/camera.py:update", "examples/common/camera.py:connect"]}
{"id": "C78", "title": "What is seen depends on the zoom and the window only", "statement": "At a given zoom and window size the camera shows the same part of the scene, undistorted, whatever scrolls and window sizes led there.", "quantifier": "all sizes and all histories of scrolls and new sizes", "why_tests_cant": "Two functions in different files set the limits of the same axes; which one ran last depends on the history.", "anchors": ["examples/common/camera.py:on_scroll", "examples/common/camera.py:connect", "gsp_matplotlib/core/viewport.py:_update"]}
{"id": "C79", "title": "Parts of a point cloud keep their points and colours", "statement": "Cropping a point cloud keeps exactly the points strictly inside the bounds that are given, each with its colour, in order; a bound that is not given removes no point. Downsampling keeps points with their colours, none twice, and exactly the number asked for when there are more.", "quantifier": "all clouds, all bounds, all outcomes of the random choice", "why_tests_cant": "All clouds and random choices.", "anchors": ["examples/lidar-point-cloud.py:point_cloud_crop", "examples/lidar-point-cloud.py:point_cloud_downsample"]}
{"id": "C80", "title": "A canvas may be given by its number", "statement": "When viewports are created with the id of a canvas (an integer or canvas.id) in place of the canvas, every action of the session has the same outcome and gsp.save writes the same file, or raises the same exception, as in the session that gives the canvases themselves. A number that belongs to no registered object is never saved.", "quantifier": "all sessions of constructor and method calls on the public classes, with the converters of gsp or of gsp and gsp_matplotlib, any canvases replaced by their numbers, positional or named, all codecs, file names, formats and previous files; ids are not changed during the session", "why_tests_cant": "Conversions are delayed until the file is written, so the number is looked up in the registry as it is at the end of the session, after any number of other calls.", "anchors": ["gsp/__init__.py:int_to_Object", "gsp/io/command.py:command", "gsp/io/command.py:Command.evaluate", "gsp/core/viewport.py:Viewport.__init__", "gsp/io/json.py:save"]}
{"id": "C81", "title": "A tracked array can be given wherever its buffer can", "statement": "In a session with the public classes, giving an array that GSP tracks in place of the buffer that follows it, and giving the number of a canvas in place of the canvas, changes neither the outcome of any action nor the file that is saved (nor the exception that saving raises). So a session written with arrays can be saved, loaded, run by the Matplotlib backend and run again by the launcher exactly when the session written with the buffers can.", "quantifier": "all sessions of constructors and method calls, all choices of which arguments are given as objects and which as arrays or numbers, by position or by name, all array contents, all previous files", "why_tests_cant": "The claim compares two sessions for every combination of actions and arguments and through saving, loading and replay; tests only save a few fixed scenes in one form.", "anchors": ["gsp_matplotlib/__init__.py:Tracker", "gsp_matplotlib/__init__.py:ndarray_to_Buffer", "gsp/io/command.py:command", "gsp/io/command.py:Command.dump", "gsp/core/viewport.py:Viewport.__init__"]}
{"id": "C82", "title": "A visual is saved with the contents of the array it was given", "statement": "When a visual is given an array that GSP tracks, a view of one, a copy, the result of an operator, or an array joined from several, gsp.save writes the bytes that this very array or view has at that time. (True of arrays made by GSP. A view, a copy or a result is saved with all the bytes of the array made by GSP it comes from, whatever it holds itself, and an array joined by np.concatenate cannot be given.)", "quantifier": "all programs of any length that make arrays of any shape, compute arrays from others or from their views, join arrays, make views, assign to items and slices and apply operators in place, and every array or view among them", "why_tests_cant": "Which bytes are saved depends on the whole chain of computations an array comes from and on all assignments made to the first array before saving; a test saves a few arrays right after making them.", "anchors": ["gsp_matplotlib/glm/ndarray/tracked.py:tracked.__new__", "gsp_matplotlib/glm/ndarray/tracked.py:tracked.__array_finalize__", "gsp_matplotlib/__init__.py:Tracker", "gsp_matplotlib/__init__.py:tracked_to_Buffer"]}
{"id": "C83", "title": "Work on copies leaves the buffer of the original alone", "statement": "The buffer that follows a tracked array holds the bytes of that array, also when copies of the array and results of operators are modified. (False of the code: copies share the tracker, and the first assignment to an item of a copy overwrites the whole buffer of the original with the copy. True as long as items are assigned only through arrays made by GSP and their views.)", "quantifier": "all programs of any length as in C82, all arrays and buffers in them", "why_tests_cant": "The failure needs a copy and an assignment to it, in any order with other operations; the tests of tracked arrays use one array and its views.", "anchors": ["gsp_matplotlib/glm/ndarray/tracked.py:tracked.__array_finalize__", "gsp_matplotlib/glm/ndarray/tracked.py:tracked.__setitem__", "gsp_matplotlib/__init__.py:Tracker"]}
{"id": "C84", "title": "Assignments through index arrays and masks are tracked or refused", "statement": "An assignment to rows picked by a list, an index array or a mask is either refused with an exception that leaves the array unchanged, or the bytes it modifies are in the dirty region and reach the tracker. (Lists, tuples of arrays and masks of two axes are refused. A single index array or a mask of one axis is accepted, and the region reported is as long as the rows but begins at the first byte of the array, so that it is right only when the rows picked are the first ones.)", "quantifier": "all tracked arrays of any shape, all histories of views, assignments with integers and slices, and assignments through index arrays and masks", "why_tests_cant": "Index arrays that happen to pick leading rows work, and the region left by earlier operations may hide the others; the claim is about every set of rows and every history.", "anchors": ["gsp_matplotlib/glm/ndarray/tracked.py:tracked.__setitem__", "gsp_matplotlib/glm/ndarray/tracked.py:tracked._compute_extents", "gsp_matplotlib/glm/ndarray/tracked.py:tracked.dirty"]}
{"id": "C85", "title": "How a call ends is decided by its arguments", "statement": "Calling a method of an object that has no such method raises AttributeError. Calling one, or creating an object, with too many arguments, an unknown name, an argument given twice, or a missing argument without a default raises TypeError. In these cases nothing changes: no object, identifier or command. Otherwise every parameter gets the value given by position, else by name, else its default; an exception of the body is passed on; then, only while commands are recorded, an argument that is not of a declared type and cannot be converted raises ValueError; and in all other cases the call succeeds.", "quantifier": "all sessions in any state with any registered converters, all objects, all methods and classes with any signatures, all positional and named arguments, recording on or off, commands suppressed or not", "why_tests_cant": "The outcome depends on the combination of signature, positional and named arguments, defaults, declared types, converters and the state of recording; tests try a few valid calls.", "anchors": ["gsp/io/command.py:command", "gsp/object.py:Object.__init__", "gsp/io/convert.py:get_converter"]}
{"id": "C86", "title": "Wrong indices and values raise the exception that says so, and change nothing", "statement": "An assignment to a tracked array or one of its views raises IndexError exactly when the key does not fit its shape, and ValueError exactly when the key fits and the value has the wrong size; neither changes the array or the buffer that follows it. Items of a number read from an array raise TypeError. Components that belong to no notation raise AttributeError, all others are read. Colouring an array without items and without both bounds, or with exchanged bounds, raises ValueError, and there is a colour for each item otherwise. A viewport raises TypeError exactly when a position, or a size neither it nor its canvas has, is missing. Making a tracked array without axes raises TypeError. Comparing an array with something else is False for one item and ValueError otherwise.", "quantifier": "all arrays of any shape, after all histories of views, assignments and operators; all keys of integers and slices; all component names; all arrays of numbers and bounds; all positions and sizes", "why_tests_cant": "The boundary between valid and invalid depends on shapes, view chains and signs of indices without limit; tests try a few indices on one shape.", "anchors": ["gsp_matplotlib/glm/ndarray/tracked.py:tracked.__setitem__", "gsp_matplotlib/glm/ndarray/swizzle.py:swizzle.__getattr__", "gsp/transform/colormap.py:Colormap.evaluate", "gsp_matplotlib/core/viewport.py:Viewport._update", "gsp_matplotlib/__init__.py:Tracker", "gsp/object.py:Object.__eq__"]}
{"id": "C87", "title": "Outlines that are not complete are refused", "statement": "A path text that breaks off within an item, or has a letter where a number is due, or begins with a number, raises an exception (IndexError in the first case, ValueError in the others) instead of giving an outline that is cut off or displaced.", "quantifier": "all paths of any number of items of all kinds, absolute or relative, with or without implied letters, and all places at which they break off", "why_tests_cant": "There is one such place per number of every path; tests read the built-in markers, which are complete.", "anchors": ["gsp/core/svg.py:_parse_path", "gsp/core/svg.py:_next_pos", "gsp/core/svg.py:svg_to_path"]}
{"id": "C88", "title": "The image of a canvas has the size and the picture of the canvas", "statement": "Rendering a canvas without a target returns an array with one row for each row of pixels, one column for each column, and the four bytes of each pixel as they are drawn, whatever the size of the canvas, its resolution, the way its size was given and the later sizes of its window.", "quantifier": "all widths and heights, in pixels or as measures, all resolutions, all roundings to the nearest double, all drawn pictures, all later sizes of the window", "why_tests_cant": "The size goes through inches and back with two roundings, so it fails for isolated sizes and resolutions only; a test at 512 x 512 and 100 dpi passes.", "anchors": ["gsp_matplotlib/core/canvas.py:Canvas.__init__", "gsp_matplotlib/core/canvas.py:Canvas.render", "gsp/transform/measure.py:Measure.evaluate"]}
{"id": "C89", "title": "Markers face the axis they are given", "statement": "A marker that is given an axis is drawn as the outline of its type, turned by its angle in its plane and then turned in space so that it faces the axis, seen from the front; without an axis it is drawn upright. Every marker is drawn with its own type and angle, whether these are given for all markers or for each.", "quantifier": "for all outlines, types, angles, axes and positions of any number of markers, and all model matrices that are rotations", "why_tests_cant": "A test compares a few pictures; whether the outline is that of a turned marker depends on real positions, angles and matrices, and the singular directions are a line among them.", "anchors": ["gsp_matplotlib/visual/markers.py: Markers.generate_markers, Markers.render", "gsp/visual/markers.py: Markers", "gsp_matplotlib/glm/glm.py: align"]}
{"id": "C90", "title": "The form in which attributes are given does not matter", "statement": "Points are drawn in the same way whether their positions, sizes, colours and widths are given as an array, a buffer, a tuple, a list or a transform that evaluates to the same values; positions of two or three coordinates are accepted, and a single size may be given in any of these forms.", "quantifier": "for all numbers of points, all values and forms of the attributes, and all orders of depth", "why_tests_cant": "Whether the form matters depends on how many values there are compared to how many points, and on the order of depth after projection; a test with equally deep points or one colour sees no difference.", "anchors": ["gsp/visual/visual.py: Visual.eval_variable", "gsp/visual/points.py: Points", "gsp_matplotlib/visual/points.py: Points.render"]}
{"id": "C91", "title": "A visual that can be made can be drawn", "statement": "A visual made with positions that hold the coordinates of its points or vertices (three, or two where this is documented; vertex by vertex or segment by segment) and with indices in one of the documented forms (one size, an array of sizes, a list of lists, a ragged array, a List, a transform) is drawn, with one element for each point, segment or path that was given. Its positions may be replaced by more or fewer.", "quantifier": "for all kinds of visuals, all shapes of positions of any number of axes, all forms and values of indices, and all replacements", "why_tests_cant": "The arrays set apart when a visual is made and those written when it is drawn agree or not depending on all the sizes involved; single elements stretch and hide the disagreement.", "anchors": ["gsp/visual/points.py, segments.py, paths.py, polygons.py, markers.py, pixels.py: __init__", "gsp_matplotlib/visual/*.py: render", "gsp/visual/visual.py: Visual.set_variable, Visual.eval_variable", "gsp/core/list.py: List.__len__"]}
{"id": "C92", "title": "What is drawn does not depend on what was drawn before", "statement": "A render that returns leaves in its viewport the picture that the same visual, with its current variables and matrices, would give if it had never been drawn: nothing remains of earlier renders, of earlier values of its variables, or of renders that failed half-way; rendering again without a change changes nothing; and a render in one viewport leaves the pictures in the others alone.", "quantifier": "every kind of visual, every history of assignments and renders in any viewports, failing or not, every variable that may refer to the outputs of the rendering, every call", "why_tests_cant": "A test draws a scene once or twice; leftovers show only after particular histories (a failure between two renders, a variable changed after the first render, an attribute computed from the screen coordinates of the render before).", "anchors": ["gsp/visual/visual.py:Visual.set_variable", "gsp/visual/visual.py:Visual.eval_variable", "gsp/visual/visual.py:Visual.render", "gsp_matplotlib/visual/points.py:Points.render", "gsp_matplotlib/visual/markers.py:Markers.render", "gsp_matplotlib/visual/pixels.py:Pixels.render", "gsp_matplotlib/visual/segments.py:Segments.render", "gsp_matplotlib/visual/paths.py:Paths.render", "gsp_matplotlib/visual/polygons.py:Polygons.render"]}
{"id": "C93", "title": "A Matrix is as good as the array it was made of", "statement": "A Matrix can be made of the sixteen values of a 4x4 matrix given as a tuple, a list or an array, holds these values, and can be given to render for the model, view or projection: the visual is drawn as with the array itself.", "quantifier": "every data a Matrix can be made of, every role, every combination with other matrices, every history of renders after it", "why_tests_cant": "render swallows the error of the product and returns, so that a test that only calls it sees nothing; that no combination of matrices works, and that the visual stays undrawn in every later history, are statements about all calls.", "anchors": ["gsp/core/types.py:Matrix", "gsp/visual/visual.py:Visual.render", "gsp_matplotlib/visual/points.py:Points.render"]}
{"id": "C94", "title": "Every attribute of a visual shows in its drawing", "statement": "For every attribute that the constructor of a visual takes, another value of this attribute alone can change what is drawn.", "quantifier": "every kind of visual, every attribute it takes, every two visuals that differ in this attribute only, every history of assignments and renders", "why_tests_cant": "That an attribute is ignored is a statement about all values, all other attributes and all histories; a test that draws lines of one style cannot tell a style that is honoured from one that is ignored.", "anchors": ["gsp/visual/segments.py:Segments.__init__", "gsp/visual/paths.py:Paths.__init__", "gsp/visual/polygons.py:Polygons.__init__", "gsp_matplotlib/visual/segments.py:Segments.render", "gsp_matplotlib/visual/paths.py:Paths.render", "gsp_matplotlib/visual/polygons.py:Polygons.render"]}
{"id": "C95", "title": "After a render that returns, the canvas shows the visual as it is now", "statement": "Whatever was assigned and rendered before, after a render that returns each point, marker, pixel, segment, path or polygon is on the canvas exactly once, where the matrices in force put it, the farther ones first, with its own outline, colours, width and size as the variables give them now (colours computed from the screen positions use the new ones). With plain values, one per element, a render does return.", "quantifier": "every kind of visual, every state a history of assignments, renders and failed renders can leave, every call, every value of the variables, every order the sort may choose among equal depths", "why_tests_cant": "Tests look at the picture of a fresh visual; the claim is about every earlier history, every permutation by depth and every combination of forms of attributes.", "anchors": ["gsp_matplotlib/visual/points.py:Points.render", "gsp_matplotlib/visual/markers.py:Markers.render", "gsp_matplotlib/visual/pixels.py:Pixels.render", "gsp_matplotlib/visual/segments.py:Segments.render", "gsp_matplotlib/visual/paths.py:Paths.render", "gsp_matplotlib/visual/polygons.py:Polygons.render", "gsp/visual/visual.py:Visual.render"]}
{"id": "C96", "title": "An example's onRender is heard before every drawing", "statement": "When an example passes a function onRender to the launcher, the function is called at the start and after every event that turns or zooms, with the camera after that event, and at no other time; and whatever it writes to the arrays of the example shows: after every history of events each visual is drawn as the camera sees it now, from what the arrays hold now. In particular the points of examples/points-3d.py have sizes and line widths that follow the zoom, so that each covers the same part of the scene at every zoom and in every window.", "quantifier": "all functions made of array assignments and renders, all visuals that can be drawn, all histories of mouse events and window sizes", "why_tests_cant": "All histories of events; whether every event that changes the zoom also leads to a call and a redraw cannot be seen from single events.", "anchors": ["examples/common/launcher.py:_ExampleLauncher.render", "examples/common/camera.py:Camera.update", "examples/common/camera.py:Camera.on_scroll", "examples/points-3d.py:update"]}
{"id": "C97", "title": "The image an example saves shows its canvas as the window does", "statement": "An example started with matplotlib_image saves an image of the canvas it gives to the launcher, on which each of its visuals shows in the viewports it was rendered into and in no other, as it shows in the window of the same example started with matplotlib_camera before the mouse is used: every point at the same place, and the same things painted over each other.", "quantifier": "all examples (canvases, viewports, visuals and calls of render in any order), all points of the scene, both camera modes", "why_tests_cant": "All scripts and all points; the differences only show with several canvases or overlapping elements.", "anchors": ["examples/common/launcher.py:_ExampleLauncher.render", "examples/common/camera.py:Camera.run", "gsp_matplotlib/core/canvas.py:Canvas.__init__", "gsp_matplotlib/visual/points.py:Points.render", "gsp/visual/visual.py:Visual.render"]}
{"id": "C98", "title": "A length given in pixels or inches stays that long on the canvas", "statement": "Positions given in a unit of length (pixels, inches, points, centimetres, ...) show at that distance from the middle of their viewport, measured on the canvas, whatever the place and the size of the viewport, and they still do after the window got another size, after the wheel was turned and after the visual was rendered again.", "quantifier": "all units, positions, viewports (extents given as fractions, pixels or transforms), canvas sizes and resolutions, and all histories of renders, new sizes and zooms", "why_tests_cant": "The length on the canvas is the product of the measure, the limits of the axes, the size of the viewport and the matrices, each of which changes with every event of the history.", "anchors": ["gsp/transform/measure.py:Measure.evaluate", "gsp_matplotlib/core/viewport.py:Viewport._update", "gsp_matplotlib/visual/segments.py:Segments.render", "examples/common/camera.py:Camera.on_scroll", "examples/segments-fixed-size.py"]}
{"id": "C99", "title": "The regression test finds every change of an example", "statement": "Each example writes an output file of its own, named after it. After `run_all_examples.py -- matplotlib_image`, both this script and `check_expected_output.py` succeed exactly when every example ran without error and every expected image is like the one that its example has written in this run, whatever earlier runs have left in the output folder.", "quantifier": "all folders of examples, all outcomes of the examples, all expected files and all earlier contents of the output folder", "why_tests_cant": "It is a statement about the tests themselves: over all examples, names, failures and leftovers of earlier runs.", "anchors": ["scripts/run_all_examples.py:main", "scripts/check_expected_output.py:main", "examples/common/launcher.py:_ExampleLauncher.render"]}
{"id": "C100", "title": "A replay repeats the session in order, command by command", "statement": "When a recorded session is replayed (from its queue in memory, or after gsp.save, gsp.load in another process), the commands are executed one by one in the order of the calls, one per call, and after the k-th command the replaying process holds exactly what the session held after its k-th call: the same objects under the same ids, with the same calls received so far and none of the later ones. If only the first n calls can be replayed, the first n commands still succeed with these states; if the next command raises, run() raises that exception and no later command is executed.", "quantifier": "every session, every prefix of it, every replaying program and process, every rest of the session after the replayable part", "why_tests_cant": "tests compare final pictures; a replay that reorders commands on different objects, executes a command twice or runs on after an exception can give the same final state for the sessions tested. The intermediate states of all sessions cannot be enumerated.", "anchors": ["gsp/io/command.py: CommandQueue.run, Command.execute, command, register", "gsp/io/json.py:dump", "gsp/io/json.py:load", "gsp/__init__.py:save", "gsp/__init__.py:load"]}
{"id": "C101", "title": "A printed command or queue can be read back", "statement": "Every queue and every command of a session can be printed, with print() or dump(), after any history. The text of a command tells its number, its class, its object and whether it creates the object or which method it calls; the text of a queue tells its name, whether it is active and writable, and its commands in order: two queues that differ in any of this never print the same text. A single command can be printed in the text format as in the other format.", "quantifier": "all programs, all histories of operations, all loaded files, all pairs of commands and of queues", "why_tests_cant": "Tests print a few commands; that no two different commands or queues share a text, and that no history makes printing fail, quantifies over all of them.", "anchors": ["gsp/io/command.py:Command.__str__", "gsp/io/command.py:Command.dump", "gsp/io/command.py:CommandQueue.__str__", "gsp/io/text.py:dump_command"]}
{"id": "C102", "title": "Rounding keeps colormaps and the zoom within their bounds", "statement": "However floats are rounded, a colormap never sends a value within its bounds outside the colors of the map: the bounds get the first and the last color, and larger values never get an earlier color. However often the wheel is turned, the zoom stays between 0.1 and 5; turning it up shows less of the scene and turning it down more, unless the bound is reached, and nothing else changes the zoom. Zooming does not change the shape of the view.", "quantifier": "all roundings of numbers that are monotone and nearly exact, all bounds and values, all histories of the wheel", "why_tests_cant": "Tests see one rounding on a few values; errors build up over histories of any length, and the last digit decides whether a value is out of the bounds.", "anchors": ["gsp/transform/colormap.py:Colormap.evaluate", "examples/common/camera.py:Camera.on_scroll", "examples/common/camera.py:Camera.connect"]}
{"id": "C103", "title": "Rounding never deforms a scene that is turned", "statement": "However long a trackball is dragged and its angles are set, with every product and every turn rounded, the matrix stays a rotation up to a fixed tiny error that does not grow with the number of drags: the scene is never scaled or sheared visibly.", "quantifier": "all computed products, turns and normalisations whose lengths are off by at most a given part, all histories of drags and set angles", "why_tests_cant": "Errors build up over thousands of drags; a test drags a few times, with the rounding of one machine.", "anchors": ["gsp_matplotlib/glm/trackball.py:Trackball.drag_to", "gsp_matplotlib/glm/trackball.py:_q_normalize", "gsp_matplotlib/glm/trackball.py:_q_rotmatrix"]}
{"id": "C104", "title": "The older tracked arrays keep their tracker up to date", "statement": "After every assignment to an array of the class tracked_array, or to a view of it, the tracker that follows the array holds the same bytes as the array.", "quantifier": "all shapes and item sizes, all histories of views and assignments", "why_tests_cant": "There is no test of this class; whether the bytes told are the right ones depends on where a view begins, its strides and what was assigned before.", "anchors": ["gsp_matplotlib/glm/tracked_array.py:tracked_array.__setitem__", "gsp_matplotlib/glm/tracked_array.py:tracked_array.__array_finalize__"]}
{"id": "C105", "title": "Objects and commands are recorded correctly from several threads", "statement": "When several threads create objects, call their recorded methods and run queues, then, however the threads are interleaved: every object is registered under an identifier of its own; commands have different numbers; each constructor or method that returns is recorded exactly once, in the active queue, and one that raises is not; the command of a call that has returned comes before those of calls that had not returned then; the numbers increase along a queue; running a queue returns, and leaves the queue as writable as it was.", "quantifier": "all numbers of threads, all sequences of calls in each of them, all schedules (changes of thread at any access to a shared counter, dictionary, list, flag or class attribute)", "why_tests_cant": "A test runs under the schedules the interpreter happens to choose, and a change of thread between two given accesses is rare; the guarantee is about all interleavings.", "anchors": ["gsp/object.py:Object.__init__", "gsp/io/command.py:NamedSingleton.__call__", "gsp/io/command.py:CommandQueue.run", "gsp/io/command.py:CommandQueue.push", "gsp/io/command.py:command", "gsp/io/command.py:Command.__init__"]}
{"id": "C106", "title": "Rounding draws no element over one that is clearly nearer", "statement": "However floats round the products, sums and quotients of a rendering (with a relative error of at most u) and in whatever order numpy adds them up, of two points, markers, segments, paths or polygons between the near and the far plane whose depths differ by more than a fixed multiple of u times the cancellation in the transform, the farther is drawn first. The multiple does not depend on the number of elements, and for means it grows only with the number of additions.", "quantifier": "all roundings of relative error u, all orders of summation, all matrices, all numbers of vertices and elements, all results of argsort", "why_tests_cant": "The order of sums depends on the machine and on the size of the arrays, and a test sees a few scenes in one precision only.", "anchors": ["gsp/visual/visual.py: Visual.render", "gsp_matplotlib/visual/points.py: Points.render", "gsp_matplotlib/visual/markers.py: Markers.render", "gsp_matplotlib/visual/segments.py: Segments.render", "gsp_matplotlib/visual/paths.py: Paths.render", "gsp_matplotlib/visual/polygons.py: Polygons.render", "gsp_matplotlib/glm/vec234.py: to_vec3, to_vec4"]}
{"id": "C107", "title": "Commands tell when their calls were made", "statement": "Every recorded command carries the time of its call. Along a queue the times never decrease if the clock is not put back, a listing shows the time of each call to the microsecond although it is stored as a floating point number of seconds, and saving a session and loading it again keeps these times and the numbers of the commands.", "quantifier": "all histories of recorded calls on any number of queues, of emptying, saving and loading (also files written by others), all clocks, all roundings to 53 bits, all times before 2106", "why_tests_cant": "Whether a stored time is shown one microsecond off depends on how two sums and a product are rounded, for each of the 4\u00b710^15 times; the order must hold after every history and every tick of the clock.", "anchors": ["gsp/io/command.py:Command.__init__", "gsp/io/json.py:dump_command", "gsp/io/json.py:load", "gsp/io/text.py:dump_command", "gsp/io/ansi.py:dump_command"]}
{"id": "C108", "title": "Rounding does not change lengths visibly", "statement": "With floating point numbers, a measure raises the errors it raises with exact numbers, and otherwise every number of its value differs from the exact one by less than one part in 10^15 (64 bit floats). The same length given in inches, points, centimetres, millimetres or kilometres has the same value up to 3 parts in 10^15, though not always the same number.", "quantifier": "all roundings of the given precision, all units, resolutions, canvases, viewports, sizes, limits and values", "why_tests_cant": "Rounding errors depend on every digit of the resolution, the sizes and the values; tests see a few of them.", "anchors": ["gsp/transform/measure.py:Measure.evaluate", "gsp/transform/measure.py:Measure.dpi", "gsp/transform/measure.py:Inch.evaluate", "gsp/transform/measure.py:Point.evaluate", "gsp/transform/measure.py:Millimeter.evaluate"]}
{"id": "C109", "title": "Rounding keeps what a projection shows", "statement": "With floating point numbers, every entry of the matrices of frustum, ortho and perspective differs from the exact one by at most a few roundings of it, and entries that are 0 stay 0. With the 32 bit numbers these matrices are stored in, a point in front of the near plane of a perspective is seen at the exact place up to 5 parts in 10^7 of its distance from the middle, its depth changes by less than 4 in 10^6, and of two points the farther one keeps the greater depth. The near plane itself is not always shown at depth -1 exactly.", "quantifier": "all roundings of the given precision, all bounds, angles, aspects, near and far planes and all points in front of the near plane", "why_tests_cant": "Rounding errors depend on every digit of the bounds, the angle and the point; tests see a few of them.", "anchors": ["gsp_matplotlib/glm/glm.py:frustum", "gsp_matplotlib/glm/glm.py:perspective", "gsp_matplotlib/glm/glm.py:ortho"]}
{"id": "C110", "title": "A transform can be recognised from what it prints", "statement": "Every transform can be printed, and the text identifies it: if two transforms print the same text, they have the same class, the same id, the same id of the base, and are chained with or bound to the same object; operators that print the same text have the same operands, down to the leaves. Parentheses of the text are balanced.", "quantifier": "all graphs of transforms, operators, buffers and numbers, all ids, all depths", "why_tests_cant": "Texts of nested operators could coincide for some graphs among infinitely many; printing may fail for graphs no test builds.", "anchors": ["gsp/transform/transform.py:Transform.__repr__", "gsp/transform/operator.py:Operator.__repr__", "gsp_matplotlib/core/buffer.py:Buffer.__repr__"]}
{"id": "C111", "title": "Rounding does not move what is drawn", "statement": "The place where a vertex is drawn, computed with rounded numbers, is its exact place but for a few roundings; with the cameras and scenes of the examples and numbers of 24 bits it is less than an eighth of a pixel off, in viewports of up to 4096 pixels, however numpy orders the sums of its matrix products.", "quantifier": "all model, view and projection matrices, all vertices in front of the eye, all roundings of a given precision, all orders of summation", "why_tests_cant": "Errors depend on the rotation, on cancellation for vertices near the plane of the eye, and on the order of sums which differs between builds of numpy.", "anchors": ["gsp/visual/visual.py:Visual.render", "gsp_matplotlib/visual/points.py:Points.render", "gsp_matplotlib/glm/vec234.py:to_vec3"]}
{"id": "C112", "title": "What lies outside the view volume is not drawn", "statement": "With a perspective projection, a point is shown in the viewport just when it lies in the view volume: within the pyramid of the window, in front of the eye, and between the near and the far plane.", "quantifier": "all perspectives, all affine views and models, all points; for the cameras of the examples all sequences of mouse events", "why_tests_cant": "Tests place their points in the volume; a turned scene brings points behind the eye or the planes for some rotations only.", "anchors": ["gsp_matplotlib/visual/points.py:Points.render", "gsp_matplotlib/glm/glm.py:perspective", "gsp_matplotlib/glm/vec234.py:to_vec3", "examples/common/camera.py:Camera"]}
{"id": "C113", "title": "A segment is drawn where its points are seen", "statement": "The line drawn for a segment goes through exactly the places where the points of the segment are seen.", "quantifier": "all matrices, all segments; for the cameras of the examples all sequences of mouse events", "why_tests_cant": "Whether a segment goes through the plane of the eye depends on the rotation, and a drawing shows only the ends that were given.", "anchors": ["gsp_matplotlib/visual/segments.py:Segments.render", "gsp_matplotlib/glm/vec234.py:to_vec3", "examples/common/camera.py:Camera"]}
{"id": "C114", "title": "Where two elements overlap, the nearer one is on top", "statement": "Wherever points of two elements of a visual in front of the camera are seen at the same place, the element whose point is nearer there is drawn over the other.", "quantifier": "all perspectives, all affine views and models, all pairs of points, markers, segments, paths and polygons", "why_tests_cant": "It depends on the geometry of every pair of elements; a drawing of a test scene has few overlaps.", "anchors": ["gsp_matplotlib/visual/points.py:Points.render", "gsp_matplotlib/visual/segments.py:Segments.render", "gsp_matplotlib/visual/paths.py:Paths.render", "gsp_matplotlib/visual/polygons.py:Polygons.render"]}
{"id": "C115", "title": "A triangle is filled where its points are seen", "statement": "What is filled for a triangle is exactly where the points of the triangle are seen.", "quantifier": "all matrices, all triangles; for the cameras of the examples all sequences of mouse events", "why_tests_cant": "A perspective distorts the inside of a triangle; only its corners are computed, and whether a triangle reaches behind the eye depends on the rotation.", "anchors": ["gsp_matplotlib/visual/polygons.py:Polygons.render", "gsp_matplotlib/glm/vec234.py:to_vec3", "examples/common/camera.py:Camera"]}
{"id": "C116", "title": "A front face is one whose outside is seen", "statement": "Of triangles that have been projected, frontback tells as front faces exactly those whose outside (from which the corners run counter-clockwise) is towards the eye.", "quantifier": "all perspectives, all affine views and models, all triangles; for the cameras of the examples all sequences of mouse events", "why_tests_cant": "The side that is seen changes with the rotation, for every triangle at another angle.", "anchors": ["gsp_matplotlib/glm/glm.py:frontback", "gsp_matplotlib/glm/glm.py:perspective", "gsp_matplotlib/glm/vec234.py:to_vec3"]}
{"id": "C117", "title": "The front faces of a convex mesh are seen whole", "statement": "Of a convex mesh in front of the eye, no part hides any part of a face that frontback tells as a front face, so that the front faces can be drawn in any order. Of a closed convex mesh, each point is on a front face or hidden by one, so that the front faces are all that need be drawn.", "quantifier": "all perspectives, all affine views and models, all convex meshes of triangles; for the cameras of the examples all sequences of mouse events", "why_tests_cant": "It concerns every pair of points of every pair of faces, seen from every side.", "anchors": ["gsp_matplotlib/glm/glm.py:frontback", "gsp_matplotlib/glm/glm.py:perspective", "examples/common/camera.py:Camera"]}
{"id": "C118", "title": "The faces of the meshes are seen counter-clockwise from outside", "statement": "In each mesh that the library makes, the corners of every face run counter-clockwise seen from outside, so that frontback tells as front faces those that are turned to the eye.", "quantifier": "all shapes, all faces of each, all numbers of slices and stacks of the sphere; for what is told by frontback all sequences of mouse events", "why_tests_cant": "A test sees a few views; which faces are told as front faces changes with every rotation.", "anchors": ["gsp_matplotlib/glm/shapes.py:cube", "gsp_matplotlib/glm/shapes.py:tetrahedron", "gsp_matplotlib/glm/shapes.py:octahedron", "gsp_matplotlib/glm/shapes.py:dodecahedron", "gsp_matplotlib/glm/shapes.py:sphere", "gsp_matplotlib/glm/glm.py:frontback"]}
