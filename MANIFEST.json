{
 "claims": [
  {
   "property": "C01",
   "status": "proved",
   "theorems": [
    "Verif.minted_ids",
    "Verif.minted_ids_distinct",
    "Verif.object_ids_distinct"
   ],
   "note": "Ids are distinct for every history without explicit id assignment or replay; those two operations are the only exceptions (hypothesis Op.assignsId = false) and minted ids stay distinct even then."
  },
  {
   "property": "C02",
   "status": "proved",
   "theorems": [
    "Verif.registry_coherent",
    "Verif.registry_complete"
   ],
   "note": ""
  },
  {
   "property": "C03",
   "status": "proved",
   "theorems": [
    "Verif.call_logged_once",
    "Verif.creation_logged_once"
   ],
   "note": "Every outermost call of a recorded method that passes the argument check appends exactly one command to the active queue, and nothing for nested calls."
  },
  {
   "property": "C04",
   "status": "partial",
   "theorems": [
    "Verif.rejects_bad_arguments_fails",
    "Verif.rejects_bad_arguments_partial",
    "Verif.accepts_exactly_passing_partial",
    "Verif.rejection_is_value_error",
    "Verif.rejected_call_took_effect"
   ],
   "note": "The claim is false for GSP objects passed as arguments (they are replaced by their id before the check). Proved for all other arguments; a rejected call has already taken effect."
  },
  {
   "property": "C05",
   "status": "proved",
   "theorems": [
    "Verif.command_ids_increase",
    "Verif.command_ids_unique"
   ],
   "note": ""
  },
  {
   "property": "C06",
   "status": "partial",
   "theorems": [
    "Verif.name_denotes_queue_fails",
    "Verif.queue_name_stable_partial",
    "Verif.queue_has_its_name",
    "Verif.new_queue_becomes_active",
    "Verif.known_queue_changes_nothing",
    "Verif.active_returns_active"
   ],
   "note": "The queue created on demand calls itself default but is not the queue named default: proved as a negation."
  },
  {
   "property": "C07",
   "status": "partial",
   "theorems": [
    "Verif.run_keeps_queues_fails",
    "Verif.run_active_queue_partial",
    "Verif.run_raising_active_queue",
    "Verif.run_other_queue"
   ],
   "note": "An exception during replay leaves the queue read-only: proved as a negation; the rest of the claim is proved."
  },
  {
   "property": "C08",
   "status": "partial",
   "theorems": [
    "Verif.replay_repeats_calls_fails",
    "Verif.replay_drops_identifiers",
    "Verif.replay_repeats_call_partial",
    "Verif.replay_repeats_creation_partial"
   ],
   "note": "False in general: arguments that are identifiers or go through converters change. Proved for plain arguments."
  },
  {
   "property": "C09",
   "status": "partial",
   "theorems": [
    "Verif.replay_rebuilds_fails",
    "Verif.replay_rebuilds_scene_partial",
    "Verif.replay_in_fresh_process_partial",
    "Verif.replay_delivers_scene_partial"
   ],
   "note": "False for dotted class names from memory. Proved for any clean session, any transport of names and values, any target process."
  },
  {
   "property": "C10",
   "status": "partial",
   "theorems": [
    "Verif.replay_never_loses_fails",
    "Verif.replay_keeps_object_iff",
    "Verif.replay_never_loses_partial"
   ],
   "note": "False when the history has gaps; the exact condition is proved."
  },
  {
   "property": "C11",
   "status": "partial",
   "theorems": [
    "Verif.json_save_load",
    "Verif.save_load_any_partial",
    "Verif.save_load_overlap_fails",
    "Verif.save_succeeds_iff"
   ],
   "note": "Saving and loading gives the same commands, for all queues whose delayed conversions build no object and whose values can be encoded (json_save_load). Every save that succeeds, with conversions that build objects too, gives a file that loads everywhere and has, for each command the queue then holds, one that stands for it (save_load_any_partial). Missing, because it is false: a parameter recorded both as an object and as a default to be converted; the file then has the object built from the default (save_load_overlap_fails)."
  },
  {
   "property": "C12",
   "status": "partial",
   "theorems": [
    "Verif.dump_acts_on_given_fails",
    "Verif.load_acts_on_given_fails",
    "Verif.dump_acts_on_given_partial",
    "Verif.load_acts_on_given_partial"
   ],
   "note": "False of the code: an empty queue given explicitly is replaced by the active queue. Proved for non-empty queues and for the active queue."
  },
  {
   "property": "C13",
   "status": "proved",
   "theorems": [
    "Verif.base64_round_trip",
    "Verif.base64_injective",
    "Verif.base64_text"
   ],
   "note": ""
  },
  {
   "property": "C14",
   "status": "partial",
   "theorems": [
    "Verif.dtype_round_trip_fails",
    "Verif.dtype_round_trip_fails_names",
    "Verif.dtype_text_keeps",
    "Verif.dtype_text_keeps_count",
    "Verif.dtype_read_valid",
    "Verif.dtype_round_trip_partial",
    "Verif.dtype_empty_struct"
   ],
   "note": "False of the code for shapes of several dimensions, which are flattened, and for field names that hold a separator. Proved on the fragment that the text can express."
  },
  {
   "property": "C15",
   "status": "partial",
   "theorems": [
    "Verif.saved_defines_first_fails",
    "Verif.recorded_defines_first_partial",
    "Verif.saved_defines_first_partial",
    "Verif.saved_defines_first_iff",
    "Verif.run_defines_first",
    "Verif.built_replay_fails",
    "Verif.gsp_array_session_fails",
    "Verif.number_before_canvas_fails",
    "Verif.gsp_defines_first_iff"
   ],
   "note": "False of the code exactly when a delayed conversion builds an object while saving or looks up the number of an object that no earlier command creates (saved_defines_first_iff, number_before_canvas_fails); then no process without objects can run the file (built_replay_fails, and gsp_array_session_fails for GSP and ordinary numpy arrays; gsp_defines_first_iff for GSP in general). Proved for the recorded commands of every successful session. Missing: parameters given both as an object and as a value."
  },
  {
   "property": "C16",
   "status": "partial",
   "theorems": [
    "Verif.converter_table_is_map",
    "Verif.converter_table_nodup",
    "Verif.register_taken_pair",
    "Verif.register_in_session",
    "Verif.register_atomic_fails",
    "Verif.lookup_exact_or_wildcard",
    "Verif.lookup_value",
    "Verif.lookup_order",
    "Verif.convert_outcome"
   ],
   "note": "All proved except that registering a tuple of types is not atomic, which is false of the code."
  },
  {
   "property": "C17",
   "status": "partial",
   "theorems": [
    "Verif.failed_load_harmless_fails",
    "Verif.failed_load_loses",
    "Verif.failed_load_harmless_partial",
    "Verif.load_format",
    "Verif.broken_file_loads_prefix",
    "Verif.unreadable_file_harmless_partial"
   ],
   "note": "False of the code: the registry and the active queue are emptied first. Proved: exactly what is lost and what is kept."
  },
  {
   "property": "C18",
   "status": "partial",
   "theorems": [
    "Verif.combine_keeps",
    "Verif.combine_fresh_partial",
    "Verif.combine_fresh_fails"
   ],
   "note": "That no existing transform changes is proved for every heap and operation. That the result shares nothing is false of the code for operators whose right operand is a number; proved for all others."
  },
  {
   "property": "C19",
   "status": "partial",
   "theorems": [
    "Verif.copy_same_partial",
    "Verif.copy_same_fails",
    "Verif.copy_succeeds",
    "Verif.copy_value",
    "Verif.copy_same_iff",
    "Verif.copy_again"
   ],
   "note": "False of the code for operators whose right operand is a number (it is lost); proved for all others, at any depth. For every transform the value of the copy is proved (copy_value): the same one exactly when no such operator is evaluated, TypeError otherwise, never another value (copy_same_iff); copying again changes nothing more (copy_again)."
  },
  {
   "property": "C20",
   "status": "partial",
   "theorems": [
    "Verif.call_composes_partial",
    "Verif.call_again_replaces",
    "Verif.call_associative_fails",
    "Verif.call_composes",
    "Verif.call_again"
   ],
   "note": "False of the code: a(b)(c) evaluates as a(c). Proved: a(b) is composition, and the exact value of a(b)(c), for all b and c (call_composes, call_again), including those that lose a number when copied."
  },
  {
   "property": "C21",
   "status": "partial",
   "theorems": [
    "Verif.call_value_partial",
    "Verif.chain_evaluates",
    "Verif.call_value_operator_fails",
    "Verif.call_value_unchecked"
   ],
   "note": "Proved for all chains of transforms of one argument; false of the code for operators."
  },
  {
   "property": "C22",
   "status": "partial",
   "theorems": [
    "Verif.arith_broadcasts",
    "Verif.arith_elementwise",
    "Verif.arith_pointwise_partial",
    "Verif.rarith_pointwise_partial",
    "Verif.neg_pointwise_partial",
    "Verif.measure_times_partial",
    "Verif.arith_pointwise_fails",
    "Verif.rdiv_fails",
    "Verif.measure_times_fails",
    "Verif.arith_value",
    "Verif.arith_same_iff"
   ],
   "note": "Proved for operands that lose nothing when copied; false of the code for (x+1)+y, 1/x and 2*(10*pixel). The value for all operands is arith_value; two transforms with values combine exactly when neither evaluates an operator with a number on the right, and raise TypeError otherwise (arith_same_iff)."
  },
  {
   "property": "C23",
   "status": "partial",
   "theorems": [
    "Verif.units_consistent_partial",
    "Verif.meter_is_too_long",
    "Verif.units_consistent_fails",
    "Verif.pixel_is_unit",
    "Verif.inch_is_dpi_pixels"
   ],
   "note": "False of the code: a metre is 1000 centimetres. All the other ratios are proved for every resolution and value."
  },
  {
   "property": "C24",
   "status": "partial",
   "theorems": [
    "Verif.measure_on_canvas_partial",
    "Verif.measure_in_viewport_partial",
    "Verif.measure_rows",
    "Verif.measure_keeps_z_fails",
    "Verif.measure_needs_extent",
    "Verif.measure_row_by_row"
   ],
   "note": "False of the code for z, which becomes 0; the scaling of x, y and scalars is proved."
  },
  {
   "property": "C25",
   "status": "partial",
   "theorems": [
    "Verif.colormap_bounds_partial",
    "Verif.colormap_range",
    "Verif.colormap_dynamic",
    "Verif.colormap_bounds_fails",
    "Verif.colormap_zero_bound",
    "Verif.colormap_outcome",
    "Verif.colormap_number"
   ],
   "note": "False of the code when a bound is 0 (it is ignored); proved for all other bounds; colormap_zero_bound and colormap_outcome say what every bound gives."
  },
  {
   "property": "C26",
   "status": "partial",
   "theorems": [
    "Verif.accessor_component",
    "Verif.accessor_item",
    "Verif.accessor_field",
    "Verif.accessor_out_of_range",
    "Verif.accessor_indexed",
    "Verif.accessor_unbound",
    "Verif.accessor_chained",
    "Verif.accessor_component_fails",
    "Verif.out_whole",
    "Verif.out_components",
    "Verif.out_missing",
    "Verif.accessor_key",
    "Verif.out_bad_key"
   ],
   "note": "False of the code for keys of several letters, which give the first component only; accessor_key says what every key gives."
  },
  {
   "property": "C27",
   "status": "partial",
   "theorems": [
    "Verif.variable_reads_last_partial",
    "Verif.output_reads_filled",
    "Verif.variable_set_other",
    "Verif.variable_unknown",
    "Verif.variable_shadowed",
    "Verif.variable_reads_last_fails",
    "Verif.variable_evaluated_fails"
   ],
   "note": "Proved for input variables over all histories; outputs are filled in place, and a name that is both is evaluated with the output no assignment reaches."
  },
  {
   "property": "C28",
   "status": "proved",
   "theorems": [
    "Verif.render_applies_product"
   ],
   "note": "For all histories of renders and resizes, with failures."
  },
  {
   "property": "C29",
   "status": "partial",
   "theorems": [
    "Verif.drawn_keeps_attributes_partial",
    "Verif.drawn_paths_keep_attributes_partial",
    "Verif.drawn_keeps_attributes_fails",
    "Verif.drawn_cycles_in_depth_order_fails",
    "Verif.paths_four_vertices_fails",
    "Verif.colours_kept_iff"
   ],
   "note": "False of the code for a single colour and four elements, and for shorter lists of colours; proved otherwise, for every order the sort may choose. For colours, `colours_kept_iff` says exactly which attributes are kept under every order (SaysColours)."
  },
  {
   "property": "C30",
   "status": "partial",
   "theorems": [
    "Verif.farther_first_partial",
    "Verif.pixels_nearer_first",
    "Verif.farther_first_fails"
   ],
   "note": "Proved for all visuals but Pixels, where the order is inverted."
  },
  {
   "property": "C31",
   "status": "partial",
   "theorems": [
    "Verif.paths_of_sizes_partial",
    "Verif.paths_of_size_partial",
    "Verif.paths_of_lists",
    "Verif.paths_partition_fails",
    "Verif.paths_partition_iff",
    "Verif.paths_size_iff"
   ],
   "note": "Proved when the sizes add up to the number of vertices; otherwise vertices are lost without an error; the two iff theorems say exactly when every vertex is in a path."
  },
  {
   "property": "C32",
   "status": "proved",
   "theorems": [
    "Verif.one_collection_per_viewport",
    "Verif.collection_for_each_viewport"
   ],
   "note": "For all histories, with failures."
  },
  {
   "property": "C33",
   "status": "partial",
   "theorems": [
    "Verif.tracking_kept_partial",
    "Verif.tracking_lost",
    "Verif.tracking_stays_lost",
    "Verif.tracking_kept_fails"
   ],
   "note": "False of the code when render raises; proved when it returns."
  },
  {
   "property": "C34",
   "status": "partial",
   "theorems": [
    "Verif.viewport_placement_partial",
    "Verif.viewport_made_placement_partial",
    "Verif.viewport_aspect_partial",
    "Verif.viewport_history",
    "Verif.viewport_made_square",
    "Verif.viewport_aspect_fails",
    "Verif.viewport_placement_fails"
   ],
   "note": "Placement and aspect hold after a resize for the sizes given; the constructor overwrites the limits with 1 until the first resize, a width of 0 gets the width of the canvas, and a default size on a canvas measured in floats is taken for a fraction."
  },
  {
   "property": "C35",
   "status": "partial",
   "theorems": [
    "Verif.ragged_of_lists",
    "Verif.ragged_of_sizes",
    "Verif.ragged_sizes_refused",
    "Verif.ragged_of_size",
    "Verif.ragged_measures",
    "Verif.ragged_get_int",
    "Verif.ragged_get_slice",
    "Verif.ragged_get_list",
    "Verif.ragged_set_int",
    "Verif.ragged_set_slice",
    "Verif.ragged_read_back",
    "Verif.ragged_is_list_fails",
    "Verif.ragged_slice_empty",
    "Verif.ragged_get_step",
    "Verif.ragged_set_any",
    "Verif.ragged_set_list",
    "Verif.ragged_list_error",
    "Verif.ragged_iterates",
    "Verif.ragged_size_refused"
   ],
   "note": "Making, reading and writing items and slices as a list of lists does. It is no list where it refuses the empty list, empty slices and items of another length, and a stepped slice gives the items in between; each of these is stated for all keys."
  },
  {
   "property": "C36",
   "status": "partial",
   "theorems": [
    "Verif.dirty_covers_partial",
    "Verif.dirty_at_first",
    "Verif.dirty_exact",
    "Verif.dirty_covers_fails",
    "Verif.slice_reported_iff",
    "Verif.number_reported_iff"
   ],
   "note": "All shapes, keys and histories, but for slices that go backwards, single numbers assigned through views and operators in place other than +=, -= and *=, where it is false."
  },
  {
   "property": "C37",
   "status": "partial",
   "theorems": [
    "Verif.mirror_follows_partial",
    "Verif.mirror_catches_up",
    "Verif.mirror_follows_fails",
    "Verif.told_iff_reported"
   ],
   "note": "All histories of assignments through the array, its views and nested views. False with operators in place and slices that go backwards."
  },
  {
   "property": "C38",
   "status": "partial",
   "theorems": [
    "Verif.swizzle_names",
    "Verif.swizzle_reads",
    "Verif.swizzle_write_number",
    "Verif.swizzle_write_tuple_partial",
    "Verif.swizzle_write_array",
    "Verif.swizzle_write_vectors_partial",
    "Verif.swizzle_write_columns",
    "Verif.swizzle_read_back",
    "Verif.swizzle_writes_fails",
    "Verif.swizzle_single_refused"
   ],
   "note": "Reads for all names. Writes for all values when the number of vectors differs from the number of named components; swizzle_writes_fails shows what happens when they are the same."
  },
  {
   "property": "C39",
   "status": "partial",
   "theorems": [
    "Verif.extend_adds",
    "Verif.extend_drops_back_partial",
    "Verif.reduce_divides",
    "Verif.reduce_extends_back",
    "Verif.flat_groups",
    "Verif.flat_converts",
    "Verif.convert_refused",
    "Verif.convert_fails"
   ],
   "note": "Proved for floats in all sizes. Integer vectors are truncated or refused, and a single flat vector of 4 is cut in two."
  },
  {
   "property": "C40",
   "status": "partial",
   "theorems": [
    "Verif.axis_rotations",
    "Verif.axis_fixed",
    "Verif.axis_angles_add",
    "Verif.axis_direction",
    "Verif.rotate_rotation",
    "Verif.rotate_fixes",
    "Verif.rotate_angles_add",
    "Verif.rotate_axes",
    "Verif.rotate_near",
    "Verif.rotate_rotation_fails"
   ],
   "note": "Over the reals. The rotations about an axis are exact when the small number of normalize is neglected, and rotate_near bounds its effect; the zero axis gives no rotation and no error."
  },
  {
   "property": "C41",
   "status": "partial",
   "theorems": [
    "Verif.frustum_corners_iff",
    "Verif.ortho_corners_iff",
    "Verif.perspective_corners",
    "Verif.perspective_inside_iff",
    "Verif.projection_corners_fails"
   ],
   "note": "Perspectives are right. Frustums are right just when bottom = -top and orthographic projections just when left = -right, because one entry of each matrix is at the wrong place."
  },
  {
   "property": "C42",
   "status": "proved",
   "theorems": [
    "Verif.translate_adds",
    "Verif.scale_multiplies",
    "Verif.viewport_maps",
    "Verif.viewport_corners",
    "Verif.translate_scale_compose",
    "Verif.transpose_option"
   ],
   "note": "Over any field where 2 is not 0."
  },
  {
   "property": "C43",
   "status": "partial",
   "theorems": [
    "Verif.ball_rotation",
    "Verif.ball_angles",
    "Verif.ball_read_back_partial",
    "Verif.ball_set_read_back_partial",
    "Verif.ball_read_back_fails",
    "Verif.ball_set_forgets",
    "Verif.ball_normalize",
    "Verif.ball_read_any",
    "Verif.ball_read_back_iff"
   ],
   "note": "Over the reals. The rotation is proved for all histories and the reading back for angles between -90 and 90 degrees. Larger angles are read back wrong (ball_read_any gives the angle read, ball_read_back_iff says exactly when it is the one set), and setting one angle forgets the drags made since the other was read or set."
  },
  {
   "property": "C44",
   "status": "proved",
   "theorems": [
    "Verif.sphere_counts",
    "Verif.sphere_indices",
    "Verif.sphere_used",
    "Verif.sphere_radius",
    "Verif.sphere_poles"
   ],
   "note": "sphere, any number of slices and stacks"
  },
  {
   "property": "C45",
   "status": "proved",
   "theorems": [
    "Verif.frontback_spec",
    "Verif.frontback_reverse"
   ],
   "note": "front exactly when the corners turn counterclockwise; flat triangles are back"
  },
  {
   "property": "C46",
   "status": "proved",
   "theorems": [
    "Verif.svg_parse_draws",
    "Verif.svg_wellformed",
    "Verif.svg_terminates",
    "Verif.arcPath_draws",
    "Verif.arcPath_shape",
    "Verif.svg_path_with_arcs",
    "Verif.svg_subpath_fails"
   ],
   "note": "For all token sequences; the text is split into tokens outside this model. svg_subpath_fails shows what happens when a subpath is not begun by a move, which SVG allows after a close: AttributeError or TypeError."
  },
  {
   "property": "C47",
   "status": "proved",
   "theorems": [
    "Verif.svg_relative",
    "Verif.svg_implicit",
    "Verif.svg_parse_draws"
   ],
   "note": "The case of every item may be chosen freely; letters may be left out where SVG allows it."
  },
  {
   "property": "C48",
   "status": "proved",
   "theorems": [
    "Verif.svg_unit_square",
    "Verif.svg_degenerate"
   ],
   "note": "Exact arithmetic instead of floats."
  },
  {
   "property": "C49",
   "status": "proved",
   "theorems": [
    "Verif.camera_zoom",
    "Verif.camera_scroll",
    "Verif.camera_rotation"
   ],
   "note": "Over the reals."
  },
  {
   "property": "C50",
   "status": "partial",
   "theorems": [
    "Verif.download_fresh",
    "Verif.download_reports",
    "Verif.download_step",
    "Verif.download_complete_partial",
    "Verif.download_force_repairs",
    "Verif.download_fails",
    "Verif.download_force_loses",
    "Verif.download_prefix",
    "Verif.download_stays",
    "Verif.download_incomplete_iff"
   ],
   "note": "complete in every history without an interruption while writing; false otherwise: an interrupted LFS download leaves a truncated file that later calls return"
  },
  {
   "property": "C51",
   "status": "partial",
   "theorems": [
    "Verif.save_format",
    "Verif.failed_save_keeps_file_fails",
    "Verif.failed_save_keeps_file_partial",
    "Verif.save_outcome",
    "Verif.save_destroys_iff",
    "Verif.save_succeeds_iff"
   ],
   "note": "False of the code: the file is truncated before the values are encoded. The outcome of every save is proved (save_outcome), and the file is lost exactly when all conversions succeed and a value cannot be written (save_destroys_iff)."
  },
  {
   "property": "C52",
   "status": "partial",
   "theorems": [
    "Verif.resize_repeats_partial",
    "Verif.resize_repeats_fails",
    "Verif.resize_draws"
   ],
   "note": "False of the code with two viewports; proved for one, and resize_draws says what is drawn for any number of viewports."
  },
  {
   "property": "C53",
   "status": "partial",
   "theorems": [
    "Verif.drawn_once_partial",
    "Verif.drawn_once_fails"
   ],
   "note": "False of the code for Points, Markers and Pixels (in every history); proved for the others."
  },
  {
   "property": "C54",
   "status": "partial",
   "theorems": [
    "Verif.lookat_eye",
    "Verif.lookat_center",
    "Verif.lookat_rigid",
    "Verif.lookat_up",
    "Verif.lookat_near",
    "Verif.lookat_fails"
   ],
   "note": "Over the reals. The statements hold when the small number of normalize is neglected; lookat_near bounds its effect on each axis. The default arguments give a matrix without inverse, and the transpose option is ignored."
  },
  {
   "property": "C55",
   "status": "partial",
   "theorems": [
    "Verif.align_takes",
    "Verif.align_near",
    "Verif.align_fails"
   ],
   "note": "Over the reals, for vectors that are not parallel; exact when the small number of normalize is neglected, and align_near bounds its effect on each entry. Parallel vectors, equal ones included, give a matrix of nan."
  },
  {
   "property": "C56",
   "status": "partial",
   "theorems": [
    "Verif.ball_drag_follows",
    "Verif.ball_drag_composes",
    "Verif.camera_drag_follows_fails"
   ],
   "note": "Proved for the trackball. False for the camera, which gives the trackball the new place of the pointer as the start of the drag."
  },
  {
   "property": "C57",
   "status": "proved",
   "theorems": [
    "Verif.arc_joins",
    "Verif.arc_ends",
    "Verif.arc_degenerate",
    "Verif.ellipse_dir_deriv"
   ],
   "note": "Over the reals, with matplotlib's Path.arc as modelled; sweep flag 0 or 1."
  },
  {
   "property": "C58",
   "status": "partial",
   "theorems": [
    "Verif.sphere_closed",
    "Verif.sphere_outward",
    "Verif.shapes_closed",
    "Verif.shapes_radius",
    "Verif.icosahedron_fails",
    "Verif.tetrahedron_radius_fails",
    "Verif.tetrahedron_radius_partial"
   ],
   "note": "proved for the sphere and for all polyhedra except the icosahedron, which raises NameError"
  },
  {
   "property": "C59",
   "status": "partial",
   "theorems": [
    "Verif.svg_same_marker_partial",
    "Verif.svg_same_marker_fails",
    "Verif.svg_same_marker_iff"
   ],
   "note": "False in general: only shifts by the same amount in both directions, and enlargements, leave the marker unchanged; a shift in one direction shrinks it and moves it off centre, because minimum and maximum are taken over both coordinates together. svg_same_marker_iff says exactly which shifts leave it unchanged."
  },
  {
   "property": "C60",
   "status": "partial",
   "theorems": [
    "Verif.svg_text_partial",
    "Verif.svg_spelling",
    "Verif.svg_text_fails"
   ],
   "note": "All spellings of numbers and separators but two that SVG allows: arc flags written with nothing between, and a point with no digit after it followed by an exponent. For those svg_text_fails shows the wrong tokens."
  },
  {
   "property": "C61",
   "status": "proved",
   "theorems": [
    "Verif.marker_outline",
    "Verif.marker_items"
   ],
   "note": "All twelve markers, from the text in the source to the scaled outline, with the arcs of C57."
  },
  {
   "property": "C62",
   "status": "partial",
   "theorems": [
    "Verif.save_load_run_partial",
    "Verif.built_replay_fails",
    "Verif.save_load_run_empty",
    "Verif.optional_object_fails"
   ],
   "note": "Sessions with delayed conversions included, for two arbitrary programs whose methods have the same parameter names. False when conversions build objects while saving (built_replay_fails). False for references given for optional parameters, where the default is delivered in place of the object (optional_object_fails; Rebuilt says so). Empty sessions: save_load_run_empty."
  },
  {
   "property": "C63",
   "status": "partial",
   "theorems": [
    "Verif.replayed_ids_distinct_fails",
    "Verif.replayed_ids_distinct_partial"
   ],
   "note": "False when a delayed conversion builds an object; proved otherwise."
  },
  {
   "property": "C64",
   "status": "partial",
   "theorems": [
    "Verif.saved_scenes_run_fails",
    "Verif.saved_scenes_run_partial",
    "Verif.missing_class_never_runs",
    "Verif.transforms_never_run",
    "Verif.saved_scenes_run_recording_partial",
    "Verif.recording_backend_refuses_numbers",
    "Verif.saved_member_is_number",
    "Verif.saved_dtype_is_text",
    "Verif.recording_backend_has_no_lists",
    "Verif.viewport_render_never_runs",
    "Verif.colour_list_saved",
    "Verif.paths_need_positive_indices",
    "Verif.paths_accept_indices",
    "Verif.backend_segments_fails",
    "Verif.unknown_parameter_never_runs",
    "Verif.handles_run_partial",
    "Verif.handles_run_recording_partial",
    "Verif.replay_raises_drawing_only_partial",
    "Verif.replay_raises_drawing_only_recording_partial",
    "Verif.markers_axis_refused",
    "Verif.markers_axis_never_run",
    "Verif.paths_caps_refused"
   ],
   "note": "The tables of public classes, methods, annotations and converters of both packages are modelled. Proved for processes that do not record and scenes of canvases, viewports, buffers, lists and the six visuals (canvases given as objects; by number see C80, the files are the same), and for processes that record and the same scenes without lists and without members of LineCap, LineStyle and LineJoin. False in general: with recording on no scene with a list or such a member runs, and no process runs a scene with a transform or a Data object, nor markers with an axis, nor draws paths whose caps are not a member of LineCap. Whatever Matplotlib raises, the replay of the scenes that are proved stops with such an exception or succeeds."
  },
  {
   "property": "C65",
   "status": "partial",
   "theorems": [
    "Verif.checker_accepts_partial",
    "Verif.checker_key_order",
    "Verif.checker_ignores_order",
    "Verif.checker_exact_fails",
    "Verif.checker_reflexive_fails",
    "Verif.commands_match_only_same_times_partial",
    "Verif.commands_rerun_rejected",
    "Verif.check_success_partial",
    "Verif.check_ignores_other_output",
    "Verif.check_covers_output_fails",
    "Verif.run_examples_stop",
    "Verif.run_examples_all",
    "Verif.run_reports_fails",
    "Verif.split_argv",
    "Verif.launch_env_partial",
    "Verif.launch_env_fails"
   ],
   "note": "Proved which JSON values are accepted: those with the same elements in any order. False as stated: [x, y] matches [y, x], lists of null or of mixed types raise, a session recorded again never matches because of its timestamps, and without --stop-on-error failing examples are not reported."
  },
  {
   "property": "C66",
   "status": "partial",
   "theorems": [
    "Verif.listing_partial",
    "Verif.listing_changes_nothing_partial",
    "Verif.gsp_annotated",
    "Verif.failed_listing_keeps_file",
    "Verif.listing_changes_nothing_fails",
    "Verif.sessions_print_fails",
    "Verif.loaded_listing_fails",
    "Verif.text_format_fails"
   ],
   "note": "Proved for recorded sessions whose delayed conversions succeed and build no objects. False otherwise: printing an array builds a buffer and records it, queues loaded from a file print only when their commands have no parameters, and the plain text format always raises AttributeError."
  },
  {
   "property": "C67",
   "status": "partial",
   "theorems": [
    "Verif.examples_independent_partial",
    "Verif.gsp_examples_independent_partial",
    "Verif.examples_independent_fails",
    "Verif.example_ids_unique_fails",
    "Verif.example_source_partial",
    "Verif.example_source_fails",
    "Verif.example_source_blank_fails",
    "Verif.example_source_hangs_fails",
    "Verif.example_registry"
   ],
   "note": "Proved unless the active queue is read-only, as a failed replay leaves it. False then, and for the source when a block begins with an empty line, holds a short line of spaces, or stands on the line of its with statement (the loop never ends)."
  },
  {
   "property": "C68",
   "status": "partial",
   "theorems": [
    "Verif.marker_closed_fails",
    "Verif.marker_mirror_partial",
    "Verif.marker_mirror_fails",
    "Verif.marker_shapes",
    "Verif.marker_mirror_rest"
   ],
   "note": "The outlines of square, minus and diamond are not closed, and star and spade are not symmetric. Proved for the others by evaluation of the whole table in the kernel; control points of curves are compared, arcs by their end points."
  },
  {
   "property": "C69",
   "status": "partial",
   "theorems": [
    "Verif.viewports_are_keys_partial",
    "Verif.viewports_are_keys_fails",
    "Verif.viewports_same_id_fails",
    "Verif.object_eq_self_partial",
    "Verif.object_eq_self_fails",
    "Verif.object_eq_symm_partial",
    "Verif.object_eq_symm_fails",
    "Verif.object_eq_trans",
    "Verif.object_hash_fails"
   ],
   "note": "Keys work in every history in which no identifier is changed. Equality is transitive; reflexive only for objects without arrays, symmetric only between objects with the same attributes; equal objects have different hashes."
  },
  {
   "property": "C70",
   "status": "partial",
   "theorems": [
    "Verif.buffer_contents",
    "Verif.buffer_len_partial",
    "Verif.buffer_len_fails",
    "Verif.buffer_count_fails",
    "Verif.set_data_fails",
    "Verif.list_len_partial",
    "Verif.list_len_fails",
    "Verif.replay_frames_last",
    "Verif.replay_frames_partial",
    "Verif.replay_frames_fails",
    "Verif.documented_replay_partial"
   ],
   "note": "A replay shows the frames of the session exactly when none differs from the array as it was saved. With set_data as documented, the same file would give every frame (for arrays that tell what they change, C37)."
  },
  {
   "property": "C71",
   "status": "proved",
   "theorems": [
    "Verif.json_text_read",
    "Verif.json_prefix_refused",
    "Verif.json_write",
    "Verif.json_write_ok",
    "Verif.json_text_ascii",
    "Verif.doc_text_read",
    "Verif.save_crash",
    "Verif.foreign_document",
    "Verif.save_text"
   ],
   "note": "For every tree of values, both layouts, every crash point and every value json refuses. The texts of floats are those repr gives (a parameter, with the grammar of FloatWord). A lone surrogate, which Lean strings cannot hold, is read as U+FFFD."
  },
  {
   "property": "C72",
   "status": "partial",
   "theorems": [
    "Verif.launcher_cycle_fails",
    "Verif.launcher_cycle_partial",
    "Verif.launcher_arrays_fails",
    "Verif.handles_cycle_partial"
   ],
   "note": "Proved for examples made with the functions of the backend other than List, with arguments that can be saved and no members of the line enumerations. False of every example that gives an ordinary numpy array for a buffer: the cycle raises."
  },
  {
   "property": "C73",
   "status": "partial",
   "theorems": [
    "Verif.vectors_as_named",
    "Verif.vectors_complete",
    "Verif.vectors_memory",
    "Verif.vectors_documented_fails",
    "Verif.as_vec_numbers",
    "Verif.as_vec_same"
   ],
   "note": "Proved for all 39 constructors and all counts against the meaning of their names. False of the documentation of byte, ubyte and float, which have no second dimension, and of imat2 and umat2, which are not made of bytes."
  },
  {
   "property": "C74",
   "status": "partial",
   "theorems": [
    "Verif.mesh_read_partial",
    "Verif.mesh_fails",
    "Verif.mesh_good_fails",
    "Verif.fit_center_camera_fails"
   ],
   "note": "False of the code for every file: fit uses a name that does not exist, and so do center and (by wrong arguments) camera fail for all arguments. Proved of the part of mesh that reads the lines."
  },
  {
   "property": "C75",
   "status": "proved",
   "theorems": [
    "Verif.clamp_between",
    "Verif.clamp_mono",
    "Verif.normalize_length"
   ],
   "note": "Over linear orders and the reals."
  },
  {
   "property": "C76",
   "status": "partial",
   "theorems": [
    "Verif.foreign_follows_partial",
    "Verif.foreign_gaps_partial",
    "Verif.foreign_fails"
   ],
   "note": "Proved for arrays without gaps and all histories of assignments to forward slices through the array or its views; with gaps between the vectors, for assignments to all vectors at once and to single numbers. False with gaps when one vector is assigned: the buffer keeps the old one."
  },
  {
   "property": "C77",
   "status": "partial",
   "theorems": [
    "Verif.camera_shown_partial",
    "Verif.camera_starts",
    "Verif.camera_elsewhere",
    "Verif.camera_shown_fails"
   ],
   "note": "Proved for the first viewport and visuals that can be drawn. False with several viewports: every visual is drawn into the first one, and the others never follow the camera."
  },
  {
   "property": "C78",
   "status": "partial",
   "theorems": [
    "Verif.zoom_undistorted_partial",
    "Verif.zoom_fits_partial",
    "Verif.zoom_wide",
    "Verif.zoom_fits_fails",
    "Verif.zoom_before_sizes"
   ],
   "note": "Over the reals. Proved from the first new size on for windows that are not wider than high. False for wider ones, where a scroll changes the scale by the ratio of the sides, and before the first new size, where a window that is not square distorts."
  },
  {
   "property": "C79",
   "status": "partial",
   "theorems": [
    "Verif.crop_form",
    "Verif.crop_partial",
    "Verif.crop_fails",
    "Verif.downsample_keeps"
   ],
   "note": "Downsampling is proved, and cropping when all bounds are given; crop_form says exactly what is kept otherwise. False without bounds: every crop loses the points at the ends."
  },
  {
   "property": "C80",
   "status": "proved",
   "theorems": [
    "Verif.canvas_by_number",
    "Verif.unknown_number_never_saved",
    "Verif.renumbered_canvas_fails"
   ],
   "note": "Without changes of ids; with them it is false (renumbered_canvas_fails). unknown_number_never_saved is for any program, when no conversion builds an object."
  },
  {
   "property": "C81",
   "status": "partial",
   "theorems": [
    "Verif.handles_save_alike",
    "Verif.handles_run_partial",
    "Verif.handles_run_recording_partial",
    "Verif.handles_cycle_partial",
    "Verif.handle_default_fails"
   ],
   "note": "Proved for parameters without a default. With a default it is false (handle_default_fails): the command of an object also carries the default of the parameter, the command of an array does not."
  },
  {
   "property": "C82",
   "status": "partial",
   "theorems": [
    "Verif.saved_is_origin",
    "Verif.saved_contents_partial",
    "Verif.saved_contents_exact",
    "Verif.saved_contents_fails"
   ],
   "note": "Proved for arrays made by GSP. False of views, copies, results and joined arrays: saved_is_origin and saved_contents_exact say what is saved for every array of every program."
  },
  {
   "property": "C83",
   "status": "partial",
   "theorems": [
    "Verif.buffers_follow_partial",
    "Verif.copy_overwrites",
    "Verif.buffers_follow_fails",
    "Verif.addition_marks",
    "Verif.additions_reported_partial",
    "Verif.additions_reported_fails",
    "Verif.joined_write_raises"
   ],
   "note": "Proved when items are assigned only through arrays made by GSP and their views. False otherwise: copy_overwrites says that the first assignment to a copy puts the copy into the buffer of the original. Additions in place report every byte of an array made by GSP; of a computed array they report the region of the array or view it was computed from."
  },
  {
   "property": "C84",
   "status": "partial",
   "theorems": [
    "Verif.pick_refused",
    "Verif.pick_region",
    "Verif.pick_mirror",
    "Verif.picks_tracked_partial",
    "Verif.picks_tracked_fails"
   ],
   "note": "Proved for keys that are refused, and for index arrays that pick among the first rows as many as they pick. False of all others: pick_region and pick_mirror say exactly when the region and the tracker are right."
  },
  {
   "property": "C85",
   "status": "proved",
   "theorems": [
    "Verif.call_outcome",
    "Verif.create_outcome"
   ],
   "note": "For the creation of objects, an exception of the body or of the recording leaves the new object in the table of objects (create_outcome says which); the claim that nothing changes is for AttributeError and TypeError."
  },
  {
   "property": "C86",
   "status": "proved",
   "theorems": [
    "Verif.array_key_errors",
    "Verif.number_has_no_items",
    "Verif.component_errors",
    "Verif.colormap_errors",
    "Verif.viewport_errors",
    "Verif.scalar_array_error",
    "Verif.compare_array_errors"
   ],
   "note": "A refused value may still extend the dirty region. A bound of a colormap that is 0 counts as not given (C25)."
  },
  {
   "property": "C87",
   "status": "proved",
   "theorems": [
    "Verif.svg_cut_refused",
    "Verif.svg_number_first"
   ],
   "note": "For paths whose subpaths all begin with a move, as in C46."
  },
  {
   "property": "C88",
   "status": "partial",
   "theorems": [
    "Verif.canvas_made",
    "Verif.canvas_image_near",
    "Verif.canvas_image_partial",
    "Verif.canvas_image_binary_partial",
    "Verif.canvas_image_shape",
    "Verif.image_of_pixels",
    "Verif.canvas_image_fails",
    "Verif.canvas_image_units_fails",
    "Verif.canvas_image_resized_fails",
    "Verif.canvas_made_iff"
   ],
   "note": "Proved: the picture has the columns and rows of the canvas or one less, and when it has them the image is the picture, byte by byte; at a resolution that is a power of two every canvas gives its picture. False in general: a canvas of 29 \u00d7 29 pixels at 100 dpi raises ValueError, a canvas whose size is a measure or a float raises TypeError, and after a new size of the window the image raises ValueError or holds the pixels in the wrong places."
  },
  {
   "property": "C89",
   "status": "partial",
   "theorems": [
    "Verif.markers_face_position_partial",
    "Verif.markers_face_axis_partial",
    "Verif.marker_on_line_of_sight",
    "Verif.axis_value_ignored",
    "Verif.markers_upright",
    "Verif.markers_made_iff",
    "Verif.markers_face_axis_fails",
    "Verif.markers_face_place_partial"
   ],
   "note": "The direction faced is that of the position, not of the axis: proved for axes that are the positions, for markers that are not on the line of sight through the origin (these are not drawn). False in general. markers_made_iff says exactly which types and angles are accepted. Over the reals, the small number of normalize neglected (C55 align_near bounds it)."
  },
  {
   "property": "C90",
   "status": "partial",
   "theorems": [
    "Verif.form_irrelevant_partial",
    "Verif.points_drawn_with_their_own",
    "Verif.positions_drawn_iff",
    "Verif.positions_form_refused",
    "Verif.sizes_drawn_iff",
    "Verif.list_colours_by_rank",
    "Verif.colours_list_same_iff",
    "Verif.attributes_as_lists_fails",
    "Verif.forms_alike_partial",
    "Verif.forms_alike_fails"
   ],
   "note": "True without lists: arrays, buffers, tuples and transforms that give the same sizes, colours and widths are drawn alike. False for lists: colours in a list follow the order of drawing and not the points (list_colours_by_rank), sizes in a list raise, positions in a list, from a transform or with two coordinates raise, and one size in an array raises for several points. colours_list_same_iff, sizes_drawn_iff and positions_drawn_iff say exactly which values are drawn."
  },
  {
   "property": "C91",
   "status": "partial",
   "theorems": [
    "Verif.points_shape_iff",
    "Verif.points_all_drawn",
    "Verif.pixels_shape_iff",
    "Verif.segments_shape_iff",
    "Verif.segments_all_drawn",
    "Verif.segments_by_vertices_fails",
    "Verif.paths_drawn_iff",
    "Verif.paths_refused",
    "Verif.vlist_indices_fails",
    "Verif.positions_replaced_iff",
    "Verif.segments_replaced_iff"
   ],
   "note": "Exactly which shapes and indices are drawn. False as stated: positions of two coordinates (but for Pixels), segments given vertex by vertex, indices given as a ragged array, a List or a transform, indices that make no path, and other numbers of positions than the visual was made with raise."
  },
  {
   "property": "C92",
   "status": "partial",
   "theorems": [
    "Verif.redrawn_as_new_partial",
    "Verif.redrawn_twice",
    "Verif.elsewhere_untouched",
    "Verif.failed_positions_keep",
    "Verif.matrices_unfit_keep",
    "Verif.failed_render_torn",
    "Verif.markers_by_depth_fails",
    "Verif.caps_assigned_fails",
    "Verif.pixels_none_fails"
   ],
   "note": "False of the code for markers whose axis, types or angles refer to the outputs, for caps assigned after the first render and for Pixels whose colours become None; proved for all other histories, with failures."
  },
  {
   "property": "C93",
   "status": "partial",
   "theorems": [
    "Verif.matrix_holds_partial",
    "Verif.plain_matrices_fit",
    "Verif.matrix_never_used",
    "Verif.matrix_stops_drawing",
    "Verif.matrix_given_fails"
   ],
   "note": "False of the code: tuples, lists and float64 arrays do not make the Matrix of their values, and a Matrix is one-dimensional for numpy, so that it is never used and nothing is drawn (proved for every role, call and history); proved for plain arrays."
  },
  {
   "property": "C94",
   "status": "partial",
   "theorems": [
    "Verif.attribute_shows_iff",
    "Verif.ignored_render",
    "Verif.ignored_history",
    "Verif.attributes_show_fails"
   ],
   "note": "False of the code for the caps of Segments and the styles and joins of Paths and Polygons, which never show in any history; attribute_shows_iff says exactly which attributes show."
  },
  {
   "property": "C95",
   "status": "partial",
   "theorems": [
    "Verif.shown_points_partial",
    "Verif.shown_markers_partial",
    "Verif.shown_pixels_partial",
    "Verif.shown_segments_partial",
    "Verif.shown_paths_partial",
    "Verif.shown_polygons_partial",
    "Verif.plain_render_returns",
    "Verif.shown_points_fails",
    "Verif.shown_pixels_fails",
    "Verif.shown_points",
    "Verif.shown_markers",
    "Verif.shown_pixels",
    "Verif.shown_segments",
    "Verif.shown_paths",
    "Verif.shown_polygons"
   ],
   "note": "Proved for all six kinds when colours and widths say clearly what is meant; false for one colour given to four points as an array (shown_points_fails) and for the order of pixels (shown_pixels_fails)."
  },
  {
   "property": "C96",
   "status": "partial",
   "theorems": [
    "Verif.hook_shown",
    "Verif.hook_called",
    "Verif.hook_starts",
    "Verif.points_follow_zoom",
    "Verif.points_cover_partial",
    "Verif.points_cover_fails"
   ],
   "note": "Proved for all functions, visuals and histories, with the exact condition for an example to start. Sizes and line widths of points-3d follow the zoom after every history; that a point covers the same part of the scene holds while the window keeps its size (points_cover_partial) and fails when the window gets another size (points_cover_fails)."
  },
  {
   "property": "C97",
   "status": "partial",
   "theorems": [
    "Verif.image_exact",
    "Verif.image_plain_partial",
    "Verif.image_canvas_fails",
    "Verif.image_places_partial",
    "Verif.image_places_fails",
    "Verif.image_order_fails"
   ],
   "note": "What is on the image is described exactly for every example. It is of the canvas made last, whatever canvas is given (image_canvas_fails). Visuals rendered without matrices are drawn without the camera: places agree with the window in the mode ortho (image_places_partial), not in perspective (image_places_fails), and in both modes what is painted over what is reversed (image_order_fails)."
  },
  {
   "property": "C98",
   "status": "partial",
   "theorems": [
    "Verif.lengths_kept_partial",
    "Verif.lengths_zoomed",
    "Verif.plain_enlarges",
    "Verif.perspective_enlarges",
    "Verif.lengths_meter_fails",
    "Verif.lengths_perspective_fails"
   ],
   "note": "Proved for every viewport, history and unit but the meter, which is ten times too long (lengths_meter_fails), without matrices and with the camera of the mode ortho; with the default perspective camera lengths are multiplied by a constant other than 1 (lengths_perspective_fails). After a zoom of which the visual is not told its lengths change by the ratio of the limits (lengths_zoomed)."
  },
  {
   "property": "C99",
   "status": "partial",
   "theorems": [
    "Verif.output_name_iff",
    "Verif.run_all_writes",
    "Verif.regression_check_iff",
    "Verif.regression_stop_partial",
    "Verif.regression_stale",
    "Verif.regression_fails",
    "Verif.regression_names_fails",
    "Verif.regression_commands_fails"
   ],
   "note": "Proved with --stop-on-error, for examples whose titles hold no .py (output_name_iff: exactly those have files named after them). False without the flag, as the Makefile runs it: an example that raises passes when an earlier run has left its image (regression_stale, regression_fails); regression_check_iff says exactly what is compared. Expected files of commands are never matched by a later run."
  },
  {
   "property": "C100",
   "status": "partial",
   "theorems": [
    "Verif.replay_in_step_partial",
    "Verif.saved_replay_in_step_partial",
    "Verif.saved_scenes_in_step_partial"
   ],
   "note": "For every session that starts with replayable actions, whatever follows: the states the replay goes through (InStep), one command per action, the part that was executed before an exception, and that nothing is executed after it; also through a JSON file and for gsp with the Matplotlib backend. Missing, because false of the code: sessions that cannot be replayed at all (C09, dotted class names from memory; C62, C64)."
  },
  {
   "property": "C101",
   "status": "partial",
   "theorems": [
    "Verif.queues_print_fails",
    "Verif.recorded_print",
    "Verif.queue_prints_iff",
    "Verif.saved_queue_prints",
    "Verif.command_text_tells",
    "Verif.queue_text_tells",
    "Verif.gsp_creations_marked",
    "Verif.creations_marked_fails",
    "Verif.text_command",
    "Verif.command_dump_tells"
   ],
   "note": "The full claim is false: a loaded file may have an id that is no number (queues_print_fails, exact condition in queue_prints_iff); a constructor decorated without a name prints as a call of __init__ (creations_marked_fails; in gsp it does not happen); the text format raises KeyError for every command that refers to an object (text_command). Proved: recorded queues always print, texts determine what they show."
  },
  {
   "property": "C102",
   "status": "partial",
   "theorems": [
    "Verif.normalised_rounded",
    "Verif.zoom_rounded",
    "Verif.aspect_rounded",
    "Verif.aspect_kept_fails",
    "Verif.zoom_moves"
   ],
   "note": "Colormaps and zoom: proved for every rounding. False of the code: the shape of the view is computed anew from rounded limits at each turn of the wheel and drifts (aspect_kept_fails, with a rounding to 53 bits); aspect_rounded bounds the drift after n turns."
  },
  {
   "property": "C103",
   "status": "proved",
   "theorems": [
    "Verif.ball_size_rounded",
    "Verif.ball_rounded",
    "Verif.rotmatrix_near",
    "Verif.stretched_within"
   ],
   "note": "For every way to compute turns, products and normalised quaternions with lengths that are off by at most a part \u03b5; ball_rounded for \u03b5 = 10^-14. The matrix is computed exactly from the quaternion (the code rounds it once more, to float32, which does not build up)."
  },
  {
   "property": "C104",
   "status": "partial",
   "theorems": [
    "Verif.legacy_mirror_partial",
    "Verif.legacy_view_told",
    "Verif.legacy_view_told_iff",
    "Verif.legacy_mirror_fails",
    "Verif.legacy_view_raises"
   ],
   "note": "Proved for assignments to the array itself that go forward. False for views: the bytes of the view are told at the offset 0 (legacy_view_told, for every view and history; legacy_view_told_iff says when the tracker is right nevertheless)."
  },
  {
   "property": "C105",
   "status": "partial",
   "theorems": [
    "Verif.threads_ids",
    "Verif.threads_once",
    "Verif.threads_order",
    "Verif.threads_complete_partial",
    "Verif.threads_writable_partial",
    "Verif.threads_numbers_fails",
    "Verif.threads_lost_fails",
    "Verif.threads_run_fails",
    "Verif.threads_meanwhile_fails",
    "Verif.threads_endless_fails",
    "Verif.threads_between_partial",
    "Verif.threads_recorded_partial"
   ],
   "note": "Identifiers, numbers that differ, at most one command per call and the order of commands: proved for all schedules. Exactly one command per call: proved when a queue is active from the start and no thread runs it; without the first, in some queue (threads_recorded_partial). False of the code: two threads may each create the active queue, and commands are lost; numbers need not increase along a queue; two threads that run a queue may leave it read-only, or one of them never returns; calls made while another thread runs the queue are not recorded. Proved when one thread only runs queues: they are writable whenever it does not, and calls made meanwhile are recorded (threads_writable_partial, threads_between_partial)."
  },
  {
   "property": "C106",
   "status": "proved",
   "theorems": [
    "Verif.points_order_rounded",
    "Verif.groups_order_rounded",
    "Verif.camera_order_rounded",
    "Verif.order_rounded_fails"
   ],
   "note": "For every rounding with relative error at most u, every order of summation, fused or not, and every scene between the near and the far plane. The bounds are 116 u K for points and markers and 110 u K + 6 (h+1) u for the others. order_rounded_fails shows that some bound is needed. Overflow, nan and gradual underflow are not modelled. Pixels are left out: their order is inverted (C30)."
  },
  {
   "property": "C107",
   "status": "partial",
   "theorems": [
    "Verif.times_in_order",
    "Verif.listed_to_microsecond",
    "Verif.call_listed",
    "Verif.loaded_times_partial",
    "Verif.loaded_times_fails"
   ],
   "note": "Order of the times, and listings to the microsecond until 2106, for all histories and all roundings. False of loaded sessions: load takes neither the time nor the number of a command from the file but those of the moment it is loaded."
  },
  {
   "property": "C108",
   "status": "proved",
   "theorems": [
    "Verif.measure_rounded",
    "Verif.measure_rounded_53",
    "Verif.units_rounded",
    "Verif.rounded_units_differ"
   ],
   "note": "For every rounding of relative precision u < 1 (9 roundings at most; for 53 bits less than a part in 10^15). rounded_units_differ shows that equality cannot be asked for. Overflow and underflow are not modelled; numbers stored with 32 bits are covered by measure_rounded with their precision."
  },
  {
   "property": "C109",
   "status": "proved",
   "theorems": [
    "Verif.projections_rounded",
    "Verif.perspective_rounded",
    "Verif.perspective_point_rounded",
    "Verif.perspective_order_rounded",
    "Verif.rounded_near_plane_moves"
   ],
   "note": "The bounds on points are for a far plane at least twice as far as the near one. np.tan is assumed to be accurate to the precision. The rounding of the product of the matrix with a point is not part of this claim (C106 treats it). rounded_near_plane_moves shows that exact planes cannot be asked for."
  },
  {
   "property": "C110",
   "status": "partial",
   "theorems": [
    "Verif.repr_identifies_partial",
    "Verif.repr_prints_iff",
    "Verif.repr_bound_number_fails",
    "Verif.repr_zero_fails",
    "Verif.repr_parentheses",
    "Verif.plain_prints_iff"
   ],
   "note": "False as stated: a transform bound to a number (10 * Pixel()) cannot be printed, since its id is asked for; one bound to 0 prints like an unbound one; every operator leaves a parenthesis open. Proved: texts identify what they tell of (operands being transforms, None, numbers, or buffers whose type has a simple name), and exactly which transforms print. Texts of tuples, arrays and structured types as operands are not modelled."
  },
  {
   "property": "C111",
   "status": "proved",
   "theorems": [
    "Verif.places_rounded",
    "Verif.camera_places_rounded",
    "Verif.near_eye_moves"
   ],
   "note": "For every rounding of relative precision u, with a condition on how much cancels near the plane of the eye. The bound in pixels is for cameras 5 away with a perspective whose factors are at most 16/5, and vertices in the cube from -1 to 1. Matplotlib's own transformation to pixels, overflow and underflow are not modelled."
  },
  {
   "property": "C112",
   "status": "partial",
   "theorems": [
    "Verif.shown_volume_partial",
    "Verif.shown_volume_fails",
    "Verif.shown_iff",
    "Verif.camera_shows_volume",
    "Verif.behind_mirrored",
    "Verif.behind_drawn_first",
    "Verif.ortho_shown_iff",
    "Verif.camera_ortho_shows",
    "Verif.camera_zoom_shows"
   ],
   "note": "False as stated: nothing is clipped in depth. Points behind the eye are shown, mirrored, as are points before the near and beyond the far plane. Proved: exactly what is shown, that points behind the eye are drawn before (under) those in front, and the property for points between the planes, which includes all scenes around the origin that fit between the planes of an example's camera. camera_zoom_shows adds the zoom. Over the reals, for the centres of points."
  },
  {
   "property": "C113",
   "status": "partial",
   "theorems": [
    "Verif.segment_shows_partial",
    "Verif.segment_shows_fails",
    "Verif.camera_segments"
   ],
   "note": "False for segments through the plane of the eye: no inner point of such a segment is seen on the line that is drawn. Proved for all segments whose ends are on the same side, with any matrix, and for the cameras of the examples. Over the reals; paths and polygons, whose edges are treated alike, are not stated separately."
  },
  {
   "property": "C114",
   "status": "partial",
   "theorems": [
    "Verif.elements_cover_partial",
    "Verif.elements_cover_fails",
    "Verif.points_cover",
    "Verif.elements_cover_inside",
    "Verif.pixels_cover_fails"
   ],
   "note": "Proved for points and markers, and for elements of which one is nearer as a whole (a plane parallel to the window lies between them). False for other segments, paths and polygons: the order is that of the means of the depths of the vertices, whatever the perspective. Pixels are drawn in the opposite order (C30). Over the reals; rounding is treated in C106."
  },
  {
   "property": "C115",
   "status": "partial",
   "theorems": [
    "Verif.triangle_shows_partial",
    "Verif.triangle_shows_fails",
    "Verif.camera_triangles"
   ],
   "note": "False for triangles with a vertex behind the eye, of which another part of the window is filled. Proved for all triangles in front of the eye, with any matrix, and for the cameras of the examples. Over the reals; polygons with more vertices are not stated."
  },
  {
   "property": "C116",
   "status": "partial",
   "theorems": [
    "Verif.front_face_partial",
    "Verif.front_face_fails",
    "Verif.front_face_iff",
    "Verif.camera_front_faces",
    "Verif.camera_front_faces_scene",
    "Verif.ortho_front_face"
   ],
   "note": "False for triangles with an odd number of corners behind the eye, for which the answer is the opposite (front_face_iff). Proved for all triangles in front of the eye, for the cameras of the examples, and for all triangles under an orthographic projection. Over the reals."
  },
  {
   "property": "C117",
   "status": "proved",
   "theorems": [
    "Verif.front_face_unhidden",
    "Verif.camera_convex_mesh",
    "Verif.camera_convex_hidden",
    "Verif.camera_convex_picture",
    "Verif.ortho_face_unhidden",
    "Verif.camera_ortho_convex"
   ],
   "note": "Over the reals, for perspectives with the mesh in front of the eye, and for orthographic projections. That nothing but the front faces is seen is stated for the cameras of the examples."
  },
  {
   "property": "C118",
   "status": "partial",
   "theorems": [
    "Verif.dodecahedron_outward_partial",
    "Verif.octahedron_outward_fails",
    "Verif.octahedron_front_fails",
    "Verif.mixed_outward_fails",
    "Verif.camera_dodecahedron",
    "Verif.sphere_outward",
    "Verif.icosahedron_fails",
    "Verif.sphere_convex",
    "Verif.camera_sphere"
   ],
   "note": "False for the octahedron, whose faces are all inside out, so that frontback tells as front faces ones whose middle is hidden; for the cube and the tetrahedron, of which some faces are inside out and others not; and for the icosahedron, which cannot be made. Proved for the dodecahedron and for spheres of at least 3 slices. Over the reals."
  }
 ]
}