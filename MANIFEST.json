{
 "claims": [
  {
   "property": "C01",
   "status": "proved",
   "theorems": [
    "Gdspy.C01_real8_roundtrip",
    "Gdspy.C01_real8_truncation_bound",
    "Gdspy.C01_exponent_overshoot_loses_bits"
   ],
   "note": "Exact for every double in range when the exponent computed from the logarithm is the exact one; truncation bound for every value; proved witness that an exponent overshoot by one (just below a power of 16) loses low bits."
  },
  {
   "property": "C02",
   "status": "proved",
   "theorems": [
    "Gdspy.C02_real8_length",
    "Gdspy.C02_real8_injective",
    "Gdspy.C02_real8_zero",
    "Gdspy.C02_real8_neg",
    "Gdspy.C02_real8_overflow_corrupts",
    "Gdspy.C02_real8_negative_overflow_raises",
    "Gdspy.C02_real8_underflow_raises",
    "Gdspy.C02_real8_negative_underflow_corrupts"
   ],
   "note": "Length, injectivity, zero, negation; proved witnesses of silent corruption above 16^63 and of tiny negative numbers."
  },
  {
   "property": "C03",
   "status": "proved",
   "theorems": [
    "Gdspy.C03_record_framing",
    "Gdspy.C03_raw_framing"
   ],
   "note": "Round trip of every sequence of well-formed records through both readers."
  },
  {
   "property": "C04",
   "status": "proved",
   "theorems": [
    "Gdspy.C04_text_roundtrip",
    "Gdspy.C04_trailing_nul_lost",
    "Gdspy.C04_empty_text_none",
    "Gdspy.C04_non_ascii_refused"
   ],
   "note": "Round trip, even size, and the two exceptions (trailing NUL, empty) and the refusal of non-ASCII text as universal statements."
  },
  {
   "property": "C05",
   "status": "proved",
   "theorems": [
    "Gdspy.C05_raw_concat",
    "Gdspy.C05_raw_count",
    "Gdspy.C05_decoded_count",
    "Gdspy.C05_prefix_delivered"
   ],
   "note": "For every byte string: raw records concatenated are the file minus at most 3 bytes; number of records bounded; prefix delivered before an error."
  },
  {
   "property": "C06",
   "status": "proved",
   "theorems": [
    "Gdspy.C06_hash_ignores_timestamps",
    "Gdspy.C06_written_file"
   ],
   "note": "The byte strings passed to the hash engine are the same before and after set_gdsii_timestamp, for every well-framed file."
  },
  {
   "property": "C07",
   "status": "proved",
   "theorems": [
    "Gdspy.C07_hash_feeds_bodies",
    "Gdspy.C07_hash_order_independent",
    "Gdspy.C07_hash_stream_injective",
    "Gdspy.C07_written_files"
   ],
   "note": "Hash input is the sorted list of cell bodies; permutation invariance; equal streams force equal bodies up to order."
  },
  {
   "property": "C08",
   "status": "proved",
   "theorems": [
    "Gdspy.C08_set_timestamp",
    "Gdspy.C08_set_timestamp_last_wins",
    "Gdspy.C08_set_timestamp_bad_record"
   ],
   "note": "Length, exact contents, idempotence/last wins, and behaviour on malformed time stamp records."
  },
  {
   "property": "C09",
   "status": "partial",
   "theorems": [
    "Gdspy.C09_hash_diverges",
    "Gdspy.C09_hash_terminates_partial"
   ],
   "note": "The full claim is false: proved that a zero-sized BGNSTR/ENDSTR record makes the loop run forever; termination proved for all files without such records."
  },
  {
   "property": "C10",
   "status": "proved",
   "theorems": [
    "Gdspy.C10_units_of_file",
    "Gdspy.C10_units_exact",
    "Gdspy.C10_import_agrees"
   ],
   "note": "For every file written by write_gds, with the division of doubles as a parameter; import agrees if precision / (precision / unit) is computed as unit, which C86_import_changes_unit shows to fail for some units."
  },
  {
   "property": "C11",
   "status": "proved",
   "theorems": [
    "Gdspy.C11_binary_cells_exact",
    "Gdspy.C11_binary_cells_last_wins",
    "Gdspy.C11_written_binary_cells",
    "Gdspy.C11_rewrite_identical",
    "Gdspy.C11_binary_import_equals_cells"
   ],
   "note": "Exact bytes per cell on every well-framed file; for written files the loop get_binary_cells/write_gds is byte-identical, and binary import equals writing the cells. Also gives C06/C07 for every file written by gdspy."
  },
  {
   "property": "C12",
   "status": "proved",
   "theorems": [
    "Gdspy.C12_writer_equals_write_gds",
    "Gdspy.C12_writer_any_order"
   ],
   "note": "Equality of byte strings or of the exception raised, no hypotheses."
  },
  {
   "property": "C13",
   "status": "proved",
   "theorems": [
    "Gdspy.C13_polygon_roundtrip",
    "Gdspy.C13_empty_polygon_refused"
   ],
   "note": "Any number of vertices (one or more), multi-record XY included; a polygon without vertices is proved to be refused."
  },
  {
   "property": "C14",
   "status": "proved",
   "theorems": [
    "Gdspy.C14_label_roundtrip"
   ],
   "note": "All optional fields."
  },
  {
   "property": "C15",
   "status": "proved",
   "theorems": [
    "Gdspy.C15_reference_roundtrip"
   ],
   "note": "All optional fields."
  },
  {
   "property": "C16",
   "status": "proved",
   "theorems": [
    "Gdspy.C16_array_roundtrip",
    "Gdspy.C16_array_spacing_error"
   ],
   "note": "Exact when corners are on grid; error bound off grid."
  },
  {
   "property": "C17",
   "status": "proved",
   "theorems": [
    "Gdspy.C17_path_roundtrip",
    "Gdspy.C17_path_ends_replaced",
    "Gdspy.C17_zero_width_flag_lost",
    "Gdspy.C17_repeated_points",
    "Gdspy.C17_repeated_points_outline",
    "Gdspy.C17_repeated_points_line"
   ],
   "note": "All spines and end types of the format; proved that smooth and callable ends are replaced and that a zero width loses the width_transform flag. Repeated points: C17_repeated_points (one point of each run is kept), for the spine before offsets and bends."
  },
  {
   "property": "C18",
   "status": "partial",
   "theorems": [
    "Gdspy.C18_properties_stay_partial",
    "Gdspy.C18_node_properties_leak"
   ],
   "note": "The full claim is false: proved that the properties of a NODE (or any element gdspy does not create) leak to the next element. Proved for every file made only of the element kinds gdspy creates: each element gets exactly its own properties, later values of the same attribute winning."
  },
  {
   "property": "C19",
   "status": "proved",
   "theorems": [
    "Gdspy.C19_library_roundtrip",
    "Gdspy.C19_library_recovered"
   ],
   "note": "Any number of cells and elements; into any library without name clashes."
  },
  {
   "property": "C20",
   "status": "proved",
   "theorems": [
    "Gdspy.C20_maps_commute",
    "Gdspy.C20_written_file"
   ],
   "note": "For every byte string, as a simulation of plain reading, including exceptions; for written files with arbitrary maps."
  },
  {
   "property": "C21",
   "status": "proved",
   "theorems": [
    "Gdspy.C21_grid_rounding",
    "Gdspy.C21_rounding_error",
    "Gdspy.C21_robust_path_truncates",
    "Gdspy.C21_robust_path_error_witness"
   ],
   "note": "Half-grid bound, monotone, fixes the grid; proved witness that RobustPath truncates."
  },
  {
   "property": "C22",
   "status": "proved",
   "theorems": [
    "Gdspy.C22_keys_match_names",
    "Gdspy.C22_rename_breaks_other_library"
   ],
   "note": "Any history of library operations, completed or raising, any set order. Also proved: renaming through one library breaks another one that shares the cell."
  },
  {
   "property": "C23",
   "status": "proved",
   "theorems": [
    "Gdspy.C23_add_raises_iff",
    "Gdspy.C23_add_keeps_entries",
    "Gdspy.C23_duplicate_refused",
    "Gdspy.C23_new_cell_refused",
    "Gdspy.C23_not_atomic"
   ],
   "note": "Exact raising condition for any set order; existing entries never change; single cell and new_cell leave the library unchanged; witness that several cells are not atomic."
  },
  {
   "property": "C24",
   "status": "proved",
   "theorems": [
    "Gdspy.C24_add_closes",
    "Gdspy.C24_add_closes_overwrite",
    "Gdspy.C24_stays_closed"
   ],
   "note": "With and without overwriting; a closed library stays closed."
  },
  {
   "property": "C25",
   "status": "proved",
   "theorems": [
    "Gdspy.C25_replace_references",
    "Gdspy.C25_replace_count",
    "Gdspy.C25_overwrite_redirects",
    "Gdspy.C25_overwrite_single",
    "Gdspy.C25_no_update",
    "Gdspy.C25_new_cell_keeps_old"
   ],
   "note": "Exact for one cell and for sets with distinct names; witness that references of the new cell itself stay."
  },
  {
   "property": "C26",
   "status": "proved",
   "theorems": [
    "Gdspy.C26_remove",
    "Gdspy.C26_remove_keep_references",
    "Gdspy.C26_remove_complete"
   ],
   "note": "Exact reference lists and count."
  },
  {
   "property": "C27",
   "status": "proved",
   "theorems": [
    "Gdspy.C27_rename_raises",
    "Gdspy.C27_rename_error_unchanged",
    "Gdspy.C27_rename",
    "Gdspy.C27_rename_no_update"
   ],
   "note": "Exact raising condition, entries, targets, and count."
  },
  {
   "property": "C28",
   "status": "proved",
   "theorems": [
    "Gdspy.C28_top_level",
    "Gdspy.C28_top_level_exists"
   ],
   "note": "Exact set; non-empty for acyclic non-empty libraries."
  },
  {
   "property": "C29",
   "status": "proved",
   "theorems": [
    "Gdspy.C29_dependencies_reachable",
    "Gdspy.C29_direct_dependencies",
    "Gdspy.C29_terminates_iff",
    "Gdspy.C29_cycle_diverges",
    "Gdspy.C29_acyclic_returns"
   ],
   "note": "Exact set whenever it returns; returns if and only if every chain of references ends; never returns when a cycle is reachable."
  },
  {
   "property": "C30",
   "status": "proved",
   "theorems": [
    "Gdspy.C30_entry_equals_tuple_query",
    "Gdspy.C30_flat_is_union",
    "Gdspy.C30_flat_is_complete",
    "Gdspy.C30_zero_magnification"
   ],
   "note": "All hierarchies and depth limits; witness for the exception (array with magnification 0)."
  },
  {
   "property": "C31",
   "status": "proved",
   "theorems": [
    "Gdspy.C31_deep_enough",
    "Gdspy.C31_cut",
    "Gdspy.C31_negative",
    "Gdspy.C31_elements",
    "Gdspy.C31_elements_deep_enough",
    "Gdspy.C31_elements_negative"
   ],
   "note": "All hierarchies and depths, negative depths included."
  },
  {
   "property": "C32",
   "status": "partial",
   "theorems": [
    "Gdspy.C32_flatten_polygons",
    "Gdspy.C32_flatten_get_polygons",
    "Gdspy.C32_flatten_by_spec",
    "Gdspy.C32_flatten_single",
    "Gdspy.C32_flatten_area",
    "Gdspy.C32_flatten_bbox",
    "Gdspy.C32_flatten_labels",
    "Gdspy.C32_texttype_lost",
    "Gdspy.C32_flex_partial",
    "Gdspy.C32_flatten_stale_layers",
    "Gdspy.C32_flatten_reflected_offset",
    "Gdspy.C32_flatten_magnified_ends",
    "Gdspy.C32_robust_partial",
    "Gdspy.C32_flatten_robust_array",
    "Gdspy.C32_flatten_robust_reflected",
    "Gdspy.C32_flatten_robust_stale"
   ],
   "note": "Polygons with keys, by_spec, area, bounding box and labels, for all hierarchies whose paths move and are relabelled as asked (GeomPaths, RelabelPaths; no condition without paths); this is proved for FlexPaths with straight corners and ends, without cached polygons and reflections (C32_flex_partial), and for RobustPaths in references without magnification, with flush ends if reflected (C32_robust_partial). Violated: text type lost (C32_texttype_lost), stale layers of paths with cached polygons (C32_flatten_stale_layers), reflected paths with offsets (C32_flatten_reflected_offset), magnified tuple ends (C32_flatten_magnified_ends), magnified arrays, reflected extended ends and stale layers of RobustPaths (C32_flatten_robust_array, _reflected, _stale). Elements are values; for elements that are several times in a cell see C92."
  },
  {
   "property": "C33",
   "status": "proved",
   "theorems": [
    "Gdspy.C33_area_is_sum",
    "Gdspy.C33_reference_factor",
    "Gdspy.C33_area_by_spec",
    "Gdspy.C33_by_spec_total"
   ],
   "note": "All hierarchies; the only law of cos/sin used is cos^2+sin^2=1."
  },
  {
   "property": "C34",
   "status": "proved",
   "theorems": [
    "Gdspy.C34_bbox_is_smallest",
    "Gdspy.C34_none_iff_empty",
    "Gdspy.C34_unique",
    "Gdspy.C34_polygonset_bbox"
   ],
   "note": "All hierarchies, rotations and signs; None exactly when there are no polygons."
  },
  {
   "property": "C35",
   "status": "partial",
   "theorems": [
    "Gdspy.C35_flatten",
    "Gdspy.C35_fresh_partial",
    "Gdspy.C35_query_pure",
    "Gdspy.C35_stale_after_child_query",
    "Gdspy.C35_stale_diamond",
    "Gdspy.C35_stale_remove",
    "Gdspy.C35_stale_flatten",
    "Gdspy.C35_stale_failed_add",
    "Gdspy.C35_query_only_boxes",
    "Gdspy.C35_stale_below",
    "Gdspy.C35_stale_remove_polygons",
    "Gdspy.C35_stale_remove_paths",
    "Gdspy.C35_query_caches",
    "Gdspy.C35_add_contents"
   ],
   "note": "The full claim is false: five kinds of stale results are shown (child queried after its change, diamond of references with a single queried cell, removal, flatten after a change below, add that raises). Proved for all histories in which a cell is not changed while a cell depending on it has a cached box. Removal: proved for all cells whose box and the boxes below are cached (C35_stale_remove_polygons, C35_stale_remove_paths). Changes below a cell: C35_stale_below, for all hierarchies."
  },
  {
   "property": "C36",
   "status": "partial",
   "theorems": [
    "Gdspy.C36_layers",
    "Gdspy.C36_datatypes",
    "Gdspy.C36_strings_raise",
    "Gdspy.C36_svg_classes",
    "Gdspy.C36_texttypes_partial"
   ],
   "note": "Layers, datatypes and SVG classes exact for all hierarchies; get_texttypes is exact only without references, and proved to raise otherwise."
  },
  {
   "property": "C37",
   "status": "partial",
   "theorems": [
    "Gdspy.C37_flex_partial",
    "Gdspy.C37_robust_partial",
    "Gdspy.C37_copy_partial",
    "Gdspy.C37_origin_none",
    "Gdspy.C37_reflected_reference_wrong",
    "Gdspy.C37_none_reflection_wrong",
    "Gdspy.C37_scaled_array_wrong"
   ],
   "note": "The full claim is false: witnesses for x_reflection True and None, for scaled arrays, and origin None raises. Proved for references with x_reflection False that are not arrays in a scaled copy; for FlexPaths in C37_flex_partial and RobustPaths in C37_robust_partial. Elements are values; for elements that are several times in a cell see C92."
  },
  {
   "property": "C38",
   "status": "proved",
   "theorems": [
    "Gdspy.C38_remove_paths",
    "Gdspy.C38_remove_labels",
    "Gdspy.C38_remove_polygons"
   ],
   "note": "All tests; polygons keep layer and datatype; order kept; empty sets removed."
  },
  {
   "property": "C39",
   "status": "partial",
   "theorems": [
    "Gdspy.C39_positions",
    "Gdspy.C39_set_transform_partial",
    "Gdspy.C39_false_reflects",
    "Gdspy.C39_rotation_sign"
   ],
   "note": "Positions exact for all hierarchies. set_transform: the composition for all hierarchies without reflection attributes (C39_set_transform_partial, which gives the exact attributes in general); witnesses that x_reflection False reflects and that the rotation sign is wrong. Elements are values; for elements that are several times in a cell see C92."
  },
  {
   "property": "C40",
   "status": "proved",
   "theorems": [
    "Gdspy.C40_array_is_grid",
    "Gdspy.C40_array_is_grid_by_spec",
    "Gdspy.C40_zero_magnification"
   ],
   "note": "List, by_spec and tuple forms; any parameters except magnification 0, with a witness for that exception."
  },
  {
   "property": "C41",
   "status": "proved",
   "theorems": [
    "Gdspy.C41_references_compose",
    "Gdspy.C41_nested_cells"
   ],
   "note": "Single references and arrays of references; arbitrary composition depth by iteration."
  },
  {
   "property": "C42",
   "status": "proved",
   "theorems": [
    "Gdspy.C42_translate",
    "Gdspy.C42_rotate",
    "Gdspy.C42_scale",
    "Gdspy.C42_mirror",
    "Gdspy.C42_mirror_involution",
    "Gdspy.C42_distances",
    "Gdspy.C42_translate_add",
    "Gdspy.C42_rotate_add",
    "Gdspy.C42_scale_mul"
   ],
   "note": "Exact affine maps; mirror image characterised and unique; involution, fixed points, distances, composition laws. Also the bounding box of a polygon set."
  },
  {
   "property": "C43",
   "status": "proved",
   "theorems": [
    "Gdspy.C43_shoelace",
    "Gdspy.C43_start_direction",
    "Gdspy.C43_transformations",
    "Gdspy.C43_rectangle",
    "Gdspy.C43_by_spec"
   ],
   "note": "The code computes the shoelace formula; invariance under start vertex, direction, translate, rotate, mirror; scale factor; rectangle; by_spec."
  },
  {
   "property": "C44",
   "status": "proved",
   "theorems": [
    "Gdspy.C44_fracture",
    "Gdspy.C44_additive",
    "Gdspy.C44_region",
    "Gdspy.C44_small_limit",
    "Gdspy.C44_terminates",
    "Gdspy.C44_may_not_end"
   ],
   "note": "For every slicer. Also proved: it does not end when the cut falls on the smallest coordinate (an exact slicer returns the polygon whole)."
  },
  {
   "property": "C45",
   "status": "proved",
   "theorems": [
    "Gdspy.C45_call",
    "Gdspy.C45_aligned",
    "Gdspy.C45_raising_call_misaligns"
   ],
   "note": "Every call sequence of all six construction methods; calls that raise may misalign (witness)."
  },
  {
   "property": "C46",
   "status": "proved",
   "theorems": [
    "Gdspy.C46_turn",
    "Gdspy.C46_sequence",
    "Gdspy.C46_arc",
    "Gdspy.C46_axis",
    "Gdspy.C46_zero_turn_reverses"
   ],
   "note": "segment, arc and turn sequences follow a turtle; also proved: a turn by exactly zero reverses the direction (deviation)."
  },
  {
   "property": "C47",
   "status": "partial",
   "theorems": [
    "Gdspy.C47_end_point_partial",
    "Gdspy.C47_aligned",
    "Gdspy.C47_vertex_limit",
    "Gdspy.C47_wrong_end",
    "Gdspy.C47_no_turn_down",
    "Gdspy.C47_small_limit"
   ],
   "note": "Exact unless the last segment points in -y; witness for the wrong end point there; vertex limit and alignment proved."
  },
  {
   "property": "C48",
   "status": "proved",
   "theorems": [
    "Gdspy.C48_round",
    "Gdspy.C48_outline",
    "Gdspy.C48_total",
    "Gdspy.C48_seams",
    "Gdspy.C48_path_arc",
    "Gdspy.C48_path_parametric"
   ],
   "note": "Round: limits, outlines, seams, totality; Path.arc and Path.parametric limits."
  },
  {
   "property": "C49",
   "status": "proved",
   "theorems": [
    "Gdspy.C49_text",
    "Gdspy.C49_disjoint",
    "Gdspy.C49_font"
   ],
   "note": "For every string and glyph table; non-overlap and the shape of all glyphs with the table of the library."
  },
  {
   "property": "C50",
   "status": "proved",
   "theorems": [
    "Gdspy.C50_slice",
    "Gdspy.C50_partition",
    "Gdspy.C50_union",
    "Gdspy.C50_no_layers",
    "Gdspy.C50_zero_precision"
   ],
   "note": "For any exact clipping engine (existence of one proved): grouping by position among the sorted cuts, union, one layer per group; errors for empty layer lists and zero precision. The Clipper engine itself is not modelled."
  },
  {
   "property": "C51",
   "status": "partial",
   "theorems": [
    "Gdspy.C51_boolean_partial",
    "Gdspy.C51_minus_nothing",
    "Gdspy.C51_last_polygon",
    "Gdspy.C51_both_empty",
    "Gdspy.C51_unknown",
    "Gdspy.C51_and_nothing"
   ],
   "note": "For any exact clipping engine: all four operations, None exactly for the empty region, layers, vertex limit. The full claim is false for an empty second operand: AND is computed between the polygons of the first operand (witness), both empty raise IndexError. Needs operands of consistent direction (signed windings cancel otherwise)."
  },
  {
   "property": "C52",
   "status": "proved",
   "theorems": [
    "Gdspy.C52_point_in_polygon",
    "Gdspy.C52_answers",
    "Gdspy.C52_points",
    "Gdspy.C52_groups",
    "Gdspy.C52_no_points",
    "Gdspy.C52_rectangle",
    "Gdspy.C52_twice_around",
    "Gdspy.C52_degenerate"
   ],
   "note": "PointInPolygon is the even-odd rule with the outline included, for every grid polygon of three or more vertices; bounding boxes never change the answer; any/all over groups; twice-wound and degenerate polygons shown as limits."
  },
  {
   "property": "C53",
   "status": "partial",
   "theorems": [
    "Gdspy.C53_gather_partial",
    "Gdspy.C53_flex_alone",
    "Gdspy.C53_flex_in_list",
    "Gdspy.C53_flex_error"
   ],
   "note": "All operand kinds except lists that contain a FlexPath or RobustPath, proved to raise."
  },
  {
   "property": "C54",
   "status": "proved",
   "theorems": [
    "Gdspy.C54_oriented",
    "Gdspy.C54_direction",
    "Gdspy.C54_start",
    "Gdspy.C54_zero_area",
    "Gdspy.C54_nearest"
   ],
   "note": "All polygons; the direction only matters for zero signed area (witness)."
  },
  {
   "property": "C55",
   "status": "proved",
   "theorems": [
    "Gdspy.C55_refined",
    "Gdspy.C55_ends",
    "Gdspy.C55_bezier_lipschitz",
    "Gdspy.C55_quadratic",
    "Gdspy.C55_cubic_gap"
   ],
   "note": "Every refinement history. What the tests on exit imply for the whole curve is proved for quadratic curves (C55_quadratic); for cubic ones it is false (C55_cubic_gap)."
  },
  {
   "property": "C56",
   "status": "proved",
   "theorems": [
    "Gdspy.C56_points",
    "Gdspy.C56_unlimited"
   ],
   "note": ""
  },
  {
   "property": "C57",
   "status": "proved",
   "theorems": [
    "Gdspy.C57_commands",
    "Gdspy.C57_section_ends",
    "Gdspy.C57_interpolation",
    "Gdspy.C57_relative",
    "Gdspy.C57_not_svg",
    "Gdspy.C57_errors",
    "Gdspy.C57_get_points",
    "Gdspy.C57_arc_ok"
   ],
   "note": "_hobby is a parameter (any control points). Relative commands with several points differ from SVG 2 although the documentation claims otherwise (C57_not_svg)."
  },
  {
   "property": "C58",
   "status": "proved",
   "theorems": [
    "Gdspy.C58_formula",
    "Gdspy.C58_start",
    "Gdspy.C58_end",
    "Gdspy.C58_reverse",
    "Gdspy.C58_affine",
    "Gdspy.C58_hull",
    "Gdspy.C58_box",
    "Gdspy.C58_low",
    "Gdspy.C58_derivative"
   ],
   "note": ""
  },
  {
   "property": "C59",
   "status": "proved",
   "theorems": [
    "Gdspy.C59_new",
    "Gdspy.C59_history",
    "Gdspy.C59_history_raising",
    "Gdspy.C59_segment",
    "Gdspy.C59_arc",
    "Gdspy.C59_arc_end",
    "Gdspy.C59_parametric",
    "Gdspy.C59_curve_end",
    "Gdspy.C59_turn",
    "Gdspy.C59_smooth_end",
    "Gdspy.C59_flat_pair_misaligned",
    "Gdspy.C59_flat_pair_ignores",
    "Gdspy.C59_flat_pair_raises",
    "Gdspy.C59_raising_call_misaligns",
    "Gdspy.C59_offsets_centred"
   ],
   "note": "Parallel paths are centred on the spine (C59_offsets_centred). All histories of calls that return, and all histories whose list arguments have one entry per path. Violated for a first point given as a flat pair (C59_flat_pair_*). _hobby and the slicing engine are parameters."
  },
  {
   "property": "C60",
   "status": "partial",
   "theorems": [
    "Gdspy.C60_queries_partial",
    "Gdspy.C60_repeat",
    "Gdspy.C60_forgets",
    "Gdspy.C60_query_drops_width",
    "Gdspy.C60_query_changes_outline",
    "Gdspy.C60_query_hides_error",
    "Gdspy.C60_robust_query",
    "Gdspy.C60_robust",
    "Gdspy.C60_robust_forgets",
    "Gdspy.C60_robust_query_hides_error"
   ],
   "note": "FlexPath: proved for queries at safe moments (C60_queries_partial); false at other moments, with witnesses. RobustPath: proved for every history whose queries return (C60_robust); a raising query leaves a partial cache (C60_robust_query_hides_error)."
  },
  {
   "property": "C61",
   "status": "partial",
   "theorems": [
    "Gdspy.C61_flex_translate_partial",
    "Gdspy.C61_flex_rotate_partial",
    "Gdspy.C61_flex_scale_partial",
    "Gdspy.C61_flex_transform_partial",
    "Gdspy.C61_flex_reflect_partial",
    "Gdspy.C61_flex_reflect_offset",
    "Gdspy.C61_flex_transform_ends",
    "Gdspy.C61_robust_translate_partial",
    "Gdspy.C61_robust_rotate_partial",
    "Gdspy.C61_robust_scale_partial",
    "Gdspy.C61_robust_transform_partial",
    "Gdspy.C61_robust_transform_array",
    "Gdspy.C61_robust_scale_ends",
    "Gdspy.C61_robust_reflect_caps",
    "Gdspy.C61_robust_reflect_width",
    "Gdspy.C61_robust_rotate_turn"
   ],
   "note": "FlexPath: proved for translate, rotate, scale and transform without reflection, and for reflections of paths without offsets; for natural, miter and bevel corners and flush, extended, tuple (and for motions round) ends. RobustPath: position, curves, tangents and widths proved for all transformations (transform: unless scale and array_trans are both given), polygons for motions, with flush, extended, tuple and round ends, and for reflections with flush ends. Violated: FlexPath reflected offsets, tuple ends in transform; RobustPath array_trans multiplied by scale, tuple ends not scaled, twisted caps and negative widths after a reflection, turn after a rotation. Missing: corners and ends whose number of points depends on the size, and functions. Stated for exact arithmetic."
  },
  {
   "property": "C62",
   "status": "partial",
   "theorems": [
    "Gdspy.C62_text_partial",
    "Gdspy.C62_no_markup",
    "Gdspy.C62_carriage_return",
    "Gdspy.C62_control"
   ],
   "note": "Un-escaping gives back the text and no markup character survives, for texts of characters that XML allows other than carriage return. Carriage returns and control characters are not escaped (C62_carriage_return, C62_control)."
  },
  {
   "property": "C63",
   "status": "proved",
   "theorems": [
    "Gdspy.C63_convert_keeps_size",
    "Gdspy.C63_unknown_units"
   ],
   "note": "All length-carrying records scaled by the ratio of units."
  },
  {
   "property": "C64",
   "status": "proved",
   "theorems": [
    "Gdspy.C64_drawing",
    "Gdspy.C64_view_box",
    "Gdspy.C64_label",
    "Gdspy.C64_label_position",
    "Gdspy.C64_empty",
    "Gdspy.C64_writes",
    "Gdspy.C64_no_origin",
    "Gdspy.C64_same_id"
   ],
   "note": "Under the condition that ids stay distinct, which is shown to be necessary (C64_same_id). Class/style sheet text and number formatting are not modelled."
  },
  {
   "property": "C65",
   "status": "partial",
   "theorems": [
    "Gdspy.C65_new",
    "Gdspy.C65_segment",
    "Gdspy.C65_arc",
    "Gdspy.C65_parametric",
    "Gdspy.C65_bezier",
    "Gdspy.C65_smooth",
    "Gdspy.C65_turn",
    "Gdspy.C65_turn_joins",
    "Gdspy.C65_curve_joins",
    "Gdspy.C65_translate",
    "Gdspy.C65_rotate",
    "Gdspy.C65_scale_partial",
    "Gdspy.C65_mirror",
    "Gdspy.C65_moved_segment",
    "Gdspy.C65_right_turn_swaps_layers",
    "Gdspy.C65_curve_swaps_layers",
    "Gdspy.C65_scale_keeps_distance",
    "Gdspy.C65_scale_two_factors",
    "Gdspy.C65_mirror_keeps_order",
    "Gdspy.C65_arc_tolerance"
   ],
   "note": "Bands proved for all calls; transformations for translate, rotate, mirror and scale with one factor. Violated for parallel paths with different layers at right turns and parametric sections (C65_right_turn_swaps_layers, C65_curve_swaps_layers), after scale (C65_scale_keeps_distance, C65_scale_two_factors) and mirror (C65_mirror_keeps_order). Arc pieces of fewer than four points are not outlines. Chord error of arcs of constant width in one piece: C65_arc_tolerance."
  },
  {
   "property": "C66",
   "status": "partial",
   "theorems": [
    "Gdspy.C66_disc",
    "Gdspy.C66_pieces",
    "Gdspy.C66_sections_partial",
    "Gdspy.C66_direction",
    "Gdspy.C66_ellipse_jump",
    "Gdspy.C66_half_disc_vanishes",
    "Gdspy.C66_half_disc_area"
   ],
   "note": "Over the reals with the true functions. Discs in one piece meet the tolerance (C66_disc). Sections and pieces follow the circles with the stated step (C66_pieces); in one piece within 25/16 (rings) or 25/4 (circular sections of less than half a turn) of the tolerance (C66_sections_partial). Violated: a half disc of zero area (C66_half_disc_vanishes), an ellipse angle that jumps by a turn (C66_ellipse_jump). Missing: that the angles of elliptical sections increase, and a bound in terms of the tolerance for several pieces."
  },
  {
   "property": "C67",
   "status": "partial",
   "theorems": [
    "Gdspy.C67_corner",
    "Gdspy.C67_polygon",
    "Gdspy.C67_radii",
    "Gdspy.C67_fillet",
    "Gdspy.C67_wrong_length",
    "Gdspy.C67_right_length",
    "Gdspy.C67_point_vanishes"
   ],
   "note": "Proved over the reals with the true functions for polygons that do not turn back on themselves. The documented ValueError for nested lists of the wrong length is violated: it is a TypeError (C67_wrong_length). Missing: boundaries with reversals (numerically undefined)."
  },
  {
   "property": "C68",
   "status": "partial",
   "theorems": [
    "Gdspy.C68_smooth",
    "Gdspy.C68_directions_open",
    "Gdspy.C68_directions_closed",
    "Gdspy.C68_full_turn"
   ],
   "note": "Proved over the reals for every exact solver of linear equations, for consecutive distinct points. Violated: directions given with another full turn change the curve (C68_full_turn). Missing: two equal consecutive points (numerically undefined)."
  },
  {
   "property": "C69",
   "status": "partial",
   "theorems": [
    "Gdspy.C69_bridge",
    "Gdspy.C69_holes",
    "Gdspy.C69_sliver",
    "Gdspy.C69_rectilinear_partial",
    "Gdspy.C69_found",
    "Gdspy.C69_room",
    "Gdspy.C69_tree",
    "Gdspy.C69_tree_partial",
    "Gdspy.C69_engine",
    "Gdspy.C69_level_branch_dead",
    "Gdspy.C69_touching_hole",
    "Gdspy.C69_bent_edge"
   ],
   "note": "Every outline covers its polygon without the holes up to one sliver of less than a grid unit for each hole (C69_holes, C69_tree); exactly for rectilinear contours with holes strictly inside, for which no hole is missed (C69_rectilinear_partial, C69_tree_partial), so that the assumptions of C50 and C51 on the engine follow from assumptions on the polygon tree (C69_engine). Violated: slanted edges are bent (C69_bent_edge); a hole that touches a horizontal edge (C69_touching_hole), because the branch for it is dead (C69_level_branch_dead). Missing: trees in which bent edges meet later holes."
  },
  {
   "property": "C70",
   "status": "partial",
   "theorems": [
    "Gdspy.C70_straight",
    "Gdspy.C70_outline_partial",
    "Gdspy.C70_polygons_partial",
    "Gdspy.C70_area",
    "Gdspy.C70_defined",
    "Gdspy.C70_thin_round",
    "Gdspy.C70_tight_bend",
    "Gdspy.C70_round_hourglass",
    "Gdspy.C70_limit",
    "Gdspy.C70_polygonset",
    "Gdspy.C70_area_sum",
    "Gdspy.C70_two_partial",
    "Gdspy.C70_two_polygons_partial",
    "Gdspy.C70_two_area"
   ],
   "note": "get_polygons, to_polygonset and area agree and keep to max_points, for all paths and cutting engines (C70_limit, C70_polygonset, C70_area_sum). Natural, miter and bevel corners and flush, extended and tuple ends: computed and correct for every ordered field with square roots, changing widths included (C70_straight). Round corners, circular bends and round ends over the reals, for constant width at round corners and bends (C70_outline_partial, C70_polygons_partial); computed whenever the radii are at least half the tolerance (C70_defined). Paths of two points: C70_two_*. Areas: C70_area, C70_two_area. Violated: C70_round_hourglass, C70_thin_round, C70_tight_bend. Missing: smooth corners and ends and given functions (any points are allowed), polygons cut by max_points (see C44, C61)."
  },
  {
   "property": "C71",
   "status": "proved",
   "theorems": [
    "Gdspy.C71_bands",
    "Gdspy.C71_band_area",
    "Gdspy.C71_area",
    "Gdspy.C71_rotate",
    "Gdspy.C71_translate_keeps_end",
    "Gdspy.C71_cut_inside"
   ],
   "note": "For every walk with one length more than turns, over every ordered field (C71_bands, C71_area, C71_band_area, C71_cut_inside, C71_rotate). The inherited translate leaves the end point behind (C71_translate_keeps_end)."
  },
  {
   "property": "C72",
   "status": "partial",
   "theorems": [
    "Gdspy.C72_segment",
    "Gdspy.C72_arc",
    "Gdspy.C72_parametric",
    "Gdspy.C72_bezier",
    "Gdspy.C72_smooth",
    "Gdspy.C72_new",
    "Gdspy.C72_history",
    "Gdspy.C72_unbroken",
    "Gdspy.C72_raising_call_misaligns",
    "Gdspy.C72_negative_scale_breaks",
    "Gdspy.C72_up_to_date",
    "Gdspy.C72_meets",
    "Gdspy.C72_direction",
    "Gdspy.C72_turn",
    "Gdspy.C72_turn_backwards"
   ],
   "note": "All six construction methods (C72_segment, C72_arc, C72_turn, C72_parametric, C72_bezier, C72_smooth), all histories of calls that return (C72_history, C72_unbroken, C72_up_to_date, C72_meets). turn is proved for paths that end in one direction. Violated: averaged angles (C72_turn_backwards), negative factors (C72_negative_scale_breaks), raising calls (C72_raising_call_misaligns). Missing: turn after a rotation (see C61), smooth uses control points of any kind (see C68)."
  },
  {
   "property": "C73",
   "status": "proved",
   "theorems": [
    "Gdspy.C73_import",
    "Gdspy.C73_no_endlib",
    "Gdspy.C73_clash"
   ],
   "note": "On the level of objects (C73_import, C73_no_endlib, C73_clash); the records are the subject of C10 to C21."
  },
  {
   "property": "C74",
   "status": "partial",
   "theorems": [
    "Gdspy.C74_centre",
    "Gdspy.C74_half_width",
    "Gdspy.C74_history",
    "Gdspy.C74_outline",
    "Gdspy.C74_area",
    "Gdspy.C74_wire",
    "Gdspy.C74_polygons",
    "Gdspy.C74_round_defined",
    "Gdspy.C74_round_raises"
   ],
   "note": "Widths and offsets (C74_centre, C74_half_width), sides and ends (C74_outline over the reals, C74_round_defined, C74_round_raises), polygons (C74_polygons), areas over every ordered field with square roots (C74_area, C74_wire); the assumptions on sections hold after any calls (C74_history). Sections must have a direction at both ends (the code divides by zero otherwise) and positive widths. Missing: smooth ends (any points are allowed), polygons cut by max_points (see C44), sections of which a corner leaves nothing."
  },
  {
   "property": "C75",
   "status": "partial",
   "theorems": [
    "Gdspy.C75_cut",
    "Gdspy.C75_area",
    "Gdspy.C75_returns",
    "Gdspy.C75_round_ends_over_limit",
    "Gdspy.C75_bevel_over_limit",
    "Gdspy.C75_cut_on_straight",
    "Gdspy.C75_cut_at_tip",
    "Gdspy.C75_segment_unchecked",
    "Gdspy.C75_no_layers",
    "Gdspy.C75_outline",
    "Gdspy.C75_segment",
    "Gdspy.C75_limit",
    "Gdspy.C75_bad_arguments"
   ],
   "note": "Outlines of all lines (C75_outline, C75_segment), cuts and the total area (C75_cut), area of constant width (C75_area, assuming that no corner takes away more than half of a section), vertices (C75_limit), errors and success (C75_bad_arguments, C75_returns). Violated: C75_round_ends_over_limit, C75_bevel_over_limit, C75_cut_on_straight, C75_cut_at_tip, C75_segment_unchecked, C75_no_layers. Missing: consecutive points that coincide (the code divides by zero)."
  },
  {
   "property": "C76",
   "status": "partial",
   "theorems": [
    "Gdspy.C76_grow_partial",
    "Gdspy.C76_shrink_count",
    "Gdspy.C76_shrink_partial",
    "Gdspy.C76_zero",
    "Gdspy.C76_join_first_partial",
    "Gdspy.C76_errors",
    "Gdspy.C76_flex",
    "Gdspy.C76_shrink_overlap",
    "Gdspy.C76_rectangle"
   ],
   "note": "Rectilinear polygons and miter joins, over every ordered field with square roots: expanding (C76_grow_partial), shrinking (C76_shrink_count with overlaps, C76_shrink_partial), distances below half of the precision (C76_zero), join_first (C76_join_first_partial), rectangles (C76_rectangle), errors (C76_errors, C76_flex). The union that ends the computation is a parameter with stated properties, shown to be satisfiable (exact_union_exists). Violated: C76_shrink_overlap. Missing: the region for polygons with slanted sides and for other joins; what is drawn at their corners is C77."
  },
  {
   "property": "C77",
   "status": "partial",
   "theorems": [
    "Gdspy.C77_joins",
    "Gdspy.C77_reach",
    "Gdspy.C77_shrink_ignores_tolerance"
   ],
   "note": "Over the real numbers, for all polygons without repeated vertices and all joins (C77_joins, C77_reach). Violated: C77_shrink_ignores_tolerance; JoinAt.square shows what a bevel join is. Missing: the union of the contours, which is done by class Clipper and rounds the points where slanted sides cross (C76 for rectilinear polygons); round joins with fewer than 5 points per circle, for which Clipper uses more points."
  },
  {
   "property": "C78",
   "status": "proved",
   "theorems": [
    "Gdspy.C78_copy",
    "Gdspy.C78_raises",
    "Gdspy.C78_independent",
    "Gdspy.C78_reference",
    "Gdspy.C78_element",
    "Gdspy.C78_add_copy_raises"
   ],
   "note": "For all graphs of objects: what is copied (C78_copy), termination and exceptions (C78_raises), independence (C78_independent), elements (C78_element), references (C78_reference; the cell must have a finite hierarchy). Proved as well: adding the copy of a reference to the library of the original raises (C78_add_copy_raises). copy.deepcopy of the standard library is modelled as a memoising copy of the objects; the function that moves a path is a parameter."
  },
  {
   "property": "C79",
   "status": "partial",
   "theorems": [
    "Gdspy.C79_auto_color_partial",
    "Gdspy.C79_negative_layer",
    "Gdspy.C79_lookup",
    "Gdspy.C79_auto_pattern",
    "Gdspy.C79_contrast"
   ],
   "note": "Colors for layers that are not negative (C79_auto_color_partial), lookups (C79_lookup), patterns (C79_auto_pattern), contrast (C79_contrast). Violated: C79_negative_layer."
  },
  {
   "property": "C80",
   "status": "proved",
   "theorems": [
    "Gdspy.C80_filter",
    "Gdspy.C80_other",
    "Gdspy.C80_unambiguous"
   ],
   "note": "For all texts and all lists of layers: what a filter hides (C80_filter), texts that are not filters (C80_other), ambiguous texts (C80_unambiguous). The regular expressions of the re module are modelled by a backtracking matcher."
  },
  {
   "property": "C81",
   "status": "partial",
   "theorems": [
    "Gdspy.C81_consistent_partial",
    "Gdspy.C81_toggle",
    "Gdspy.C81_toggle_twice",
    "Gdspy.C81_others",
    "Gdspy.C81_others_alone",
    "Gdspy.C81_filter",
    "Gdspy.C81_given_twice",
    "Gdspy.C81_filter_other_cell",
    "Gdspy.C81_default_kept",
    "Gdspy.C81_default_is_last"
   ],
   "note": "For all sequences of actions when no layer is given twice (C81_consistent_partial), single actions (C81_toggle, C81_toggle_twice, C81_others, C81_others_alone, C81_filter). Violated: C81_given_twice, C81_default_kept (with C81_default_is_last), C81_filter_other_cell."
  },
  {
   "property": "C82",
   "status": "proved",
   "theorems": [
    "Gdspy.C82_raise",
    "Gdspy.C82_lower",
    "Gdspy.C82_ends",
    "Gdspy.C82_undo",
    "Gdspy.C82_drawn",
    "Gdspy.C82_always"
   ],
   "note": "For all lists of different layers, each with at least one item: drawing (C82_drawn), arrows (C82_raise, C82_lower, C82_ends, C82_undo), any sequence of clicks (C82_always). The canvas of Tk is modelled as a list of items."
  },
  {
   "property": "C83",
   "status": "partial",
   "theorems": [
    "Gdspy.C83_extents",
    "Gdspy.C83_empty",
    "Gdspy.C83_point_has_no_scale",
    "Gdspy.C83_coordinates",
    "Gdspy.C83_wheel_partial",
    "Gdspy.C83_wheel_in",
    "Gdspy.C83_wheel_out_moves",
    "Gdspy.C83_key_partial",
    "Gdspy.C83_key_in",
    "Gdspy.C83_rectangle",
    "Gdspy.C83_ruler",
    "Gdspy.C83_grow",
    "Gdspy.C83_zooms"
   ],
   "note": "Extents (C83_extents, C83_empty), coordinates (C83_coordinates), wheel (C83_wheel_partial, C83_wheel_in), keys (C83_key_partial, C83_key_in), rectangle (C83_rectangle), ruler and items (C83_ruler, C83_grow, C83_zooms). Exact numbers: Tk rounds to pixels. Violated: C83_wheel_out_moves, C83_point_has_no_scale."
  },
  {
   "property": "C84",
   "status": "partial",
   "theorems": [
    "Gdspy.C84_create",
    "Gdspy.C84_create_excluded",
    "Gdspy.C84_new_cell_local",
    "Gdspy.C84_new_cell_global",
    "Gdspy.C84_second_library_raises",
    "Gdspy.C84_failure_leaves_cell",
    "Gdspy.C84_names_local",
    "Gdspy.C84_names_global",
    "Gdspy.C84_extract",
    "Gdspy.C84_extract_raises_iff",
    "Gdspy.C84_extract_updates",
    "Gdspy.C84_extract_unknown",
    "Gdspy.C84_settings",
    "Gdspy.C84_settings_names",
    "Gdspy.C84_current_follows"
   ],
   "note": "With use_current_library false (C84_new_cell_local, C84_names_local, C84_create_excluded) the claim holds. With the default it does not: exact behaviour C84_create, C84_new_cell_global, C84_names_global; violations C84_second_library_raises, C84_failure_leaves_cell. extract: C84_extract, C84_extract_raises_iff, C84_extract_unknown; C84_extract_updates proves the opposite of the note in its documentation. Programs that assign use_current_library and current_library between the calls: C84_settings, C84_settings_names, C84_current_follows (without overwriting)."
  },
  {
   "property": "C85",
   "status": "partial",
   "theorems": [
    "Gdspy.C85_records",
    "Gdspy.C85_cut_partial",
    "Gdspy.C85_unnoticed",
    "Gdspy.C85_cut_name",
    "Gdspy.C85_padding",
    "Gdspy.C85_noticed",
    "Gdspy.C85_unlinked"
   ],
   "note": "For every file that is read and every cut: records (C85_records), cells (C85_cut_partial, with the exception of a cut inside a cell name), cut inside numbers raises (C85_noticed), null padding (C85_padding). Violated: C85_unnoticed, C85_cut_name, C85_unlinked."
  },
  {
   "property": "C86",
   "status": "partial",
   "theorems": [
    "Gdspy.C86_on_grid",
    "Gdspy.C86_decimals",
    "Gdspy.C86_error",
    "Gdspy.C86_cycle",
    "Gdspy.C86_import",
    "Gdspy.C86_convert",
    "Gdspy.C86_array",
    "Gdspy.C86_robust_off_by_one",
    "Gdspy.C86_import_changes_unit",
    "Gdspy.C86_resave_cells",
    "Gdspy.C86_resave_file"
   ],
   "note": "For every rounding to the nearest 53-bit number (Spec.Nearest; toDouble_nearest gives one, without limit of the exponent): single coordinates (C86_on_grid, C86_decimals, C86_error, C86_cycle, C86_import, C86_convert), spacing of arrays without rotation (C86_array), bytes of files (C86_resave_cells, C86_resave_file, for elements without arrays and paths stored as paths). Violated: C86_robust_off_by_one, C86_import_changes_unit. Missing: arrays in files, overflow and underflow."
  },
  {
   "property": "C87",
   "status": "proved",
   "theorems": [
    "Gdspy.C87_flatten",
    "Gdspy.C87_get_polygons",
    "Gdspy.C87_origin"
   ],
   "note": "For every rounding to the nearest 53-bit number and every cosine and sine with an error of at most 2^-50 at multiples of 90 degrees (C87_flatten, C87_get_polygons, C87_origin). More levels than 1000 exceed the recursion limit of Python. Overflow and underflow are not modelled."
  },
  {
   "property": "C88",
   "status": "partial",
   "theorems": [
    "Gdspy.C88_binary_cells",
    "Gdspy.C88_hash",
    "Gdspy.C88_set_timestamp",
    "Gdspy.C88_set_timestamp_length",
    "Gdspy.C88_units",
    "Gdspy.C88_padding",
    "Gdspy.C88_set_timestamp_grows"
   ],
   "note": "For every file and every cut: cells (C88_binary_cells), digest (C88_hash), time stamps (C88_set_timestamp, C88_set_timestamp_length), units (C88_units, for a record of the units with 16 bytes), null padding (C88_padding; C06 and C08 for the other two functions). Violated: C88_set_timestamp_grows."
  },
  {
   "property": "C89",
   "status": "partial",
   "theorems": [
    "Gdspy.C89_removed_view",
    "Gdspy.C89_removed_stuck",
    "Gdspy.C89_unshared",
    "Gdspy.C89_shared",
    "Gdspy.C89_shared_changed",
    "Gdspy.C89_moves",
    "Gdspy.C89_polysets_partial",
    "Gdspy.C89_polysets_raises",
    "Gdspy.C89_flatten_partial",
    "Gdspy.C89_flatten_raises",
    "Gdspy.C89_remove_then_flatten",
    "Gdspy.C89_fracture_lists",
    "Gdspy.C89_fracture_raises",
    "Gdspy.C89_fracture_loses",
    "Gdspy.C89_fillet_raises",
    "Gdspy.C89_fillet_lists"
   ],
   "note": "What stays is as in C38 (C89_removed_view); cells without common elements are not changed (C89_unshared); moves work (C89_moves); without tuples below, get_polygonsets, flatten, fracture and fillet do what the model with lists does (C89_polysets_partial, C89_flatten_partial, C89_fracture_lists, C89_fillet_lists). The rest of the claim is false: exact behaviour in C89_removed_stuck, C89_polysets_raises, C89_flatten_raises, C89_remove_then_flatten, C89_fracture_raises, C89_fracture_loses, C89_fillet_raises, C89_shared, C89_shared_changed."
  },
  {
   "property": "C90",
   "status": "partial",
   "theorems": [
    "Gdspy.C90_values",
    "Gdspy.C90_shared",
    "Gdspy.C90_spec",
    "Gdspy.C90_independent",
    "Gdspy.C90_spec_independent",
    "Gdspy.C90_paths_shared",
    "Gdspy.C90_write_changes_cell"
   ],
   "note": "Contents of the arrays and no change of existing ones (C90_values, C90_spec); which arrays are not new (C90_shared); independence with a layer and datatype (C90_spec_independent) and without paths (C90_independent). Violated with paths: C90_paths_shared, C90_write_changes_cell. Not modelled: depth other than None, the dictionary of by_spec=True."
  },
  {
   "property": "C91",
   "status": "partial",
   "theorems": [
    "Gdspy.C91_drift_partial"
   ],
   "note": "For units=\"skip\", exact arithmetic, arrays turned by multiples of 90 degrees, paths stored as polygons (C91_drift_partial); the bound is reached (example). Not covered: paths stored as paths (their outlines depend on rounded widths), arrays at other angles, unit conversion, rounding of doubles."
  },
  {
   "property": "C92",
   "status": "partial",
   "theorems": [
    "Gdspy.C92_exact",
    "Gdspy.C92_polysets_partial",
    "Gdspy.C92_paths_partial",
    "Gdspy.C92_labels_partial",
    "Gdspy.C92_flatten_partial",
    "Gdspy.C92_copy",
    "Gdspy.C92_copy_partial",
    "Gdspy.C92_labels_moved",
    "Gdspy.C92_flatten_moves"
   ],
   "note": "What is returned in every hierarchy (C92_exact, C92_copy); the claim itself when no element is twice in a cell below the references (C92_polysets_partial, C92_paths_partial, C92_labels_partial, C92_flatten_partial) or in the cell copied (C92_copy_partial). Violated otherwise: C92_labels_moved, C92_flatten_moves."
  },
  {
   "property": "C93",
   "status": "partial",
   "theorems": [
    "Gdspy.C93_curve_arc_partial",
    "Gdspy.C93_curve_arc_raises",
    "Gdspy.C93_curve_arc_over",
    "Gdspy.C93_flex_arc_partial",
    "Gdspy.C93_flex_arc_raises"
   ],
   "note": "Over the reals with the true functions. Points, direction, bound of (1 + 1/(2n))^2 tolerances and number of points of Curve.arc (C93_curve_arc_partial), its errors (C93_curve_arc_raises), the line of FlexPath.arc (C93_flex_arc_partial). Violated: C93_curve_arc_over, C93_flex_arc_raises. Missing: tolerances above half of the radius; the outlines beside the line of a FlexPath."
  },
  {
   "property": "C94",
   "status": "partial",
   "theorems": [
    "Gdspy.C94_same",
    "Gdspy.C94_copy_changes_partial",
    "Gdspy.C94_original_changes_partial",
    "Gdspy.C94_original_references_partial",
    "Gdspy.C94_properties_shared",
    "Gdspy.C94_shallow"
   ],
   "note": "Contents and identity of the elements of a deep copy (C94_same); all sequences of changes to polygons, paths and labels of the copy or of what was there before, and all changes to references other than inside their dictionaries (C94_copy_changes_partial, C94_original_changes_partial, C94_original_references_partial); copies that are not deep (C94_shallow). Violated for the properties of references: C94_properties_shared."
  },
  {
   "property": "C95",
   "status": "partial",
   "theorems": [
    "Gdspy.C95_ends",
    "Gdspy.C95_two_ends",
    "Gdspy.C95_corners_partial",
    "Gdspy.C95_bends_partial",
    "Gdspy.C95_bend_beyond"
   ],
   "note": "Over the reals with the true functions. Half circles at the ends of all paths (C95_ends, C95_two_ends), arcs at corners and bends of paths of constant width (C95_corners_partial, C95_bends_partial), with the factors 81/64, 49/36 and 9/4. Violated without the factor: C95_bend_beyond. Missing: corners and bends where the width changes."
  },
  {
   "property": "C96",
   "status": "partial",
   "theorems": [
    "Gdspy.C96_resave_partial",
    "Gdspy.C96_empty_polygon",
    "Gdspy.C96_lone_point"
   ],
   "note": "For files of records with the types of the format, ANGLE after STRANS, one WIDTH per element, PROPVALUE after PROPATTR, and reals with 53 bits; division is exact. Saved without loss when all polygons have points and arrays are turned by multiples of 90 degrees (C96_resave_partial). Polygons without points can not be saved (C96_empty_polygon) and are read from boundaries of one point (C96_lone_point). Missing: arrays at other angles, rounding of doubles."
  },
  {
   "property": "C97",
   "status": "partial",
   "theorems": [
    "Gdspy.C97_grammar_partial",
    "Gdspy.C97_no_width",
    "Gdspy.C97_type_four"
   ],
   "note": "All files of the grammar (also with several XY records) in which paths have a width, ends of type 4 have an extension and nodes have no properties (C97_grammar_partial). Violated otherwise: C97_no_width, C97_type_four, C18_node_properties_leak. Records longer than their values and zero columns or rows are outside of the grammar."
  },
  {
   "property": "C98",
   "status": "partial",
   "theorems": [
    "Gdspy.C98_complete",
    "Gdspy.C98_cell_failure",
    "Gdspy.C98_failure",
    "Gdspy.C98_readable",
    "Gdspy.C98_unknown_name",
    "Gdspy.C98_writer_partial",
    "Gdspy.C98_bad_property",
    "Gdspy.C98_empty_polygon",
    "Gdspy.C98_bad_text",
    "Gdspy.C98_bad_reference",
    "Gdspy.C98_bad_cell_name",
    "Gdspy.C98_bad_extension",
    "Gdspy.C98_writer_mixes_cells",
    "Gdspy.C98_begun",
    "Gdspy.C98_begun_silent",
    "Gdspy.C98_begun_elements",
    "Gdspy.C98_begun_empty",
    "Gdspy.C98_begun_noticed",
    "Gdspy.C98_begun_heads"
   ],
   "note": "Which cells are written and when the call returns (C98_complete); contents of the file after any exception, write by write (C98_failure, C98_cell_failure; C98_bad_property, C98_bad_text, C98_empty_polygon, C98_bad_reference, C98_bad_cell_name, C98_bad_extension for exceptions inside elements). When the element that raised had not been begun, the file is read without exception as a smaller layout (C98_readable, C98_unknown_name: nothing tells that it is incomplete), and a writer that goes on gives all other cells (C98_writer_partial). Violated: when an element raises after its points were written, they become points of a polygon of the next cell (C98_writer_mixes_cells). When the element had been begun, the file is read as the cells before and the beginning of the cell up to that element (C98_begun; C98_begun_elements and C98_begun_empty for which bytes begin an element). When it lacks only what follows complete records, for example a property that raised, the file is read without exception (C98_begun_silent). When it stopped at the head of a record (a text or name that is not ASCII, a polygon without points), reading raises (C98_begun_noticed, C98_begun_heads). Not covered: RobustPaths stored as paths; exceptions of the operating system."
  },
  {
   "property": "C99",
   "status": "partial",
   "theorems": [
    "Gdspy.C99_files",
    "Gdspy.C99_settings",
    "Gdspy.C99_recovered",
    "Gdspy.C99_dimensions_not_kept"
   ],
   "note": "Files and cells after any sequence of calls (C99_files), the file read again (C99_recovered). Violated: the settings of the last call stay (C99_settings), and the dimensions change with the unit (C99_dimensions_not_kept). Not modelled: the default values of the arguments, timestamp=None, the warning."
  },
  {
   "property": "C100",
   "status": "partial",
   "theorems": [
    "Gdspy.C100_kept",
    "Gdspy.C100_flatten",
    "Gdspy.C100_reference_properties_lost",
    "Gdspy.C100_depth",
    "Gdspy.C100_flatten_again",
    "Gdspy.C100_same_elements"
   ],
   "note": "All ways through any hierarchy, with depth (C100_kept) and for flatten (C100_flatten, C100_flatten_again); how the result grows with the depth (C100_depth). The elements are those of the model of the geometry, in the same order (C100_same_elements). Violated: properties of references are lost (C100_reference_properties_lost). Cells form a tree; elements without a dictionary (properties = None) and exceptions (C89) are left out."
  }
 ]
}