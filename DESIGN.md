# Formal model of gdspy in Lean 4

The code is read as text from `/repo` (pinned commit); nothing is executed.
All Lean modules are below `lean/Verif/`:

* `Verif/Model/*.lean` -- the model: one Lean definition per Python function (or per
  loop of it), with a comment citing file and lines, and any simplification;
* `Verif/Spec/*.lean` -- small specifications written without the model's helpers;
* `Verif/Lemmas/*.lean` -- helper lemmas;
* `Verif/Props/*.lean` -- the property theorems, named after the property (`C13_...`), each with an
  `example` that exhibits a concrete non-trivial instance of its hypotheses.

A theorem whose name ends in `_partial` proves less than the property says; the note in `MANIFEST.json` and
the section "Where the code and the properties disagree" say what is missing. A theorem that shows
a violation states the violated claim's negation with a concrete witness, or universally where possible.

## Modelling conventions

* Python exceptions are values: `Py α = Except PyErr α`; each error branch is explicit. Methods
  that change an object and may raise half way return the object together with the exception (`Out`).
* Files are `List UInt8`; streams are the remaining bytes; text is `List Char`.
* Floating-point numbers are modelled as exact numbers: `ℚ` where they are computed with (file
  format, grid rounding), an arbitrary (ordered) field `K` for geometry, so that the theorems hold in
  particular for `ℝ` with the true sine and cosine.  Rounding errors of IEEE arithmetic are *not* modelled,
  except in C01/C02 where the 53-bit significand is part of the statement, and in C86 and C87, which are about the rounding of
  coordinates in files and hierarchies (`Spec.Nearest`: any rounding to a nearest 53-bit number; the exponent is not limited). C66 is stated for `ℝ`.
* `numpy.cos`, `sin`, `sqrt`, `arctan2`, `arccos` are the fields of a structure (`Trig`, `Num`). Theorems state
  the laws they need (`Spec.Trig.Laws`, `Spec.Num.Laws`, `Spec.Num.Polar`); `realNum_laws` and `realNum_polar` prove
  them for the real functions, so the hypotheses are met.
* Objects with identity (cells in a library, cached bounding boxes) live in an explicit
  heap; pure queries (get_polygons, area, ...) are modelled on the unfolded hierarchy
  tree, which a finite acyclic cell graph always has.
* Python sets with unspecified iteration order: theorems quantify over every order.
* Loops that need not end have fuel, or are step functions; the theorems hold for every amount of fuel with which
  the loop ends, or prove that it ends.
* Parameters quantified over: the clipping engine, the control points computed by `_hobby` (modelled and proved separately, C68), the solver of linear equations, user functions, the glyph table
  (where the claim does not depend on it), division of doubles in C10.

## Trusted base

* Lean 4 kernel, with the axioms `propext`, `Classical.choice`, `Quot.sound` at most (list per theorem at the end).
  No axiom is added, no `sorry`, `native_decide` or `bv_decide`. `decide` (with the kernel) is used for witnesses, examples and the fixed glyph table only.
* That the definitions in `Verif/Model` mirror the Python: by reading, with the cited lines.
* That the specifications in `Verif/Spec` say what the English statement says: by reading.
* Exact arithmetic in place of IEEE arithmetic (see above): a theorem about the model is a
  theorem about the code up to rounding. Claims of the form "never within the tolerance" or "equal" are to be read so.
* For C50, C51, C53, C44 and `FlexPath`/`RobustPath` fracturing: the Clipper engine is assumed exact
  (`Spec` in `Spec/Clip.lean`); that an exact engine exists is proved (`Lemmas/RefEngine.lean`), that Clipper is one is not.

## What is modelled

| file | modelled | not modelled |
|------|----------|--------------|
| `gdsiiformat.py` | everything (41-287) | reading the clock |
| `library.py` `Cell`, `CellReference`, `CellArray` | all queries, `to_gds`, `to_svg`, `write_svg`, copy, flatten, add, remove_*, bounding box cache | `__str__`, warnings |
| `library.py` `GdsLibrary`, `GdsWriter`, `get_gds_units`, `get_binary_cells` | new_cell, extract and the global library (C84), add, remove, rename, replace_references, top_level, write_gds, read_gds, all record types | file system, time stamps other than as given numbers |
| `polygon.py` `PolygonSet`, `Polygon`, `Rectangle`, `Round`, `Text`, `L1Path`, `Path` | constructors, transformations, area, bounding box, fracture, fillet, to_gds, to_svg | fillet where a boundary turns back on itself, deprecated float `number_of_points` |
| `polygon.py` `PolyPath` | constructor | coinciding consecutive points |
| `path.py` `FlexPath`, `RobustPath`, `_SubPath`, `_func_*` | everything | string arguments other than the documented ones, warnings |
| `curve.py` | everything | mixed real/complex argument lists |
| `label.py` | everything | - |
| `operation.py` | `slice`, `boolean`, `inside`, `offset`, `copy`, `_gather_polys` | – |
| `clipper.cpp` | bindings (`parse_polygon`, `clip`, `inside`, `chop`, `bounding_box`), `PointInPolygon`, `link_holes`, `tree2paths` (C69), class `ClipperOffset` for closed polygons and the binding `offset` (C76) | the Clipper engine, the union at the end of `ClipperOffset` (a parameter), overflow of 64-bit integers |
| `hobby.py` | `_hobby`, with the linear solver as a parameter (C68) | divisions by zero; lists of wrong length |
| `viewer.py` | colors and patterns (C79), `_set_filter` with its regular expressions (C80), hidden layers (C81), stacking (C82), extents, zoom and ruler (C83) | creation of widgets, bindings of events, dialogs, rounding to pixels; the canvas of Tk is modelled as a list of items with a scroll region |

## Per property: model and method

| id | model | method |
|----|-------|--------|
| C01 | `_eight_byte_real`, `_eight_byte_real_to_float` over ℚ | exact arithmetic, 53-bit significand aligned on a hex digit fits 56 bits |
| C02 | same | bit-level case analysis; negation witness above 16^63 |
| C03 | `_record_reader` | induction over the record list |
| C04 | padding in every `to_gds` + reader strip | case analysis; negation witnesses |
| C05 | both readers as well-founded recursion | strong induction on the length |
| C06 | `gdsii_hash` collector, `set_gdsii_timestamp` | simulation between the two walks |
| C07 | `gdsii_hash` collector on framed files, sorting | sorted lists of a permutation are equal; unique parsing of concatenated bodies |
| C08 | `set_gdsii_timestamp` | induction over the walk |
| C09 | `gdsii_hash` as a step function | non-termination: the step function has a fixed point; termination measure otherwise |
| C10 | `get_gds_units`, header of `write_gds` | C01 + framing |
| C11 | `get_binary_cells` | induction over the framed cells |
| C12 | `GdsWriter`, `write_gds` | equality of byte strings |
| C13-C17 | `to_gds` of each element, `read_gds` state machine | reader run over the emitted records = one element appended |
| C18 | `read_gds` state machine | invariant + witness of the leak |
| C19, C20, C63 | `write_gds`, `read_gds` | induction over cells and elements, references resolved at ENDLIB; simulation of two readings |
| C21 | `round`, truncation | order arithmetic over ℚ |
| C22-C29 | library heap | invariants by induction over operations; graph reachability |
| C30-C34, C36, C39-C41 | hierarchy tree over a field | structural induction |
| C35 | heap with cache flags | witness + invariant |
| C37 | `Cell.copy` | algebra; witnesses |
| C38 | removal loops | induction over the loop |
| C42, C43 | `PolygonSet` transformations and area | algebra, induction over vertices |
| C44 | `fracture` loop with an abstract slicer | loop invariant, measure |
| C45-C49 | `Path`, `L1Path`, `Round`, `Text` bookkeeping | induction |
| C50, C51, C53 | `slice`, `boolean`, `_gather_polys` with an ideal clipper | set algebra |
| C52, C54 | bindings `inside`, `parse_polygon`, `PointInPolygon` over ℤ | parity induction over edges |
| C55-C58 | sampling loops, pen state machine, de Casteljau | loop invariants, induction on degree |
| C59, C60 | `FlexPath`, `RobustPath` as state machines | invariants by induction over calls; witnesses |
| C61 | same, transformations | the polygons are computed from data that transform alike; witnesses |
| C62 | label escaping | induction over the text |
| C64 | SVG output as data, SVG drawing as a specification | structural induction |
| C65 | `Path` | polygon of a piece = outline of the specified band; transformed state draws the transformed band |
| C66 | `Round` over ℝ | distance between arc and chord; rounding of the number of points |
| C67 | `PolygonSet.fillet` over ℝ | half-angle identities; index arithmetic of the cyclic list |
| C68 | `_hobby`; the linear solver is a parameter, any exact one | invariant of the loop over parts; rows of the matrices as equations; polar form of the chords |
| C69 | `link_holes`, `tree2paths`; any sorting function | sums over the edges: bridges cancel; invariant of the loop over holes; telescoping sums for the existence of a bridge |
| C70 | `FlexPath.get_polygons` | assembly of the outline as a function of the edges beside the centre line; half-angle identities for miters and arcs; sums over edges for the area |
| C71 | `L1Path` | invariant of the loop: the last points of all sides are at their distances; cuts as an inductive relation; telescoping sums for the area |
| C72 | construction methods of `RobustPath` | loop invariant over the paths (`until_push`); induction over calls for alignment, gaplessness and current values; derivatives from Mathlib |
| C73 | `read_gds` on the heap of objects | induction over cells and references; the new objects are given by number |
| C74 | `RobustPath.get_polygons` up to fracturing | refinement: the loop over the sections is a derivation of `StrandRun`; induction over straight sections for the area |
| C75 | `PolyPath` | the loop over the corners runs each path for itself; a side is a derivation of `Flank`, the pieces one of `Pieces`; telescoping sums for the area |
| C76 | `offset` | the contour that `ClipperOffset` draws around a rectilinear polygon has the winding number of the polygon plus those of the bands and corner rectangles (sums over sides); the union is a parameter `UnionEngine` with the properties `ExactUnion`; C69 for holes |
| C77 | joins of `offset` | the contour refines an inductive relation `Contour` that is stated with the directions of sides, meeting points and circles; half-angle formulas for the cuts, `arccos (cos x)` for the number of points |
| C78 | `copy` | `deepcopy` over a memory of objects with a memo table; invariant of the recursion with the set of open objects; the number of objects that are not in the table bounds the depth; the result is an isomorphic graph of new objects, hence the same hierarchy |
| C79 | colors and patterns of the viewer | arithmetic of floors and hexadecimal digits; lists as dictionaries |
| C80 | `_set_filter` | the matcher accepts the language of the expression (soundness and completeness by induction); that language is the one of the grammar `WritesFilter`; what `findall` returns is unique up to white space because a pair ends at the first closing parenthesis |
| C81 | hidden layers | invariant `Good` of all actions |
| C82 | stacking order | invariant `Stacked` of all clicks; `tagRaise` splits the items at the topmost item of the layer above |
| C83 | extents and zoom | ordered field arithmetic; confinement to the scroll region keeps visible parts visible |
| C84 | creating cells in several libraries, also with assignments to the global settings (Model/Settings), `extract` | all libraries over one heap; induction over calls; C23-C25 for `extract` |
| C85 | files cut short or padded | records of a prefix; relation between states of the reader on a prefix and on the whole |
| C86 | coordinates in double precision | relative error 2^-53 per operation bounds the distance to the integer below 1/2; then the file is that of the rounded cells |
| C87 | transformations of references in double precision | error in units of the precision grows by at most 2^-12 per level; induction over the hierarchy |
| C88 | raw files cut short | records of a prefix; induction over the cells, items and records before the cut |
| C89 | lists and tuples in polygon sets, elements in a heap | exact effect on the heap; mutual induction over the hierarchy; refinement of the model with lists |
| C90 | arrays with identity in a heap, paths with their caches | mutual induction over the hierarchy: values, new and old arrays; writes at new arrays do not change views |
| C91 | cells of files as hierarchies over the reals (`Model/FileTree.lean`) | a cell and its rounded version are written as the same bytes; round trip of C19 for the rounded version; isometries and the triangle inequality at every reference, induction over levels; elements of arrays lie between rounded corners |
| C92 | elements with identity, lists of them, `deepcopy` of a list with its memo, changes in place (`Model/Twice.lean`) | a loop that changes every entry of a list in place applies the change as often as the object is in the list; induction over the hierarchy; comparison with the values of `Model/Hier.lean` |
| C93 | `Curve.arc`, `FlexPath.arc` over the reals (`Model/Curve.lean`, `Model/Flex.lean`) | chords of ellipses as in C66, rounding of the number of segments, rigid motions, reversal of the direction |
| C94 | `Cell.copy` on numbered elements and dictionaries of properties (`Model/Share.lean`) | what is new and what is shared after the copy, invariant over sequences of changes |
| C95 | the outlines of FlexPath of C70 over ℝ | chords of circles with the number of segments of the code, for ends, corners and bends; a concrete bend beyond the tolerance |
| C96 | reader and writer of C09–C19 | invariant of the run of the reader over all records of a file: whatever is read can be written (C19 then recovers it); a boundary of one point |
| C97 | grammar of the stream format as data types with records and meaning; reader of C09–C20 | run of the reader over every production of the grammar, induction over elements and cells; a path without width |
| C98 | `to_gds` of all elements and cells and `write_gds` as sequences of writes (Model/Save), refining the writers of C10–C19 | induction over writes, elements and cells; reader of C19 on parts of cells; a file in which two cells are mixed |
| C99 | `gdspy.write_gds` on the global library (Model/GlobalSave) | induction over the calls; C98 and C19 for the file; vertices in metres |
| C100 | properties in queries and `flatten` (Model/PropFlow) | mutual induction over the hierarchy; the ways of references are listed without repetition |

## Where the code and the properties disagree

Each item is a theorem with a concrete witness (or a universal statement), next to the `_partial` theorem that delimits it.

Files: C01_exponent_overshoot_loses_bits; C02 silent corruption above 16^63 and below the smallest number; C04 trailing NUL
and empty texts are lost; C09_hash_diverges (a zero-sized record hangs `gdsii_hash`); C17 ends that the format lacks are replaced,
width_transform of width 0 is lost; C18_node_properties_leak; C21 RobustPath truncates coordinates.

Libraries: C22_rename_breaks_other_library; C23_not_atomic; C25_new_cell_keeps_old; C29_cycle_diverges.

Hierarchies: C30/C40 zero magnification; C32_texttype_lost, C32_flatten_stale_layers (paths whose polygons are cached keep their old layers), C32_flatten_reflected_offset and
C32_flatten_magnified_ends (flattened FlexPaths move); C32_flatten_robust_array (the spacing of a magnified array is magnified when RobustPaths are flattened), C32_flatten_robust_reflected (extended ends of reflected RobustPaths), C32_flatten_robust_stale; C35 five kinds of stale bounding boxes; C36 `get_texttypes` raises with
references; C37 copies of reflected references and scaled arrays; C39 `get_labels(set_transform=True)` (sign of the rotation,
`x_reflection=False` reflects).

Shapes: C44_may_not_end; C45_raising_call_misaligns; C46_zero_turn_reverses; C47_wrong_end, C47_no_turn_down; C65 layers
swap sides at right turns and parametric sections, scale keeps distance and length, mirror keeps the order; C66 circular sections
exceed the tolerance, half a disc can vanish, an ellipse angle jumps by a turn; C67_wrong_length TypeError in place of ValueError;
C71_translate_keeps_end (inherited `translate` leaves the end point of an `L1Path` behind). C75: round ends and bevelled corners of a
`PolyPath` exceed max_points, straight lines are cut into pieces of two vertices or raise IndexError, a single segment does not check
`corners` and `ends`.

Operations: C51 empty second operand (`and` of the first operand's own polygons), both empty raise; C53 lists containing paths raise;
C69_touching_hole (invalid iterator for a hole that touches a horizontal edge), C69_bent_edge (bridges bend slanted edges);
C76_shrink_overlap (shrinking overlapping polygons without join_first removes points deep inside of their union);
C77_shrink_ignores_tolerance (round joins when shrinking), 'bevel' joins are cuts at the distance from the corner (C77_joins);
C78_add_copy_raises (the copy of a reference refers to a copy of the cell, which clashes with the cell in its library).

Viewer: C79_negative_layer (malformed color); C81_given_twice; C81_default_kept (`hidden_types=[]` is one list for all viewers);
C81_filter_other_cell; C83_wheel_out_moves (the window is kept in the scroll region); C83_point_has_no_scale.

Global library (the default, switched off in every test): C84_second_library_raises (`lib2.new_cell(name)` raises after `lib1.new_cell(name)`,
and `lib1.new_cell(name, overwrite_duplicate=True)` raises as well, because `Cell(name)` first adds the cell to `gdspy.current_library`);
C84_failure_leaves_cell; C84_extract_updates (documented not to update references).

Files cut short: `_record_reader` treats an incomplete header and a short string as the end of the file. C85_unnoticed (no exception for
any cut between records), C85_cut_name (an empty cell with a shortened name), C85_unlinked (references stay names without ENDLIB).
C88_set_timestamp_grows: a file cut inside a time stamp becomes longer.
Removal: `remove_polygons` assigns tuples (`zip`) to the elements that stay. C89_remove_then_flatten (flatten of all cells above raises TypeError, with the labels
already flattened, C89_flatten_raises), C89_fillet_raises, C89_fracture_raises, C89_fracture_loses (a polygon is lost), C89_shared_changed (shallow copies change).
Arrays: `get_polygons()` returns the arrays in the caches of paths (C90_paths_shared, C90_write_changes_cell). Elements that are twice in a cell are transformed twice by references, `flatten` and `Cell.copy` (C92_labels_moved, C92_flatten_moves); the remark in `Model/Hier.lean` that sharing can not be observed is meant for cells that hold every element once. Arcs exceed the tolerance by up to 25/16 (C93_curve_arc_over); `FlexPath.arc` raises for offsets below minus radius and width (C93_flex_arc_raises). Deep copies of a cell share the dictionaries of properties of its references (C94_properties_shared). Bends of a FlexPath exceed the tolerance (C95_bend_beyond). A boundary of one point is read but can not be saved again (C96_lone_point). A path without WIDTH record makes `read_gds` raise (C97_no_width); ends of type 4 without extensions are read as half of the width (C97_type_four). A save that raises leaves a file that is read without complaint as a smaller layout (C98_readable); a program that goes on after an exception of `GdsWriter.write_cell` can get the points of one cell in a polygon of the next (C98_writer_mixes_cells). `gdspy.write_gds` changes the units of the global library for good and the dimensions of what it writes (C99_settings, C99_dimensions_not_kept). `flatten` drops the properties of references (C100_reference_properties_lost).

Doubles: `1e-6/1e-9` is 999.9999999999999, and `RobustPath.to_gds` truncates (`astype(">i4")`) where the other classes round:
C86_robust_off_by_one (whole micrometres are stored one nanometre short). C86_import_changes_unit (unit 1e-7, precision 1e-9).

Curves: C55_cubic_gap; C68_full_turn (an angle of 3π/2 in place of -π/2 gives another curve); C57_not_svg (relative commands).

Paths: C59_flat_pair_* (a first point given as a flat pair); C60 queries drop widths, change outlines or hide errors, and
leave a partial cache when they raise; C61 reflected offsets, tuple ends, array_trans times scale, twisted caps, negative
widths, turn after a rotation; C70_round_hourglass (round corner where the width changes, drawn on the wrong side),
C70_thin_round and C70_tight_bend (ValueError in place of an outline). Natural corners of zero width divide zero by zero
(the theorems assume positive widths). C72_turn_backwards (parallel RobustPaths: the angles of their directions are averaged),
C72_negative_scale_breaks (offsets change sides), C72_raising_call_misaligns. C74_round_raises; the joins `short`, `long` and `lost` of `StrandJoin` leave
the sides of a RobustPath apart (the code warns).

SVG: C62 carriage returns and control characters; C64_same_id (names that differ in `#` and `_` collide).

## Testing the theorems

`seeded/LOG.jsonl` lists wrong programs tried: one edit of one definition of the model in a scratch copy, then a rebuild.
`failed` names the theorems (file: theorem) at which the build first failed; modules that depend on a failed one
are not built, so the list is a lower bound. An entry with an empty `failed` survived; `tightened` then names the theorems added or
strengthened, and an entry with the same id and the suffix `r` is the repetition after that.

## Axioms per theorem

Output of `#print axioms` for the theorems of `MANIFEST.json`, by set of axioms.

None (3 theorems): C52_degenerate, C53_flex_alone, C100_reference_properties_lost

`Classical.choice`, `Quot.sound`, `propext` (488 theorems): C01_real8_roundtrip, C01_real8_truncation_bound, C01_exponent_overshoot_loses_bits, C02_real8_length, C02_real8_injective, C02_real8_zero, C02_real8_neg, C02_real8_overflow_corrupts, C02_real8_negative_overflow_raises, C02_real8_underflow_raises, C02_real8_negative_underflow_corrupts, C03_record_framing, C04_text_roundtrip, C04_trailing_nul_lost, C04_empty_text_none, C05_raw_concat, C05_raw_count, C05_decoded_count, C05_prefix_delivered, C06_hash_ignores_timestamps, C06_written_file, C07_hash_feeds_bodies, C07_hash_order_independent, C07_hash_stream_injective, C07_written_files, C08_set_timestamp, C08_set_timestamp_last_wins, C08_set_timestamp_bad_record, C09_hash_diverges, C09_hash_terminates_partial, C10_units_of_file, C10_units_exact, C10_import_agrees, C11_binary_cells_exact, C11_binary_cells_last_wins, C11_written_binary_cells, C11_rewrite_identical, C11_binary_import_equals_cells, C12_writer_equals_write_gds, C12_writer_any_order, C13_polygon_roundtrip, C13_empty_polygon_refused, C14_label_roundtrip, C15_reference_roundtrip, C16_array_roundtrip, C16_array_spacing_error, C17_path_roundtrip, C17_path_ends_replaced, C17_zero_width_flag_lost, C17_repeated_points_outline, C18_properties_stay_partial, C18_node_properties_leak, C19_library_roundtrip, C19_library_recovered, C20_maps_commute, C20_written_file, C21_grid_rounding, C21_rounding_error, C21_robust_path_truncates, C21_robust_path_error_witness, C22_rename_breaks_other_library, C23_add_raises_iff, C23_duplicate_refused, C23_not_atomic, C25_replace_count, C25_overwrite_redirects, C25_overwrite_single, C26_remove, C26_remove_complete, C27_rename, C28_top_level_exists, C29_acyclic_returns, C30_entry_equals_tuple_query, C30_flat_is_union, C30_zero_magnification, C32_flatten_polygons, C32_flatten_get_polygons, C32_flatten_by_spec, C32_flatten_single, C32_flatten_area, C32_flatten_bbox, C32_texttype_lost, C32_flex_partial, C32_flatten_stale_layers, C32_flatten_reflected_offset, C32_flatten_magnified_ends, C32_robust_partial, C32_flatten_robust_array, C32_flatten_robust_reflected, C32_flatten_robust_stale, C33_area_is_sum, C33_reference_factor, C33_area_by_spec, C34_bbox_is_smallest, C34_none_iff_empty, C34_unique, C35_flatten, C35_fresh_partial, C35_query_pure, C35_stale_after_child_query, C35_stale_diamond, C35_stale_remove, C35_stale_flatten, C35_stale_failed_add, C36_layers, C36_strings_raise, C37_flex_partial, C37_robust_partial, C37_copy_partial, C37_origin_none, C37_reflected_reference_wrong, C37_none_reflection_wrong, C37_scaled_array_wrong, C38_remove_polygons, C39_set_transform_partial, C39_false_reflects, C39_rotation_sign, C40_zero_magnification, C42_mirror, C42_mirror_involution, C42_distances, C43_shoelace, C43_start_direction, C43_transformations, C43_rectangle, C44_fracture, C44_additive, C44_region, C44_terminates, C44_may_not_end, C45_call, C45_aligned, C45_raising_call_misaligns, C46_turn, C46_sequence, C47_end_point_partial, C47_aligned, C47_vertex_limit, C47_wrong_end, C47_small_limit, C48_round, C48_outline, C48_total, C48_seams, C49_text, C49_disjoint, C50_slice, C50_partition, C50_union, C51_boolean_partial, C51_minus_nothing, C51_last_polygon, C51_and_nothing, C52_point_in_polygon, C52_answers, C52_points, C52_groups, C52_rectangle, C52_twice_around, C54_oriented, C54_direction, C54_start, C54_zero_area, C54_nearest, C55_refined, C55_ends, C55_bezier_lipschitz, C55_quadratic, C55_cubic_gap, C56_points, C56_unlimited, C57_commands, C57_section_ends, C57_interpolation, C57_not_svg, C57_arc_ok, C58_formula, C58_start, C58_end, C58_reverse, C58_affine, C58_hull, C58_box, C58_derivative, C59_history, C59_history_raising, C59_arc, C59_arc_end, C59_parametric, C59_curve_end, C59_turn, C59_smooth_end, C59_raising_call_misaligns, C59_offsets_centred, C60_queries_partial, C60_query_drops_width, C60_query_changes_outline, C60_query_hides_error, C60_robust_query_hides_error, C61_flex_translate_partial, C61_flex_rotate_partial, C61_flex_scale_partial, C61_flex_transform_partial, C61_flex_reflect_partial, C61_flex_reflect_offset, C61_flex_transform_ends, C61_robust_translate_partial, C61_robust_rotate_partial, C61_robust_scale_partial, C61_robust_transform_partial, C61_robust_transform_array, C61_robust_scale_ends, C61_robust_reflect_caps, C61_robust_reflect_width, C61_robust_rotate_turn, C62_text_partial, C62_no_markup, C62_carriage_return, C62_control, C63_convert_keeps_size, C63_unknown_units, C64_drawing, C64_view_box, C64_label, C64_label_position, C64_empty, C64_writes, C64_same_id, C65_new, C65_segment, C65_arc, C65_parametric, C65_bezier, C65_smooth, C65_turn, C65_turn_joins, C65_curve_joins, C65_rotate, C65_mirror, C65_moved_segment, C65_right_turn_swaps_layers, C65_curve_swaps_layers, C65_scale_keeps_distance, C65_scale_two_factors, C65_mirror_keeps_order, C65_arc_tolerance, C66_disc, C66_pieces, C66_sections_partial, C66_direction, C66_ellipse_jump, C66_half_disc_vanishes, C66_half_disc_area, C67_corner, C67_polygon, C67_radii, C67_fillet, C67_wrong_length, C67_right_length, C67_point_vanishes, C68_smooth, C68_directions_open, C68_directions_closed, C68_full_turn, C69_bridge, C69_holes, C69_sliver, C69_rectilinear_partial, C69_found, C69_room, C69_tree, C69_tree_partial, C69_engine, C69_touching_hole, C69_bent_edge, C70_straight, C70_outline_partial, C70_polygons_partial, C70_area, C70_defined, C70_thin_round, C70_tight_bend, C70_round_hourglass, C70_limit, C70_polygonset, C70_area_sum, C70_two_partial, C70_two_polygons_partial, C70_two_area, C71_bands, C71_band_area, C71_area, C71_rotate, C71_cut_inside, C72_segment, C72_arc, C72_parametric, C72_bezier, C72_smooth, C72_history, C72_unbroken, C72_raising_call_misaligns, C72_negative_scale_breaks, C72_up_to_date, C72_meets, C72_direction, C72_turn, C72_turn_backwards, C73_import, C73_no_endlib, C73_clash, C74_centre, C74_half_width, C74_history, C74_outline, C74_area, C74_wire, C74_polygons, C74_round_defined, C74_round_raises, C75_cut, C75_area, C75_returns, C75_round_ends_over_limit, C75_bevel_over_limit, C75_cut_on_straight, C75_cut_at_tip, C75_segment_unchecked, C75_no_layers, C75_outline, C75_segment, C75_limit, C76_grow_partial, C76_shrink_count, C76_shrink_partial, C76_zero, C76_join_first_partial, C76_shrink_overlap, C76_rectangle, C77_joins, C77_reach, C77_shrink_ignores_tolerance, C78_copy, C78_raises, C78_independent, C78_reference, C78_element, C78_add_copy_raises, C79_auto_color_partial, C79_negative_layer, C79_lookup, C79_auto_pattern, C79_contrast, C80_filter, C80_other, C80_unambiguous, C81_consistent_partial, C81_toggle_twice, C81_others, C81_others_alone, C81_filter, C81_filter_other_cell, C82_raise, C82_lower, C82_ends, C82_undo, C82_drawn, C82_always, C83_extents, C83_empty, C83_coordinates, C83_wheel_partial, C83_wheel_in, C83_wheel_out_moves, C83_key_partial, C83_key_in, C83_rectangle, C83_grow, C83_zooms, C84_create, C84_new_cell_local, C84_new_cell_global, C84_second_library_raises, C84_failure_leaves_cell, C84_names_local, C84_names_global, C84_extract_raises_iff, C84_extract_updates, C84_settings, C84_settings_names, C84_current_follows, C85_records, C85_cut_partial, C85_unnoticed, C85_cut_name, C85_padding, C85_noticed, C85_unlinked, C86_on_grid, C86_decimals, C86_error, C86_cycle, C86_import, C86_convert, C86_array, C86_robust_off_by_one, C86_import_changes_unit, C86_resave_cells, C86_resave_file, C87_flatten, C87_get_polygons, C87_origin, C88_binary_cells, C88_hash, C88_set_timestamp, C88_set_timestamp_length, C88_units, C88_padding, C88_set_timestamp_grows, C89_polysets_partial, C89_polysets_raises, C89_flatten_partial, C89_flatten_raises, C89_remove_then_flatten, C89_fillet_raises, C89_fillet_lists, C90_values, C90_shared, C90_spec, C90_independent, C90_spec_independent, C90_paths_shared, C90_write_changes_cell, C91_drift_partial, C92_exact, C92_polysets_partial, C92_paths_partial, C92_labels_partial, C92_flatten_partial, C92_copy_partial, C92_labels_moved, C92_flatten_moves, C93_curve_arc_partial, C93_curve_arc_raises, C93_curve_arc_over, C93_flex_arc_partial, C93_flex_arc_raises, C94_same, C94_copy_changes_partial, C94_original_changes_partial, C94_original_references_partial, C94_properties_shared, C95_ends, C95_two_ends, C95_corners_partial, C95_bends_partial, C95_bend_beyond, C96_resave_partial, C96_empty_polygon, C96_lone_point, C97_grammar_partial, C97_no_width, C97_type_four, C98_complete, C98_cell_failure, C98_failure, C98_readable, C98_unknown_name, C98_writer_partial, C98_bad_property, C98_empty_polygon, C98_bad_text, C98_bad_reference, C98_bad_cell_name, C98_bad_extension, C98_writer_mixes_cells, C98_begun, C98_begun_silent, C98_begun_elements, C98_begun_empty, C98_begun_noticed, C98_begun_heads, C99_files, C99_settings, C99_recovered, C99_dimensions_not_kept, C100_kept, C100_flatten

`Quot.sound`, `propext` (111 theorems): C03_raw_framing, C04_non_ascii_refused, C17_repeated_points, C17_repeated_points_line, C22_keys_match_names, C23_add_keeps_entries, C23_new_cell_refused, C24_add_closes, C24_add_closes_overwrite, C24_stays_closed, C25_replace_references, C25_no_update, C25_new_cell_keeps_old, C26_remove_keep_references, C27_rename_raises, C27_rename_no_update, C28_top_level, C29_dependencies_reachable, C29_direct_dependencies, C29_terminates_iff, C29_cycle_diverges, C30_flat_is_complete, C31_deep_enough, C31_cut, C31_negative, C31_elements, C31_elements_deep_enough, C31_elements_negative, C32_flatten_labels, C33_by_spec_total, C34_polygonset_bbox, C35_query_only_boxes, C35_stale_below, C35_stale_remove_polygons, C35_stale_remove_paths, C35_query_caches, C35_add_contents, C36_datatypes, C36_svg_classes, C38_remove_paths, C38_remove_labels, C39_positions, C40_array_is_grid, C40_array_is_grid_by_spec, C41_references_compose, C41_nested_cells, C42_translate, C42_rotate, C42_scale, C42_translate_add, C42_rotate_add, C42_scale_mul, C43_by_spec, C44_small_limit, C46_arc, C46_axis, C46_zero_turn_reverses, C47_no_turn_down, C48_path_arc, C48_path_parametric, C49_font, C50_no_layers, C50_zero_precision, C51_both_empty, C51_unknown, C52_no_points, C53_flex_in_list, C53_flex_error, C57_relative, C57_errors, C57_get_points, C58_low, C59_new, C59_segment, C59_flat_pair_misaligned, C59_flat_pair_ignores, C59_flat_pair_raises, C60_repeat, C60_forgets, C60_robust_query, C60_robust, C60_robust_forgets, C64_no_origin, C65_translate, C65_scale_partial, C69_level_branch_dead, C71_translate_keeps_end, C72_new, C75_bad_arguments, C76_errors, C76_flex, C81_toggle, C81_given_twice, C81_default_kept, C81_default_is_last, C83_point_has_no_scale, C83_ruler, C84_extract, C84_extract_unknown, C89_removed_view, C89_removed_stuck, C89_unshared, C89_shared, C89_shared_changed, C89_moves, C89_fracture_lists, C89_fracture_raises, C89_fracture_loses, C92_copy, C100_depth, C100_same_elements

`propext` (6 theorems): C27_rename_error_unchanged, C36_texttypes_partial, C53_gather_partial, C84_create_excluded, C94_shallow, C100_flatten_again
