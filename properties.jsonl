{"id": "C01", "title": "Stored reals survive a write/read cycle exactly", "statement": "Any finite double-precision number whose magnitude lies in the range of the GDSII 8-byte real format (16^-65 <= |v| < 16^63, or 0) that is written by gdspy (magnification, rotation, unit, precision) is read back by gdspy as exactly the same number when the base-16 exponent derived from the logarithm is the exact one. If rounding of the logarithm gives another exponent e that still bounds the value, the number read back has the same sign and is smaller in magnitude by less than 16^(e-14).", "quantifier": "all signs, all 53-bit significands, all exponents in range, and every rounding of the floating-point logarithm that still bounds the value", "why_tests_cant": "2^62 encodable doubles; the interesting failures are at exact powers of 16 and at the last mantissa bit.", "anchors": ["gdspy/gdsiiformat.py:_eight_byte_real", "gdspy/gdsiiformat.py:_eight_byte_real_to_float"]}
{"id": "C02", "title": "Sign and layout of stored reals", "statement": "The encoding of a real is always 8 bytes; the encoding of -v is the encoding of v with only the top bit of the first byte set; 0 is eight zero bytes; and distinct representable values have distinct encodings. Values of magnitude 16^63 or more are not rejected: they are written as a number with the wrong sign and magnitude.", "quantifier": "all encodable values, and all values at or above the format's limit", "why_tests_cant": "needs all bit patterns; the out-of-range corruption only shows up beyond 16^63.", "anchors": ["gdspy/gdsiiformat.py:_eight_byte_real"]}
{"id": "C03", "title": "Record framing round trip", "statement": "Whatever finite sequence of well-formed records is laid out one after the other in a file, the record reader yields exactly those records (type and payload values: unsigned words, signed words, signed longs, reals, text, or nothing), in order, and then stops.", "quantifier": "all record sequences of any length, all payload sizes allowed by the 16-bit size field", "why_tests_cant": "unbounded sequences; misframing at one record silently corrupts everything after it.", "anchors": ["gdspy/gdsiiformat.py:_record_reader", "gdspy/gdsiiformat.py:_raw_record_reader"]}
{"id": "C04", "title": "Text padding round trip", "statement": "A non-empty ASCII string without trailing NUL (cell name, label text, property value, library name) that is written with the pad-to-even rule is read back unchanged; the written record always has even size. An even-length string ending in NUL loses its last character, and an empty string is read back as None.", "quantifier": "all ASCII strings that fit in a record", "why_tests_cant": "every length parity and every final byte must be covered.", "anchors": ["gdspy/library.py:Cell.to_gds", "gdspy/library.py:CellReference.to_gds", "gdspy/label.py:Label.to_gds", "gdspy/gdsiiformat.py:_record_reader"]}
{"id": "C05", "title": "Record readers terminate and never invent or reorder bytes", "statement": "On every byte string, of whatever origin, record reading ends after finitely many records; the raw records concatenated are the file without at most three trailing bytes.", "quantifier": "all byte strings (valid, truncated or garbage)", "why_tests_cant": "arbitrary corrupted input cannot be enumerated.", "anchors": ["gdspy/gdsiiformat.py:_record_reader", "gdspy/gdsiiformat.py:_raw_record_reader"]}
{"id": "C06", "title": "The content hash ignores timestamps", "statement": "Replacing the timestamps of a GDSII file with set_gdsii_timestamp does not change its gdsii_hash, for any well-framed file and any timestamp; in fact the exact byte strings fed to the hash engine are the same.", "quantifier": "all well-framed files with any number of cells and records, all timestamps", "why_tests_cant": "unbounded files; a hash collision test cannot tell equal digests from equal inputs.", "anchors": ["gdspy/gdsiiformat.py:gdsii_hash", "gdspy/gdsiiformat.py:set_gdsii_timestamp"]}
{"id": "C07", "title": "The content hash depends only on the set of cell bodies", "statement": "Permuting the cells of a well-framed file, changing the library name, units or any record outside of cells, does not change the byte strings fed to the hash engine; and two well-framed files feed the hash engine the same byte stream exactly when they have the same cell bodies up to order.", "quantifier": "all well-framed files, all permutations of cells", "why_tests_cant": "factorially many orders; unbounded cell counts.", "anchors": ["gdspy/gdsiiformat.py:gdsii_hash"]}
{"id": "C08", "title": "Timestamp rewriting touches only timestamps", "statement": "After set_gdsii_timestamp succeeds on a file the length is unchanged, every library and cell timestamp holds the new value, every other byte is unchanged, doing it twice with the same timestamp is the same as once, and the last timestamp set wins.", "quantifier": "all byte strings on which the call succeeds and all pairs of timestamps", "why_tests_cant": "in-place file surgery; every offset of every file must be covered.", "anchors": ["gdspy/gdsiiformat.py:set_gdsii_timestamp"]}
{"id": "C09", "title": "gdsii_hash always terminates", "statement": "gdsii_hash returns or raises on every input file. (The code violates this: a zero-sized BGNSTR or ENDSTR record makes it loop forever; on all other files it terminates.)", "quantifier": "all byte strings", "why_tests_cant": "non-termination is a property of infinite runs.", "anchors": ["gdspy/gdsiiformat.py:gdsii_hash"]}
{"id": "C10", "title": "get_gds_units reports the units the file was written with", "statement": "For every file produced by write_gds, get_gds_units returns the precision and the unit that the library had, and reading the file with units='import' leaves the library with the same pair that get_gds_units reports.", "quantifier": "all library units and precisions representable in the format, all library contents", "why_tests_cant": "the scan must stop at the right record whatever precedes or follows it.", "anchors": ["gdspy/library.py:get_gds_units", "gdspy/library.py:GdsLibrary.write_gds", "gdspy/library.py:GdsLibrary.read_gds"]}
{"id": "C11", "title": "Binary cells can be moved between files without loss", "statement": "get_binary_cells on a well-framed library file returns, under each cell's name, exactly the bytes of that cell (from its BGNSTR to its ENDSTR); writing those binary cells into a new file gives a file whose cell section is byte-identical to the original one.", "quantifier": "all well-framed libraries with distinct cell names", "why_tests_cant": "unbounded number and size of cells.", "anchors": ["gdspy/library.py:get_binary_cells", "gdspy/library.py:GdsLibrary.write_gds", "gdspy/library.py:GdsWriter.write_binary_cells"]}
{"id": "C12", "title": "Incremental writer equals one-shot writer", "statement": "Creating a GdsWriter with a name, unit, precision and timestamp, writing any sequence of cells followed by binary cells with that timestamp, and closing it produces byte-for-byte the same file as write_gds on a library with the same name/units and those cells; with cells and binary cells interleaved the file holds the pieces in the order given.", "quantifier": "all cell lists, binary cell lists, names, units and timestamps", "why_tests_cant": "two separately coded writers must agree on every input.", "anchors": ["gdspy/library.py:GdsWriter", "gdspy/library.py:GdsLibrary.write_gds"]}
{"id": "C13", "title": "Polygons survive a write/read cycle", "statement": "A polygon with n >= 1 vertices on the database grid, with 16-bit layer and datatype and any properties, is read back with the same vertices in the same order, same layer, datatype and properties, including when it has more than 8190 vertices and is split over several XY records.", "quantifier": "all vertex counts, all grid coordinates in 32 bits, all layers/datatypes, all property dictionaries", "why_tests_cant": "the multi-record split happens only for >8190 vertices and at chunk boundaries.", "anchors": ["gdspy/polygon.py:PolygonSet.to_gds", "gdspy/library.py:GdsLibrary.read_gds", "gdspy/library.py:GdsLibrary._create_polygon"]}
{"id": "C14", "title": "Labels survive a write/read cycle", "statement": "A label is read back with the same text, anchor, position (on grid), layer, texttype, rotation, magnification, reflection and properties; None rotation/magnification remain None.", "quantifier": "all labels with non-empty ASCII text, valid anchors, 16-bit layer/texttype", "why_tests_cant": "every combination of optional fields changes the record layout.", "anchors": ["gdspy/label.py:Label.to_gds", "gdspy/library.py:GdsLibrary.read_gds", "gdspy/library.py:GdsLibrary._create_label"]}
{"id": "C15", "title": "References survive a write/read cycle", "statement": "A cell reference is read back with the same target cell, origin (on grid), rotation, magnification, reflection and properties.", "quantifier": "all references and every combination of optional transformation fields", "why_tests_cant": "combinations of optional records.", "anchors": ["gdspy/library.py:CellReference.to_gds", "gdspy/library.py:GdsLibrary._create_reference"]}
{"id": "C16", "title": "Arrays survive a write/read cycle", "statement": "A cell array is read back with the same target, columns, rows, origin, rotation, magnification, reflection and spacing, under every rotation and reflection, provided the array corners fall on the grid; off grid, the spacing error is bounded by one grid step times (|cos|+|sin|) divided by the count.", "quantifier": "all arrays with 1..32767 columns/rows and every rotation angle and reflection", "why_tests_cant": "continuous rotation angles; the reader must invert the rotation/reflection applied to the lattice vectors.", "anchors": ["gdspy/library.py:CellArray.to_gds", "gdspy/library.py:GdsLibrary._create_array"]}
{"id": "C17", "title": "Paths survive a write/read cycle", "statement": "A FlexPath stored as a GDSII path element is read back with the same spine, width, width_transform flag, end type (including custom begin/end extensions), layer, datatype and properties, for any number of spine points (split over XY records of at most 8191 points). Of consecutive equal points one is written, and no other point is left out: the line is the one used for the polygons of the path.", "quantifier": "all spines on grid with at least two points, all end types that the format can express", "why_tests_cant": "unbounded spines, several optional records.", "anchors": ["gdspy/path.py:FlexPath.to_gds", "gdspy/library.py:GdsLibrary._create_path"]}
{"id": "C18", "title": "Properties stay with their element", "statement": "Each element read from a file gets exactly the properties written inside that element. (Holds for files whose elements are all importable; the code violates it when an unsupported element such as NODE carries properties: they leak to the next element.)", "quantifier": "all files; all sequences of elements", "why_tests_cant": "depends on reader state carried across elements.", "anchors": ["gdspy/library.py:GdsLibrary.read_gds"]}
{"id": "C19", "title": "Whole libraries survive a write/read cycle", "statement": "Writing any library of on-grid cells with distinct names and reading the file into an empty library yields the same cells in the same order under the same names, each with the same elements in the same order, with references resolved to the cells of the new library whenever a cell of that name is in the file, and the library name and units.", "quantifier": "all libraries: any number of cells, elements, and reference structures (including unresolved names)", "why_tests_cant": "end-to-end property over unbounded data.", "anchors": ["gdspy/library.py:GdsLibrary.write_gds", "gdspy/library.py:GdsLibrary.read_gds"]}
{"id": "C20", "title": "Import renaming and layer maps are applied uniformly", "statement": "With rename/rename_template/layers/datatypes/texttypes arguments, reading gives exactly the library that plain reading gives with the maps applied to every cell name, reference name, layer, datatype and texttype: references keep pointing at the renamed cells.", "quantifier": "all files produced by write_gds and all (injective) renamings and all maps", "why_tests_cant": "arbitrary user functions over unbounded data.", "anchors": ["gdspy/library.py:GdsLibrary.read_gds"]}
{"id": "C21", "title": "Grid rounding error bound", "statement": "Every coordinate written by polygons, labels, references and flexible paths is moved by at most half of the library precision; coordinates on the grid are not moved; and rounding is monotone. (RobustPath in GDSII-path mode truncates instead, so it can move coordinates by almost a full grid step.)", "quantifier": "all rational coordinates and precisions", "why_tests_cant": "continuum of coordinates and ties.", "anchors": ["gdspy/polygon.py:PolygonSet.to_gds", "gdspy/label.py:Label.to_gds", "gdspy/path.py:FlexPath.to_gds", "gdspy/path.py:RobustPath.to_gds"]}
{"id": "C22", "title": "Library keys match cell names", "statement": "Starting from an empty library, after any sequence of new_cell, add, remove, rename_cell, replace_references and reads (successful or raising), every cell in the library is filed under its own name; hence names are unique.", "quantifier": "all finite operation histories, all cell graphs, all iteration orders of the cell set in add", "why_tests_cant": "unbounded histories with errors in the middle.", "anchors": ["gdspy/library.py:GdsLibrary.add", "gdspy/library.py:GdsLibrary.remove", "gdspy/library.py:GdsLibrary.rename_cell", "gdspy/library.py:GdsLibrary.replace_references"]}
{"id": "C23", "title": "Adding a duplicate is refused and harmless", "statement": "add without overwrite_duplicate raises exactly when some cell to be added clashes with a different cell of the same name; adding a single cell without dependencies then leaves the library unchanged. (For several cells the library is left partly updated: the code is not atomic.)", "quantifier": "all libraries and all sets of cells, all set iteration orders", "why_tests_cant": "depends on the unspecified iteration order of a set.", "anchors": ["gdspy/library.py:GdsLibrary.add"]}
{"id": "C24", "title": "Adding with dependencies closes the library", "statement": "After add(cell) with include_dependencies succeeds, the library contains the cell and every cell reachable from it through references, and it had every other cell unchanged.", "quantifier": "all acyclic cell graphs of any depth", "why_tests_cant": "unbounded reference depth and sharing.", "anchors": ["gdspy/library.py:GdsLibrary.add", "gdspy/library.py:Cell.get_dependencies"]}
{"id": "C25", "title": "Overwriting redirects all references", "statement": "After add(new, overwrite_duplicate=True, update_references=True), in every cell that was in the library before and still is, no reference points to a different cell with that name (or to the name as a string): they all point to the new one; all other references are unchanged. With update_references=False no reference changes. (References held by the new cell itself are not updated: a new cell that refers to the replaced one keeps doing so.)", "quantifier": "all libraries and reference graphs", "why_tests_cant": "all cells and references must be visited.", "anchors": ["gdspy/library.py:GdsLibrary.add", "gdspy/library.py:GdsLibrary.replace_references"]}
{"id": "C26", "title": "Removing a cell removes exactly its references", "statement": "After remove(cell) the name is not in the library, no remaining cell references that name, all other references stay in order, and the returned count is the number of references removed; with remove_references=False references are untouched and 0 is returned.", "quantifier": "all libraries and cells", "why_tests_cant": "counts over unbounded reference lists.", "anchors": ["gdspy/library.py:GdsLibrary.remove"]}
{"id": "C27", "title": "Renaming keeps the reference graph", "statement": "rename_cell either raises and changes nothing, or moves the cell to the new key; afterwards references that pointed to the cell still do, and references that named the old name as a string (or pointed to a same-named cell) point to the cell; the number returned counts exactly these updated references; all others unchanged.", "quantifier": "all libraries, cells and names", "why_tests_cant": "identity versus name matching interplay over all references.", "anchors": ["gdspy/library.py:GdsLibrary.rename_cell", "gdspy/library.py:GdsLibrary.replace_references"]}
{"id": "C28", "title": "top_level returns exactly the unreferenced cells", "statement": "top_level returns every library cell that no library cell references (by object), and no other; in a non-empty library whose cell graph is acyclic it is not empty.", "quantifier": "all libraries and cell graphs", "why_tests_cant": "existence in every finite acyclic graph is a graph theorem.", "anchors": ["gdspy/library.py:GdsLibrary.top_level", "gdspy/library.py:Cell.get_dependencies"]}
{"id": "C29", "title": "Dependencies are exactly the reachable cells", "statement": "get_dependencies(recursive=True) returns exactly the set of cells reachable by one or more references (unresolved names excluded) whenever the cell graph is acyclic below the cell; on a cyclic graph it never returns normally (recursion without bound). get_dependencies(False) returns exactly the direct ones.", "quantifier": "all finite cell graphs", "why_tests_cant": "unbounded depth, sharing; divergence is a property of infinite runs.", "anchors": ["gdspy/library.py:Cell.get_dependencies"]}
{"id": "C30", "title": "Polygon queries by specification agree with the flat query", "statement": "For every cell hierarchy, the polygons returned by get_polygons(), those in the values of get_polygons(by_spec=True), and those of get_polygons((layer, datatype)) are consistent: the entry for a key equals the tuple query (same order), and the flat list is a permutation of the union of the entries. (Arrays with magnification 0 excepted: the by_spec form ignores that magnification.)", "quantifier": "all hierarchies, all layer/datatype assignments, every depth limit", "why_tests_cant": "three separately coded recursive traversals over unbounded trees.", "anchors": ["gdspy/library.py:Cell.get_polygons", "gdspy/library.py:CellReference.get_polygons", "gdspy/library.py:CellArray.get_polygons"]}
{"id": "C31", "title": "Depth limit semantics", "statement": "get_polygons with depth at least the height of the hierarchy equals get_polygons without limit; for depth d >= 0, references deeper than d levels appear as one rectangle equal to the bounding box of the referenced cell, transformed. get_polygonsets, get_paths and get_labels with depth d return what they return for the hierarchy without the references more than d levels down.", "quantifier": "all hierarchies and depths", "why_tests_cant": "unbounded trees.", "anchors": ["gdspy/library.py:Cell.get_polygons"]}
{"id": "C32", "title": "Flattening preserves geometry", "statement": "After flatten() the cell has no references and get_polygons(), get_polygons(by_spec), get_labels and area() give the same polygons/labels/area as before (up to order); with single_layer/single_datatype, geometry is unchanged and every element has the requested layer/datatype. (Label texttype handling deviates: it is overwritten with single_texttype, even None, whenever single_datatype is given.)", "quantifier": "all hierarchies (cells, references, arrays, any transformation)", "why_tests_cant": "unbounded trees with composed transformations.", "anchors": ["gdspy/library.py:Cell.flatten", "gdspy/library.py:Cell.get_polygonsets", "gdspy/library.py:CellReference.get_polygonsets", "gdspy/library.py:CellArray.get_polygonsets"]}
{"id": "C33", "title": "Area of a hierarchy", "statement": "The area reported for a cell equals the sum of the areas of all its polygons as returned by get_polygons(), i.e. transformations contribute exactly magnification squared and arrays contribute columns x rows; the by_spec areas add up to the total area.", "quantifier": "all hierarchies and transformations with unit-determinant rotation part", "why_tests_cant": "real-valued transformations over unbounded trees.", "anchors": ["gdspy/library.py:Cell.area", "gdspy/library.py:CellReference.area", "gdspy/library.py:CellArray.area", "gdspy/polygon.py:PolygonSet.area"]}
{"id": "C34", "title": "Bounding boxes are exact", "statement": "get_bounding_box of a cell computed afresh is the smallest axis-aligned box containing all polygons of get_polygons(), for any nesting of references and arrays at cardinal and non-cardinal rotations; it is None exactly when there are no polygons.", "quantifier": "all hierarchies and transformations", "why_tests_cant": "shortcut through child boxes must be sound for every cardinal rotation/reflection/magnification sign.", "anchors": ["gdspy/library.py:Cell.get_bounding_box", "gdspy/library.py:CellReference.get_bounding_box", "gdspy/library.py:CellArray.get_bounding_box"]}
{"id": "C35", "title": "Bounding-box cache is never stale", "statement": "get_bounding_box returns the same result as a fresh computation after any history of add, remove_*, flatten and queries. (The code violates this; it holds for histories in which no cell is changed while a cell that depends on it has a cached box; flatten never invalidates a right cache.)", "quantifier": "all operation histories over all cell graphs", "why_tests_cant": "staleness depends on the whole history of calls.", "anchors": ["gdspy/library.py:Cell.get_bounding_box", "gdspy/library.py:Cell.add", "gdspy/library.py:Cell.remove_polygons", "gdspy/library.py:Cell.flatten"]}
{"id": "C36", "title": "Layer, datatype and class listings are complete", "statement": "get_layers, get_datatypes and get_svg_classes return exactly the layers, datatypes and pairs used by polygons, paths and labels in the whole hierarchy. get_texttypes should too, but raises AttributeError as soon as the cell has any reference.", "quantifier": "all hierarchies", "why_tests_cant": "unbounded trees.", "anchors": ["gdspy/library.py:Cell.get_layers", "gdspy/library.py:Cell.get_datatypes", "gdspy/library.py:Cell.get_texttypes", "gdspy/library.py:Cell.get_svg_classes"]}
{"id": "C37", "title": "Transformed cell copies are geometrically right", "statement": "Cell.copy with translation/rotation/scale/x_reflection gives a cell whose polygons are the images of the original's polygons under that transformation, and the original is unchanged. (Violated for references with x_reflection=True, and for arrays when scale != 1 because spacing is not scaled; holds otherwise.)", "quantifier": "all cells and transformation parameters", "why_tests_cant": "algebra over all parameter values.", "anchors": ["gdspy/library.py:Cell.copy"]}
{"id": "C38", "title": "Selective removal is exact", "statement": "remove_polygons / remove_paths / remove_labels remove exactly the items satisfying the test and keep the rest in order; layers and datatypes stay attached to their polygons; polygon sets left empty disappear.", "quantifier": "all cells and all tests", "why_tests_cant": "index-shifting while deleting; all predicate patterns.", "anchors": ["gdspy/library.py:Cell.remove_polygons", "gdspy/library.py:Cell.remove_paths", "gdspy/library.py:Cell.remove_labels"]}
{"id": "C39", "title": "Label placement through references", "statement": "get_labels returns, for each label and each reference path down to it, a copy placed at the image of its position under the composed transformation, and the stored labels are unchanged. With set_transform=True the reflection flag should be the parity of the reflections above it; the code instead toggles at every level.", "quantifier": "all hierarchies", "why_tests_cant": "composition over unbounded reference chains.", "anchors": ["gdspy/library.py:Cell.get_labels", "gdspy/library.py:CellReference.get_labels", "gdspy/library.py:CellArray.get_labels"]}
{"id": "C40", "title": "Arrays are grids of references", "statement": "A CellArray with c columns and r rows yields the same polygons (same order) as the c*r references placed at the lattice points of the reflected/rotated spacing vectors; in list and by_spec form alike. (The by_spec form ignores a magnification of 0.)", "quantifier": "all counts, spacings, origins and transformations", "why_tests_cant": "all counts and real parameters.", "anchors": ["gdspy/library.py:CellArray._transform_polygons", "gdspy/library.py:CellReference._transform_polygons"]}
{"id": "C41", "title": "Reference transformations compose", "statement": "The polygons of a reference to a cell that contains a reference equal the polygons of the innermost cell mapped by the composition of two similarity transformations, which itself is expressible as a single reference (origin, rotation sum with reflection sign, product of magnifications, xor of reflections).", "quantifier": "all parameters", "why_tests_cant": "algebraic identity over reals.", "anchors": ["gdspy/library.py:CellReference._transform_polygons"]}
{"id": "C42", "title": "Polygon set transformations are the documented affine maps", "statement": "translate, rotate, scale and mirror move every vertex by the documented affine map; mirror is an involution fixing its axis; rotations about a centre fix it and add; translations add; layers, datatypes and vertex counts never change.", "quantifier": "all polygon sets, all parameters", "why_tests_cant": "algebraic identities over reals.", "anchors": ["gdspy/polygon.py:PolygonSet.translate", "gdspy/polygon.py:PolygonSet.rotate", "gdspy/polygon.py:PolygonSet.scale", "gdspy/polygon.py:PolygonSet.mirror"]}
{"id": "C43", "title": "Area is a geometric invariant", "statement": "The area of a polygon does not depend on the starting vertex or direction, is unchanged by translate, rotate and mirror, is multiplied by |sx*sy| by scale, is |width*height| for a Rectangle, and area(by_spec) sums to area().", "quantifier": "all polygons with any number of vertices and all parameters", "why_tests_cant": "unbounded vertex lists over reals.", "anchors": ["gdspy/polygon.py:PolygonSet.area", "gdspy/polygon.py:Rectangle"]}
{"id": "C44", "title": "Fracture respects the vertex limit and keeps bookkeeping", "statement": "When fracture(max_points>4) returns, every polygon has at most max_points vertices, layers and datatypes lists have the same length as polygons, every resulting polygon carries the layer and datatype of the polygon it came from, and (with an exact slicer) the covered region per specification is unchanged; with max_points <= 4 nothing changes; it terminates if each slicing yields pieces with fewer vertices.", "quantifier": "all polygon sets, limits, and slicers", "why_tests_cant": "loop with in-place insertion/deletion over unbounded input.", "anchors": ["gdspy/polygon.py:PolygonSet.fracture"]}
{"id": "C45", "title": "Path construction keeps polygon bookkeeping aligned", "statement": "After any sequence of segment, arc, turn, parametric, bezier and smooth calls that return (none raises) on a Path, the layers and datatypes lists are as long as the polygons list, and each call cycles through the given layer list. (A call that raises may leave the lists misaligned.)", "quantifier": "all call sequences and layer lists", "why_tests_cant": "unbounded histories.", "anchors": ["gdspy/polygon.py:Path"]}
{"id": "C46", "title": "Path end point tracking", "statement": "After segment/turn calls the path's (x, y) and direction equal the documented displacement; moving in the four axis directions with axis_offset 0 and arbitrary lengths accumulates exactly.", "quantifier": "all sequences of segments and turns", "why_tests_cant": "unbounded histories.", "anchors": ["gdspy/polygon.py:Path.segment", "gdspy/polygon.py:Path.turn"]}
{"id": "C47", "title": "L1Path end point", "statement": "After construction, an L1Path's (x, y) is the initial point displaced by the signed lengths along the alternating axes. (Violated when the last segment points in -y: an earlier length is subtracted.)", "quantifier": "all turn sequences and lengths", "why_tests_cant": "depends on parity/direction of arbitrarily long turn sequences.", "anchors": ["gdspy/polygon.py:L1Path"]}
{"id": "C48", "title": "Vertex limits of round shapes", "statement": "Round splits its boundary in pieces so that every polygon has at most max_points vertices (pie/ring pieces included), with as many layers and datatypes as polygons; the vertices lie on the two outlines, consecutive pieces share their cut, and arcs and parametric sections of a Path obey their limits too.", "quantifier": "all numbers of points and limits", "why_tests_cant": "integer-division boundary cases.", "anchors": ["gdspy/polygon.py:Round"]}
{"id": "C49", "title": "Text layout", "statement": "Text places every character of a string at the documented grid cell: newline resets the column and moves one line, tab moves to the next tab stop (cells 3, 7, 11, ... of the line, strictly ahead), every other character advances one cell; layers/datatypes match polygons; different characters never overlap.", "quantifier": "all strings, both directions", "why_tests_cant": "unbounded strings with interacting tabs and newlines.", "anchors": ["gdspy/polygon.py:Text"]}
{"id": "C50", "title": "Slicing partitions the polygons", "statement": "slice returns len(positions)+1 entries; with an exact clipper, entry i covers the points of the polygons between consecutive sorted positions: entries are disjoint (up to the cut lines) and their union is the input, for positions inside or outside of the bounding box; entry i has the i-th layer/datatype cyclically, or is None when nothing lies there.", "quantifier": "all polygon lists, all position lists (unsorted, repeated, outside)", "why_tests_cant": "continuum of positions; unbounded lists.", "anchors": ["gdspy/operation.py:slice", "gdspy/clipper.cpp:chop"]}
{"id": "C51", "title": "Boolean operations follow set algebra", "statement": "boolean(A, B, op) covers the union, intersection, symmetric difference or difference of the regions covered by A and B, returning None when empty, including when B is empty. (Violated: 'and' with an empty second operand intersects A's last polygon with the others, and 'or'/'and' with both empty raises IndexError.)", "quantifier": "all operand lists incl. empty ones, all operations", "why_tests_cant": "special-case code path depends on emptiness; regions are infinite sets.", "anchors": ["gdspy/operation.py:boolean", "gdspy/operation.py:_gather_polys"]}
{"id": "C52", "title": "Point-in-polygon with pre-filtering is the plain test", "statement": "inside(points, polygons) answers for each point whether some polygon contains it (boundary included), i.e. bounding-box prefilters never change the answer; for groups, 'any' is the disjunction over the group and 'all' the conjunction.", "quantifier": "all integer (grid) points and polygons, all groups", "why_tests_cant": "prefilter soundness quantifies over every polygon shape: it is a parity theorem.", "anchors": ["gdspy/clipper.cpp:inside", "gdspy/clipper.cpp:PointInPolygon", "gdspy/operation.py:inside"]}
{"id": "C53", "title": "Operands are gathered completely", "statement": "Every polygon of every operand is used exactly once and in order by slice/offset/boolean/inside whatever mix of polygon sets, paths, references and vertex arrays is given. (Violated: a FlexPath inside a list is passed through unconverted.)", "quantifier": "all operand mixtures", "why_tests_cant": "unbounded mixtures of types.", "anchors": ["gdspy/operation.py:_gather_polys"]}
{"id": "C54", "title": "Orientation normalisation", "statement": "Before clipping, every polygon is oriented so that its signed area is non-negative, with the same set of vertices and cyclic order up to reversal, so results do not depend on the drawing direction of the operands.", "quantifier": "all polygons", "why_tests_cant": "unbounded vertex lists.", "anchors": ["gdspy/clipper.cpp:parse_polygon"]}
{"id": "C55", "title": "Adaptive curve sampling", "statement": "When a curve section is sampled adaptively, the first and last sample are the exact end points, parameters are strictly increasing, and on exit every sampled interval satisfies the tolerance test; samples are actual curve points.", "quantifier": "all curve functions, tolerances; every refinement history", "why_tests_cant": "loop invariant over an adaptive, unbounded refinement.", "anchors": ["gdspy/curve.py:Curve.C", "gdspy/curve.py:Curve.arc", "gdspy/path.py:_SubPath.points"]}
{"id": "C56", "title": "Sub-path sampling budget", "statement": "Sampling of a robust-path section never produces more than max(max_evals, initial) points, always terminates, keeps end points, and either meets the tolerance or exhausts max_evals.", "quantifier": "all functions, tolerances, limits", "why_tests_cant": "adaptive loop over arbitrary functions.", "anchors": ["gdspy/path.py:_SubPath.points"]}
{"id": "C57", "title": "Curve pen semantics", "statement": "Curve commands move the pen as documented: absolute commands end at the last given point, relative commands are the absolute ones shifted by the pen position at the start of the call, H/V change one coordinate; the current point after any command sequence is the end of the last section; smooth commands S/T reflect the last control point only right after a compatible section.", "quantifier": "all command sequences", "why_tests_cant": "unbounded histories with remembered control points.", "anchors": ["gdspy/curve.py:Curve"]}
{"id": "C58", "title": "Bezier evaluation", "statement": "Bezier curves of any degree start at the first control point and end at the last, are affine invariant, stay in the convex hull (bounding box) of their control points, and reversing control points reverses the curve; quadratic and cubic commands agree with the general Bezier command.", "quantifier": "all degrees and control points, all parameters in [0,1]", "why_tests_cant": "all degrees, continuum of parameters.", "anchors": ["gdspy/path.py:_func_bezier", "gdspy/curve.py:Curve.B", "gdspy/curve.py:Curve.Q", "gdspy/curve.py:Curve.C"]}
{"id": "C59", "title": "FlexPath bookkeeping", "statement": "After any sequence of path construction calls a FlexPath has one width row and one offset row per spine point, each of n entries. (Violated when the path is created from a single point given as a flat pair.)", "quantifier": "all call sequences", "why_tests_cant": "unbounded histories.", "anchors": ["gdspy/path.py:FlexPath"]}
{"id": "C60", "title": "FlexPath polygon cache is coherent", "statement": "get_polygons/to_polygonset/area of a FlexPath (and RobustPath) after any sequence of construction and transformation calls equals what a never-queried identical path gives.", "quantifier": "all interleavings of queries and modifications", "why_tests_cant": "history-dependent caches.", "anchors": ["gdspy/path.py:FlexPath", "gdspy/path.py:RobustPath"]}
{"id": "C61", "title": "Transforming a path equals transforming its geometry", "statement": "transform applied to a path (as done when paths are extracted through references and arrays) places the spine and offset curves at the image of the original under the reference transformation. (Violated: FlexPath.transform with x_reflection does not mirror offsets; RobustPath.transform scales the array displacement by the magnification.)", "quantifier": "all paths and transformation parameters", "why_tests_cant": "algebra over reals; both features must be combined.", "anchors": ["gdspy/path.py:FlexPath.transform", "gdspy/path.py:RobustPath.transform", "gdspy/library.py:CellArray.get_paths", "gdspy/library.py:CellReference.get_paths"]}
{"id": "C62", "title": "SVG text is escaped", "statement": "The text of a label is written to SVG so that un-escaping gives back the same text and no markup character of the text appears unescaped.", "quantifier": "all strings", "why_tests_cant": "all strings.", "anchors": ["gdspy/label.py:Label.to_svg"]}
{"id": "C63", "title": "Unit conversion keeps physical sizes", "statement": "Reading a file with units='convert' into a library with a different unit multiplies every coordinate, width, extension and array spacing by the ratio of the units, so that physical sizes are kept, and leaves the unit and precision of the library alone; an unknown units argument raises ValueError before any cell is imported.", "quantifier": "all written libraries, all target units", "why_tests_cant": "must hold for every length-carrying record type at once.", "anchors": ["gdspy/library.py:GdsLibrary.read_gds"]}
{"id": "C64", "title": "SVG drawing shows the layout", "statement": "The document that Cell.write_svg writes, when drawn as SVG prescribes (nested groups, use elements, transform lists), shows exactly the polygons of the flattened hierarchy with their layers and datatypes, scaled, with the y axis up; everything is within the view box; labels are drawn upright at their positions; an empty cell writes nothing. (Holds if cell names stay distinct when number signs become underscores; otherwise one cell is drawn in place of the other.)", "quantifier": "all acyclic hierarchies, transformations, arrays, scalings", "why_tests_cant": "unbounded nesting of transformed references.", "anchors": ["gdspy/library.py:Cell.write_svg", "gdspy/library.py:Cell.to_svg", "gdspy/library.py:CellReference.to_svg", "gdspy/library.py:CellArray.to_svg", "gdspy/polygon.py:PolygonSet.to_svg", "gdspy/label.py:Label.to_svg"]}
{"id": "C65", "title": "A Path draws bands of the stated width", "statement": "Every construction call of Path (segment, arc, turn, parametric, bezier, smooth) draws, for each parallel path, polygons that cover exactly (segments) or outline (curves) the band of the stated width along the stated line: width and distance change from the old to the new values, parallel paths are centred on the axis, curved pieces follow each other without gaps over the whole curve, and the new end point, direction, width and distance are those at the end of the curve. Translating, rotating, scaling or mirroring a Path moves its polygons and makes later calls draw the image of what they would have drawn. (Violated for parallel paths: layers swap sides at right turns and at parametric sections; scale keeps the distance and the length; mirror keeps the order.)", "quantifier": "all paths, arguments and numbers of parallel paths", "why_tests_cant": "geometry of arbitrary curves over reals; the tests compare a few polygons.", "anchors": ["gdspy/polygon.py:Path"]}
{"id": "C66", "title": "Round shapes follow their curves within the tolerance", "statement": "The polygons of a Round have their vertices in order on the circle or ellipse (and on the inner one), the angles divided equally among the pieces, and every point of the circles is at most the tolerance away from the boundary; the vertices of an elliptical section are in the direction of the given angles. (Holds for discs in one piece. Violated for sections: the distance can be a multiple of the tolerance, and half a disc can vanish; an ellipse angle of 3 pi becomes 5 pi.)", "quantifier": "all centers, radii, angles, tolerances and limits", "why_tests_cant": "all radii and tolerances over the reals; the number of points is a rounded quotient.", "anchors": ["gdspy/polygon.py:Round"]}
{"id": "C67", "title": "fillet rounds every corner", "statement": "PolygonSet.fillet replaces every vertex where the direction changes by an arc of a circle that touches both edges, has the wanted radius where the edges are long enough and otherwise uses up 49% of the shorter part, turns as much as the corner, has the stated number of points and stays within the corner; vertices that repeat the one before are dropped, other vertices are kept; each vertex gets its radius as documented (one for all, one for each polygon, a list for each polygon, or one for each vertex); layers and datatypes are kept; polygons with too many vertices are fractured; a list of the wrong length raises ValueError. (Violated: a nested list of the wrong length raises TypeError.)", "quantifier": "all polygon sets without reversals, radii not negative, point densities", "why_tests_cant": "real geometry of arbitrary corners.", "anchors": ["gdspy/polygon.py:PolygonSet.fillet"]}
{"id": "C68", "title": "Smooth curves have the given directions", "statement": "The control points computed for Curve.i, Curve.I and the smooth methods of Path, FlexPath and RobustPath are those of Hobby's interpolating curve: at every point between two sections the curve has one direction, at points with a given angle that direction, elsewhere the mock curvatures agree; at open ends without angle they have the ratio given by the curl; closed curves have no special point. The curve depends on the directions only. (Violated: an angle that differs by a full turn gives another curve.)", "quantifier": "all numbers of points, angles, tensions and curls, open and closed, in exact arithmetic", "why_tests_cant": "systems of equations of any size; tests compare a few points of a few curves.", "anchors": ["gdspy/hobby.py:_hobby", "gdspy/curve.py:Curve.i", "gdspy/curve.py:Curve.I"]}
{"id": "C69", "title": "Polygons with holes become outlines with bridges", "statement": "Where the result of boolean, slice or offset has holes, each polygon with its holes is returned as one outline that covers exactly the polygon without the holes and has its area: every hole is joined by a horizontal bridge from its leftmost vertex to the next edge at the left, which no edge of the outline goes through; a polygon inside of a hole is returned on its own; the memory reserved suffices, and a bridge is found for every hole strictly inside. (Violated: the end of the bridge is rounded to the grid and bends a slanted edge by less than a grid unit; for a hole that touches a horizontal edge with its leftmost vertex the code uses an invalid iterator.)", "quantifier": "all polygon trees, any number and order of holes", "why_tests_cant": "all shapes and numbers of holes; the tests have one square with one hole.", "anchors": ["gdspy/clipper.cpp:link_holes", "gdspy/clipper.cpp:tree2paths"]}
{"id": "C70", "title": "The outline of a FlexPath follows its line at half its width", "statement": "Each polygon of a FlexPath runs along both sides of the centre line of its path: the spine moved to the left by the offset, with the moved edges joined where they meet; the sides are at half the width from the centre line, on both sides of it. Corners are drawn as documented: natural and miter corners where the sides meet (natural ones within the stated extension), bevel corners straight from side to side, round corners and circular bends as arcs that touch the sides, of the stated radius; so are the ends: flush, extended by half the width or by given lengths, round. Spine points that repeat the one before are ignored; every polygon is found under the layer and datatype of its path. Without sharp turns a path of constant width with straight ends has the area width times length. All of it is computed without an exception. (Violated: a round corner where the width changes is drawn on the wrong side; round ends or corners thinner than the tolerance and bends tighter than half the width raise ValueError.) The polygons of to_polygonset are those of get_polygons, none has more than max_points vertices, and area is the sum of their areas.", "quantifier": "all spines, widths, offsets, corner and end types", "why_tests_cant": "geometry over the reals for any number of points; the tests compare a few outlines.", "anchors": ["gdspy/path.py:FlexPath.get_polygons"]}
{"id": "C71", "title": "An L1Path draws bands along the axes", "statement": "The polygons of an L1Path are bands of the stated width along the line given by lengths and turns: parallel paths are the stated distance apart and centred on the line, the modulus of a turn multiplies width and distance in the next section, sections meet in mitred corners. Paths that exceed max_points are cut straight across, between the corners where the section is long enough for it, into pieces that follow each other without gap or overlap, so that the areas add up to width times length; each piece has the layer and datatype of its path. rotate turns polygons, end point and direction. (Violated: translate, as inherited, does not move the end point.)", "quantifier": "all starting points, directions, lengths, turns, numbers of paths and limits", "why_tests_cant": "arbitrarily long walks with any factors and limits.", "anchors": ["gdspy/polygon.py:L1Path"]}
{"id": "C72", "title": "Every call adds one section to all paths of a RobustPath", "statement": "segment, arc, turn, parametric, bezier and smooth add sections that follow the requested curve from the point where the path is, to all parallel paths: a number for the width or offset tapers from the current value (offsets by the number, list entries to the number), a function or list gives each path its own, omitted ones keep the current value, GDSII paths keep their width; the values at the end of the section become the current ones. The stored direction is the derivative of the curve. Whatever is called in between, translate, rotate, scale (by positive factors) and transform included, all paths keep the same number of sections, these follow each other without a gap and end where the path is, and the current offset and width are those at the end of the drawing: a section that goes on in the same direction begins where the last one ends, also at an offset. turn leaves the path tangentially. (Violated: the direction for turn is the average of the angles of the paths, so that paths to the west turn to the east; turn after a rotation looks in the old direction, see C61; scale by a negative number moves offsets to the other side; a call with a short list raises after it has changed some paths.)", "quantifier": "all sequences of calls and all arguments", "why_tests_cant": "unbounded sequences of calls with arbitrary functions; the tests draw a few paths.", "anchors": ["gdspy/path.py:RobustPath.segment", "gdspy/path.py:RobustPath.arc", "gdspy/path.py:RobustPath.turn", "gdspy/path.py:RobustPath.parametric", "gdspy/path.py:RobustPath.bezier", "gdspy/path.py:RobustPath.smooth", "gdspy/path.py:RobustPath._parse_offset", "gdspy/path.py:RobustPath._parse_width"]}
{"id": "C73", "title": "Reading into a library adds cells and links their references by name", "statement": "read_gds adds every cell of the file to the library under its (renamed) name, after those already there, as a new object with one new reference object per SREF or AREF. At the end of the file each of these refers to the cell that the library has under its name, whether it came with the file or was there before; references to other names stay names. Cells and references that existed before, in this library or others, are not changed. If a name is taken, ValueError is raised, and the cells before it stay in the library with references by name; without an ENDLIB record references stay names.", "quantifier": "all libraries, all files with any number of cells and references in any order", "why_tests_cant": "arbitrary graphs of objects shared between libraries; the tests read a few files into empty libraries.", "anchors": ["gdspy/library.py:GdsLibrary.read_gds", "gdspy/library.py:GdsLibrary._create_reference", "gdspy/library.py:GdsLibrary._create_array"]}
{"id": "C74", "title": "The outline of a RobustPath follows the sides of its sections", "statement": "Each polygon of a RobustPath is drawn across its end, back along the left sides of its sections, across its beginning and along their right sides. The line of a section is the offset away from its curve, its sides are half of the width away from that line, perpendicular to its direction; transformations magnify both. Every side is sampled so that each chord passes the tests of the tolerance, or with as many points as the limit allows. Where the sides of consecutive sections do not fit together they are cut at a common point (up to the tolerance) inside of a corner and extended to the point where their lines meet outside of it. Ends are flush, extended by half of the width or by the given lengths, or round. Every polygon is found under the layer and datatype of its path. A path of segments of constant width has the area width times length. (Violated: round ends narrower than the tolerance raise ValueError; where one side would have to be cut and the other extended, or no common point is found, the sides are left apart with a warning.)", "quantifier": "all paths of sections with a direction at their ends, all widths, offsets, ends, tolerances and limits", "why_tests_cant": "curves given by arbitrary functions, any number of sections; the tests compare a few outlines.", "anchors": ["gdspy/path.py:RobustPath.get_polygons", "gdspy/path.py:_SubPath.__call__", "gdspy/path.py:_SubPath.points", "gdspy/path.py:_SubPath.grad"]}
{"id": "C75", "title": "A PolyPath is the area between its sides", "statement": "Each path of a PolyPath is drawn between two sides, which are half of the width away from its line, that of parallel paths being the stated distance apart and centred; widths and distances at the points are joined by straight sides. At a corner a side goes to the point where the two straight sides meet; bevelled corners that are outer ones are cut off instead. Ends are flush, lengthened by half of the width, or half discs. Paths that exceed max_points are cut straight across into pieces that follow each other, which leaves the total area unchanged; each piece has the layer and datatype of its path. A single mitred path of constant width has the area width times length. With mitred corners no piece has more vertices than max_points. Wrong names for corners and ends raise ValueError. (Violated: round ends always have 33 vertices, pieces with bevelled corners can have six; points on a straight line can be cut into pieces of two vertices, or raise IndexError for a path that begins with width zero; for two points and one path the names are not checked and the old codes are ignored.)", "quantifier": "all lines of points, widths, distances, numbers of paths and limits", "why_tests_cant": "arbitrarily long lines with any angles and limits; the tests draw two paths.", "anchors": ["gdspy/polygon.py:PolyPath"]}
{"id": "C76", "title": "offset moves the sides of polygons by the distance", "statement": "The result of offset covers the points at a distance of up to distance from the polygons, or for a negative distance the points inside of them that are farther than that from the outside, up to what the joins add at corners and rounding to the precision. For polygons with horizontal and vertical sides and miter joins: the polygons with a rectangle added or removed at each side, and one at each corner with a gap. A rectangle becomes a rectangle with each side moved by the distance, or None when the sides meet. With join_first it is the union that is moved. A distance below half of the precision leaves the region of the polygons. An unknown join or a FlexPath in a list raises TypeError, precision zero ZeroDivisionError. (Violated: without join_first, where polygons overlap, shrinking removes points deep inside of the union.)", "quantifier": "all operands, distances, precisions and limits on vertices", "why_tests_cant": "all polygons and distances, with sides that collide; the tests offset a few squares.", "anchors": ["gdspy/operation.py:offset", "gdspy/clipper.cpp:ClipperOffset", "gdspy/clipper.cpp:offset"]}
{"id": "C77", "title": "offset draws the joins that are documented", "statement": "Around each polygon offset draws a contour of the sides, moved by the distance at right angles, and joins at the corners, all rounded to the precision: where the moved sides cross, they are joined over the corner; elsewhere miter joins are the point where the moved sides meet, unless it is farther from the corner than tolerance times the distance (tolerance being at least 2), in which case they are cut off; bevel joins are cut off; round joins are points on a circle of radius distance around the corner. Cuts are straight lines at the distance from the corner that make equal angles with the sides. Round joins have tolerance points per full circle. The result is the union of the contours. No point is farther from a corner than tolerance times the distance (miter), the square root of 2 times (bevel), the distance (round). (Violated: when shrinking, tolerance has no effect on round joins; a bevel join is not the straight line between the ends of the moved sides but a cut at the distance from the corner.)", "quantifier": "all polygons, distances, tolerances, precisions and joins", "why_tests_cant": "all angles and lengths of sides; the tests offset a few squares.", "anchors": ["gdspy/operation.py:offset", "gdspy/clipper.cpp:ClipperOffset", "gdspy/clipper.cpp:offset"]}
{"id": "C78", "title": "copy makes an independent, moved copy", "statement": "copy(obj, dx, dy) returns a new object that equals obj moved by (dx, dy): polygons, paths and labels are moved, a reference has its origin moved, so that its polygons are those of obj moved by (dx, dy). Everything that obj holds, directly or through cells and references, is copied into new objects as well, each of them once, and nothing that existed is changed. Afterwards no change of the original objects shows in the copy, and no change of the copy in the original objects. copy ends also for objects that contain themselves. Moving a cell raises AttributeError, moving a reference without origin TypeError. (Surprising, and proved: the copy of a CellReference or CellArray refers to a new cell with the same name, not to the same cell; adding a cell with such a copy to the library of the original raises ValueError.)", "quantifier": "all graphs of objects, with sharing and cycles, and all distances", "why_tests_cant": "arbitrary graphs of objects; the tests copy a rectangle.", "anchors": ["gdspy/operation.py:copy", "gdspy/library.py:CellReference.translate", "gdspy/library.py:CellArray.translate", "gdspy/label.py:Label.translate", "gdspy/polygon.py:PolygonSet.translate"]}
{"id": "C79", "title": "The viewer gives every layer a color and a pattern", "statement": "LayoutViewer draws each layer and datatype in the color and pattern given for it, otherwise in the default that was given, otherwise in an automatic one; the same whenever it is asked for. The automatic color is a valid Tk color (#rrggbb), the automatic pattern one of the first eight. Outlines and the names of hidden layers are told apart from every background. (Violated: the automatic color of a negative layer can be malformed, such as #ff-482b for layer -6, and Tk raises an error.)", "quantifier": "all layers, datatypes, dictionaries of colors and patterns, backgrounds", "why_tests_cant": "all pairs of layer and datatype; the viewer has no tests.", "anchors": ["gdspy/viewer.py:ColorDict", "gdspy/viewer.py:PatternDict", "gdspy/viewer.py:LayoutViewer.__init__"]}
{"id": "C80", "title": "The visibility filter shows what its text says", "statement": "A filter is a list of pairs (layers/datatypes), separated by commas, each side a list of numbers, ranges and stars, with white space between any two of these. Accepting one hides exactly the layers in the list that none of its pairs shows: a pair shows those whose layer is among its layers and whose datatype is among its datatypes. Any other text has no effect. Texts that can be read in two ways show the same.", "quantifier": "all texts and lists of layers", "why_tests_cant": "all strings over an unbounded alphabet and their parses; the viewer has no tests.", "anchors": ["gdspy/viewer.py:LayoutViewer._set_filter"]}
{"id": "C81", "title": "The viewer hides the layers that its list says", "statement": "Whatever clicks, filters and changes of the cell follow each other, exactly the layers in the list of hidden layers are drawn as hidden. A click on a layer changes its visibility and no other, a second click undoes it. A right click leaves the layer alone and gives all others in the list the same visibility, the opposite of that of the first. (Violated: a layer given twice in hidden_types is shown by a click but hidden again the next time the viewer draws; the default of hidden_types is one list that all viewers change, so that layers hidden in one viewer are hidden from the start in the next one; a filter does not apply to layers of cells shown later.)", "quantifier": "all sequences of actions, lists of hidden layers and cells", "why_tests_cant": "unbounded sequences of user actions; the viewer has no tests.", "anchors": ["gdspy/viewer.py:LayoutViewer._change_visibility", "gdspy/viewer.py:LayoutViewer._change_other_visibility", "gdspy/viewer.py:LayoutViewer._set_filter", "gdspy/viewer.py:LayoutViewer._update_data"]}
{"id": "C82", "title": "The drawing is stacked in the order of the list of layers", "statement": "The viewer draws the layers from bottom to top in the order of its list. The arrows next to a layer exchange it with its neighbour in the list and in the drawing; at the ends of the list they have no effect; one undoes the other. After any clicks on arrows the items are stacked as the list says, no item is lost, and the items of a layer keep their order.", "quantifier": "all lists of layers with any number of items and all sequences of clicks", "why_tests_cant": "unbounded sequences of user actions; the viewer has no tests.", "anchors": ["gdspy/viewer.py:LayoutViewer._raise", "gdspy/viewer.py:LayoutViewer._lower", "gdspy/viewer.py:LayoutViewer._update_data"]}
{"id": "C83", "title": "The viewer shows the whole cell, and zooms around the mouse", "statement": "A cell is shown with one scale for both directions, so that all of its polygons are in the window with a margin of 1/42 of its size, no larger than needed in one direction; an empty cell with the square of side 2 around the origin. The coordinates shown are those of the layout under the mouse. The wheel keeps the point under the mouse, the keys keep the point in the middle; a rectangle drawn by the user is in the window afterwards and as wide or high as the window. The ruler measures between points of the layout, also if the view is zoomed in between. (Violated: zooming out moves the point when the window would leave the scroll region; a cell with a single point has scale zero.)", "quantifier": "all cells, sizes of the window, positions of the mouse and rectangles", "why_tests_cant": "all coordinates and sizes; the viewer has no tests.", "anchors": ["gdspy/viewer.py:LayoutViewer._update_canvas", "gdspy/viewer.py:LayoutViewer._mouse_move", "gdspy/viewer.py:LayoutViewer._zoom", "gdspy/viewer.py:LayoutViewer._zoom_in", "gdspy/viewer.py:LayoutViewer._zoom_out", "gdspy/viewer.py:LayoutViewer._mouse_btn_1"]}
{"id": "C84", "title": "Libraries do not affect each other when cells are created", "statement": "lib.new_cell(name) depends on and changes only lib: it raises ValueError exactly when lib has a cell of this name and overwrite_duplicate is false. So a program that makes cells in several libraries runs to the end exactly when it asks no library twice for a name. (True when use_current_library is false; with the default every new cell is also put into the global library, so new_cell raises for a name used in any other library, and overwrite_duplicate=True does not help.) Cell(name, exclude_from_current=True) touches no library. lib.extract(cell) puts the cell and all cells reached from it into the global library under their names and changes no other library; it raises exactly when a name is taken by a different cell.", "quantifier": "all states of all libraries, names, sequences of calls of new_cell, and iteration orders of sets", "why_tests_cant": "unbounded sequences of operations over several libraries; every test switches the default off.", "anchors": ["gdspy/library.py:Cell.__init__", "gdspy/library.py:GdsLibrary.new_cell", "gdspy/library.py:GdsLibrary.extract", "gdspy/__init__.py:current_library"]}
{"id": "C85", "title": "A file cut short is read as a beginning of the layout", "statement": "Reading the first n bytes of a file that can be read, for any n, gives the first cells of the layout, the last of them with a beginning of its elements in their order, all elements as in the whole file (a reference may hold a name in place of the cell). A cut inside the numbers of a record raises an exception. Null bytes after the last record have no effect. (Violated: a cut inside the name of a cell gives an empty cell with a shorter name; every cut between two records is read without an exception, and without ENDLIB all references hold names.)", "quantifier": "all files, all positions of the cut and all arguments of read_gds", "why_tests_cant": "all files and all cuts; every test file is complete.", "anchors": ["gdspy/gdsiiformat.py:_record_reader", "gdspy/library.py:GdsLibrary.read_gds"]}
{"id": "C86", "title": "Rounding errors of doubles do not change stored coordinates", "statement": "With double-precision arithmetic in place of exact arithmetic: a coordinate that is a multiple of the precision, or the double nearest to one (such as 0.1 with a precision of 1 nm), is stored as that multiple; any other coordinate within 0.500001 database units of it. What read_gds returns for a stored coordinate is stored as the same again (units skip into a library of the same units, import, convert to the same precision; k times the number for a precision k times finer); so a library saved, read and saved again is the same file. (Violated: RobustPath with gdsii_path=True cuts coordinates off instead of rounding, and with the default units every coordinate of 1, 2, 3, ... um is stored one nm too small; importing units changes the unit of some libraries by an ulp.)", "quantifier": "all libraries without arrays whose coordinates fit in 32 bits, all units, every arithmetic that rounds to the nearest of the 53-bit numbers", "why_tests_cant": "all coordinates and units; tests use a few coordinates and compare with a tolerance.", "anchors": ["gdspy/library.py:GdsLibrary.write_gds", "gdspy/library.py:GdsLibrary.read_gds", "gdspy/library.py:Cell.to_gds", "gdspy/polygon.py:PolygonSet.to_gds", "gdspy/path.py:FlexPath.to_gds", "gdspy/path.py:RobustPath.to_gds", "gdspy/label.py:Label.to_gds"]}
{"id": "C87", "title": "Rounding errors do not move flattened polygons off the grid", "statement": "In double precision, when all coordinates, origins and spacings are multiples of the precision (or the nearest doubles), references and arrays are turned by multiples of 90 degrees, reflected or not, and nothing is magnified: the vertices returned by get_polygons and those of the flattened cell are stored exactly where integer arithmetic puts them, with their layers, although cos(90 degrees) is not computed as 0 and every addition is rounded.", "quantifier": "all hierarchies of up to 1000 levels without paths, arrays of any size, all units, coordinates of 32 bits", "why_tests_cant": "unbounded hierarchies, all coordinates; errors of a rounding accumulate over levels.", "anchors": ["gdspy/library.py:CellReference._transform_polygons", "gdspy/library.py:CellArray._transform_polygons", "gdspy/library.py:CellReference.get_polygonsets", "gdspy/library.py:CellArray.get_polygonsets", "gdspy/library.py:Cell.flatten", "gdspy/polygon.py:PolygonSet.to_gds"]}
{"id": "C88", "title": "What the functions on raw files do with a file cut short", "statement": "For the first n bytes of a file, for any n: get_binary_cells returns exactly the cells that are complete, with their bytes, and never the beginning of a cell; gdsii_hash feeds the digest with exactly the complete cells, or raises struct.error, the latter if and only if one to three bytes of the header of a record are left; set_gdsii_timestamp changes the time stamps of the complete records and nothing else, and never raises; get_gds_units returns None before the record of the units, raises struct.error inside it and returns the units of the whole file behind it. Null bytes after the last record have no effect. (Violated: set_gdsii_timestamp on a file cut inside a time stamp makes the file longer: it writes all 24 bytes of the stamp.)", "quantifier": "all files of records and all positions of the cut", "why_tests_cant": "all files and all cuts; every test file is complete.", "anchors": ["gdspy/gdsiiformat.py:_raw_record_reader", "gdspy/gdsiiformat.py:gdsii_hash", "gdspy/gdsiiformat.py:set_gdsii_timestamp", "gdspy/library.py:get_gds_units", "gdspy/library.py:get_binary_cells"]}
{"id": "C89", "title": "remove_polygons changes only its cell and leaves its elements usable", "statement": "remove_polygons on a cell does not change other cells, and the elements that stay can be used as before: moved, fractured, filleted, and placed by references that are flattened. (Violated: the elements get tuples for their polygons, layers and datatypes, even if nothing is removed. get_polygonsets and flatten of every cell that refers to the cell raise TypeError, flatten after it has already put the labels of the references into the cell, which are there twice then; fillet raises; fracture raises when a polygon has to be cut, and after a move it loses that polygon. Other cells with the same elements, such as shallow copies, lose the removed polygons, except those of elements of which nothing stays.)", "quantifier": "all hierarchies, tests, references and arrays, and all ways of sharing elements between cells", "why_tests_cant": "depends on what is done with the elements later and on which cells share them; the tests only look at the cell itself.", "anchors": ["gdspy/library.py:Cell.remove_polygons", "gdspy/library.py:Cell.copy", "gdspy/library.py:Cell.flatten", "gdspy/library.py:CellReference.get_polygonsets", "gdspy/library.py:CellArray.get_polygonsets", "gdspy/polygon.py:PolygonSet.fracture", "gdspy/polygon.py:PolygonSet.fillet"]}
{"id": "C90", "title": "Arrays returned by get_polygons are independent of the cell", "statement": "get_polygons() and get_polygons((layer, datatype)) return arrays whose contents are the polygons of the cell, and writing into the arrays returned changes no cell. (Violated for get_polygons() of cells with FlexPath or RobustPath: the arrays in the cache of the path are returned themselves, also through references without origin and transformation, so that writing into them changes the path in all later queries and files. Exactly these arrays are not new.)", "quantifier": "all hierarchies, layers and sequences of writes into the arrays returned", "why_tests_cant": "all hierarchies and writes; tests compare results of queries and do not write into them.", "anchors": ["gdspy/library.py:Cell.get_polygons", "gdspy/library.py:CellReference._transform_polygons", "gdspy/library.py:CellArray._transform_polygons", "gdspy/path.py:FlexPath.get_polygons", "gdspy/path.py:RobustPath.get_polygons"]}
{"id": "C91", "title": "How far saving moves the drawing of a hierarchy", "statement": "Write a library whose coordinates are not on the grid and read the file into an empty library. Then get_polygons() and get_polygons((layer, datatype)) of every cell return as many polygons with as many vertices, in the same order, as before, and every vertex is within sqrt(2)/2 precisions, times 1 + M + M^2 + ... + M^n, of where it was, for n levels of references with magnifications of at most M, whatever the rotations and reflections of the references. The bounding boxes differ by no more than that.", "quantifier": "all hierarchies, coordinates off the grid, rotations, reflections, magnifications, arrays and depths", "why_tests_cant": "the error depends on all roundings in the hierarchy; tests compare coordinates that are on the grid.", "anchors": ["gdspy/library.py:GdsLibrary.write_gds", "gdspy/library.py:GdsLibrary.read_gds", "gdspy/library.py:Cell.get_polygons", "gdspy/library.py:Cell.get_bounding_box", "gdspy/library.py:CellReference.to_gds", "gdspy/library.py:CellArray.to_gds", "gdspy/library.py:GdsLibrary._create_array"]}
{"id": "C92", "title": "Elements that are in a cell more than once", "statement": "get_polygonsets, get_paths, get_labels, flatten and Cell.copy with a transformation return the same values whether equal elements in a cell are one object added several times or different objects. (Violated: deepcopy of a list keeps such elements one object, which is then changed in place once for each time it is in the list. A reference at v to a cell that holds a label n times returns it moved by n*v; flatten moves polygons that are twice in a referenced cell, so get_polygons() differs before and after; CellArray is not affected. Exactly what is returned is proved for all hierarchies.)", "quantifier": "all hierarchies of references and arrays, all ways in which lists of elements hold an object several times, all depths and transformations", "why_tests_cant": "depends on the identity of objects in lists at all levels; tests add every element once.", "anchors": ["gdspy/library.py:Cell.get_polygonsets", "gdspy/library.py:Cell.get_paths", "gdspy/library.py:Cell.get_labels", "gdspy/library.py:Cell.flatten", "gdspy/library.py:Cell.copy", "gdspy/library.py:CellReference.get_polygonsets", "gdspy/library.py:CellReference.get_paths", "gdspy/library.py:CellReference.get_labels", "gdspy/library.py:CellArray.get_polygonsets", "gdspy/library.py:CellArray.get_paths", "gdspy/library.py:CellArray.get_labels"]}
{"id": "C93", "title": "Arcs of curves follow their ellipse within the tolerance", "statement": "Curve.arc adds points of the ellipse that starts at the end of the curve, at equal steps of the angle, in the given direction and with the given rotation, and no point of the arc is farther than the tolerance from the chain of points; FlexPath.arc does the same with the line of the path. The number of points is not larger than needed. (Violated: the number of segments is rounded to the nearest integer, so that n segments are within (1 + 1/(2n))^2 tolerances, 25/16 for two segments; an arc of 240 degrees can be 0.5 off with a tolerance of 0.36. FlexPath.arc raises ValueError when the sum of offset and width is -radius or less, although one of the two directions of the arc can be drawn.)", "quantifier": "all radii, angles, directions, rotations and tolerances of up to half of the larger radius", "why_tests_cant": "all radii and angles; the tests compare a few shapes with stored results.", "anchors": ["gdspy/curve.py:Curve.arc", "gdspy/path.py:FlexPath.arc"]}
{"id": "C94", "title": "Deep copies of cells are independent of the original", "statement": "Cell.copy (deep, the default with a transformation) makes a cell whose elements have the same attributes and properties, in the same order, and changes nothing that was there. Whatever is done later with the elements of the copy does not show in the original, nor the other way round. (Violated for references: the copies share the dictionary of properties with the references of the original, so that copy.references[i].properties[1] = 'x' changes the property in the original and in its file as well. Attributes of references and dictionaries that are assigned are independent.)", "quantifier": "all cells, all ways in which elements and dictionaries are shared before the copy, and all sequences of later changes", "why_tests_cant": "sequences of changes to either cell; tests look at the copy right after it is made.", "anchors": ["gdspy/library.py:Cell.copy", "gdspy/library.py:CellReference", "gdspy/library.py:CellArray"]}
{"id": "C95", "title": "Round parts of a FlexPath follow their circles within the tolerance", "statement": "With ends='round', corners='round' or corners='circular bend' the outline of a FlexPath is at no point of the half circles about its ends, of the arcs about its corners (on the outside of the turn) and of both arcs of its bends farther away than the tolerance. (Violated: the number of segments is rounded to the nearest integer. The bounds are 81/64 tolerances for ends, 49/36 for corners and 9/4 for bends. With tolerance 0.6, the outer side of a bend by 90 degrees with radius 3 in a path of width 2 is one segment, more than 1 from the arc.)", "quantifier": "all paths, widths, radii, turns and tolerances, for corners and bends all paths of constant width", "why_tests_cant": "all turns and radii; the tests compare a few shapes with stored results.", "anchors": ["gdspy/path.py:FlexPath.get_polygons"]}
{"id": "C96", "title": "A layout that was read from a file can be saved without loss", "statement": "Reading a file may change the layout (nodes are skipped, boxes become polygons, path types become end caps), but only once: if read_gds reads a file into an empty library without exception, with the units of the file, then write_gds saves that library without exception, and reading the saved file gives the same library: name, units, cells, elements, attributes and properties. (Violated: a boundary of one point is read as a polygon without points, and the library can then not be saved at all: write_gds raises IndexError.)", "quantifier": "all files whose records have the data types of the format, with reals of 53 bits", "why_tests_cant": "all sequences of records, including those that no writer produces; tests read files that were written by the library itself.", "anchors": ["gdspy/library.py:GdsLibrary.read_gds", "gdspy/library.py:GdsLibrary.write_gds", "gdspy/library.py:GdsLibrary._create_polygon", "gdspy/library.py:GdsLibrary._create_path", "gdspy/library.py:GdsLibrary._create_label", "gdspy/library.py:GdsLibrary._create_reference", "gdspy/library.py:GdsLibrary._create_array", "gdspy/polygon.py:PolygonSet.to_gds"]}
{"id": "C97", "title": "Files that follow the grammar of the format are read completely", "statement": "A file whose records follow the grammar of the GDSII stream format (HEADER to ENDLIB with all optional records, structures, and the elements BOUNDARY, PATH, SREF, AREF, TEXT, NODE and BOX with their optional records in the prescribed order), whoever wrote it, is read by read_gds without exception, and the library then has exactly the cells of the file in addition to its own, with all elements except nodes in the order of the file, their coordinates, layers, ends, widths, transformations, spacings, texts, anchors and properties as the format defines them, references linked to the cells of that name, for all units arguments, renames and layer maps. (Violated: a PATH without WIDTH record, which the format allows, raises TypeError; a PATH with PATHTYPE 4 and without extensions is read as extended by half of its width; the properties of a NODE are given to the next element, see C18. A text without PRESENTATION is read with anchor 'o'.)", "quantifier": "all files that follow the grammar, all arguments of read_gds, all libraries that the cells are added to", "why_tests_cant": "files of other programs use records and combinations that the library never writes; tests read what the library wrote.", "anchors": ["gdspy/library.py:GdsLibrary.read_gds", "gdspy/library.py:GdsLibrary._create_polygon", "gdspy/library.py:GdsLibrary._create_path", "gdspy/library.py:GdsLibrary._create_label", "gdspy/library.py:GdsLibrary._create_reference", "gdspy/library.py:GdsLibrary._create_array"]}
{"id": "C98", "title": "A save that raises leaves a file that is known to be incomplete", "statement": "GdsLibrary.write_gds(outfile, cells) writes exactly the cells that are asked for, by name or as objects, in that order, and returns only if the file is complete. When it raises (an unknown name, a layer or property number out of range, a text that is not ASCII, an empty polygon), the file holds complete cells before the one that raises, a beginning of that one and nothing else, and reading such a file raises or gives only what was meant to be in it. A program that catches the exception of GdsWriter.write_cell and goes on gets a file in which the other cells are right.", "quantifier": "all libraries, selections of cells, elements (polygon sets, paths, labels, references, arrays with any attributes), positions of the exception, sequences of write_cell calls", "why_tests_cant": "the file after an exception depends on which of several writes of an element raises, in every kind of element and at every position of the layout; tests look at files of calls that return", "anchors": ["gdspy/library.py:GdsLibrary.write_gds", "gdspy/library.py:Cell.to_gds", "gdspy/library.py:GdsWriter.write_cell", "gdspy/library.py:CellReference.to_gds", "gdspy/library.py:CellArray.to_gds", "gdspy/polygon.py:PolygonSet.to_gds", "gdspy/label.py:Label.to_gds", "gdspy/path.py:FlexPath.to_gds", "gdspy/library.py:GdsLibrary.read_gds"]}
{"id": "C99", "title": "gdspy.write_gds saves the global library with the settings of the call only", "statement": "The deprecated gdspy.write_gds(outfile, cells, name, unit, precision) writes the cells of gdspy.current_library as a library with that name and these units would, whatever calls came before and whether or not they raised; it does not change the cells; the file keeps the dimensions of the layout; afterwards the library has the settings that it had before. (Violated: the name and the units of the call stay in the library, also when the call raises; and the coordinates are taken as they are, so that the dimensions change by the quotient of the new and the old unit: a library that was read from a file in millimetres is written a thousand times smaller with the default unit=1e-6.)", "quantifier": "all global libraries, sequences of calls with any arguments, including calls that raise", "why_tests_cant": "the settings are global state: the result of a call could depend on every earlier call; tests make one call with the default units", "anchors": ["gdspy/__init__.py:write_gds", "gdspy/__init__.py:current_library", "gdspy/library.py:GdsLibrary.write_gds"]}
{"id": "C100", "title": "Properties are kept when a hierarchy is flattened", "statement": "get_polygonsets, get_paths, get_labels and flatten return every element of the hierarchy once for every way of references to its cell (down to the given depth, and for every column and row of arrays), each with the properties that the element has in its cell; nothing is given properties of another element, and references to names that were not found add nothing. Properties that were given to references are not lost by flatten. (Violated for references: their properties are dropped, whatever they are.)", "quantifier": "all hierarchies, depths, numbers of columns and rows, and properties", "why_tests_cant": "all hierarchies and all ways through them; no test looks at properties after flatten", "anchors": ["gdspy/library.py:Cell.get_polygonsets", "gdspy/library.py:Cell.get_paths", "gdspy/library.py:Cell.get_labels", "gdspy/library.py:Cell.flatten", "gdspy/library.py:CellReference.get_polygonsets", "gdspy/library.py:CellArray.get_polygonsets", "gdspy/library.py:CellReference.get_paths", "gdspy/library.py:CellArray.get_paths", "gdspy/library.py:CellReference.get_labels", "gdspy/library.py:CellArray.get_labels"]}
