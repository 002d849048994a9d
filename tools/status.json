{
 "C100": {
  "status": "partial",
  "note": "proved for all well-formed path data without a sign in exponents, without closing an empty subpath, without lines of length 0 after a curve, and with lines not shorter than epsilon; negations: C100_exponent_wrong, C100_close_wrong, C100_zero_line_wrong; arithmetic is exact"
 },
 "C101": {
  "status": "partial",
  "note": "references proved for any transformation and any permutation; that points are distinct needs a transitive comparison, which the epsilon comparison of the code is not; arithmetic is exact"
 },
 "C102": {
  "status": "partial",
  "note": "proved over the real numbers for arcs that are not flat and not small; negations: C102_flat_wrong, C102_small_wrong"
 },
 "C103": {
  "status": "partial",
  "note": "characterised: it aborts iff nothing is drawn; negation: C103_abort_wrong"
 },
 "C104": {
  "status": "partial",
  "note": "well-formed values: full; other values may be accepted or have an effect: C104_prefix_wrong, C104_count_wrong, C104_error_wrong"
 },
 "C105": {
  "status": "partial",
  "note": "y, cy need x, cx (C105_y_wrong); lines not shorter than the epsilon; crashes: C105_circle_wrong, C105_abort_wrong"
 },
 "C106": {
  "status": "partial",
  "note": "the layer element needs a transform attribute: C106_layer_wrong; nested svg elements are a parameter"
 },
 "C107": {
  "status": "partial",
  "note": "for equal aspect ratios; otherwise wrong: C107_default_wrong, C107_align_wrong; C107_center_wrong: uninitialised values"
 },
 "C11": {
  "status": "proved",
  "note": "Proved for positive divisors; the theorem C11_negative_divisor_wrong shows the code is wrong for negative divisors (3/-3 gives 0)."
 },
 "C110": {
  "status": "partial",
  "note": "C110_vertices holds for every run. C110_edges_partial assumes that the trees of bundles are sorted when they are searched, so that the edges selected for a pixel are those that compare equal to it."
 },
 "C111": {
  "status": "partial",
  "note": "Reports are right (C111_sound) and exactly crossings and partial overlaps are found (C111_exact). Junctions, documented, are not found (C111_junction_wrong); for a partial overlap the point reported need not be common (C111_point_wrong)."
 },
 "C113": {
  "status": "partial",
  "note": "holds for trees without modifiers and bare blocks whose floating point numbers are printed as read; false otherwise: modifiers are dropped (C113_modifier_wrong), a block is printed as '{()' which is rejected (C113_block_wrong), 2.0 is printed as 2 and read as integer (C113_float_wrong); printf of floating point is a parameter"
 },
 "C116": {
  "status": "partial",
  "note": "Proved for all trees whose objects are dumped properly and whose numbers are printed so that they are read back. The code is wrong for import and surface (wrong parameter name), text (parameters that do not exist, tracking lost), color(undef) (no colour), polygons of fewer than three points without paths, and angles or $fa, $fs with more than six digits: theorems _wrong."
 },
 "C117": {
  "status": "partial",
  "note": "Proved for all doubles except 0 and those of absolute value 2^53 and more (C117_sin_partial, C117_cos_partial); for those, the table is never used and the C library decides (C117_angle_wrong)."
 },
 "C119": {
  "status": "partial",
  "note": "Pages, shapes, page count proved in full; the bounding box is proved for all corners and vertices, but the discs drawn for vertices are not in it (C119_dots_wrong); fitting is proved for boxes with y_max > x_min, the condition the code tests, and fails otherwise (C119_fit_wrong)."
 },
 "C12": {
  "status": "partial",
  "note": "The claim is false for the code (C12_spurious_overflow); proved: exact characterisation of when it returns."
 },
 "C120": {
  "status": "partial",
  "note": "False for settings that are no power of two (C120_bits_wrong), for settings below epsilon (C120_down_wrong), and for bodies that are only subtracted (C120_subtracted_wrong: the box ignores them, and the conversion overflows). For powers of two and the points of the bounding box everything is proved."
 },
 "C121": {
  "status": "partial",
  "note": "False for --opt-skip-empty and --opt-drop-collinear, generated opposites without effect (C121_negation_wrong), and the value of an option without argument is ignored, e.g. --stl-bin=no (C121_ignored_wrong). The rest is proved for all options."
 },
 "C122": {
  "status": "partial",
  "note": "False: -1 is a number and a colour, numbers of 2^64 and more become 2^64-1, seven hexadecimal digits are a colour (C122_number_wrong, C122_rgb_wrong). What is accepted is characterised."
 },
 "C123": {
  "status": "partial",
  "note": "C123_dump_partial: for every tree of balls and solids whose form is that of trees made from programs (C123_shape: all of them have it), the dump is a program and gives the same tree if unknown parameters are accepted. The rest is false: C123_ball_wrong (sphere is printed with the unknown parameter center), C123_xor_wrong (hob3l_xor is not a functor), C123_root_wrong (several !)."
 },
 "C124": {
  "status": "proved",
  "note": "layers as the boolean operations make them (polygons only)"
 },
 "C125": {
  "status": "partial",
  "note": "The callback is not called for the first node inserted into an empty tree; its value must be stored by the caller (C125_insert_end has this as a hypothesis, C125_insert_first_wrong shows the failure). All other operations are proved without restriction."
 },
 "C127": {
  "status": "partial",
  "note": "Proved for less than 100 edges on each side of the edge known to the crossing; with 100 or more the code fails an assertion (C127_phase1_wrong, C127_phase2_wrong). Which pairs intersect in the crossing is a parameter."
 },
 "C128": {
  "status": "partial",
  "note": "Points and outcome are proved for all parameters that are not within epsilon of a special value (height 1, twist 0, scale 0) without being equal to it. Sides are flat without twist and with equal scales (C128_sides_planar_partial); with twist they are triangles; with different scales and no twist they are not flat (C128_sides_planar_wrong). A negative scale is not taken as 0 in the levels (C128_negative_wrong)."
 },
 "C129": {
  "status": "partial",
  "note": "Proved for all parameters that are not within epsilon of a special value (size 1, smaller radius 0 compared to the larger one) without being equal to it. A frustum with a small top compared to its bottom becomes a cone (C129_cylinder_cone_wrong); a cylinder with one negative radius is accepted (C129_cylinder_negative_wrong)."
 },
 "C13": {
  "status": "proved",
  "note": "For edges stored left to right, as the sweep does; C13_orientation_needed shows the restriction is necessary."
 },
 "C130": {
  "status": "partial",
  "note": "Proved for outlines of different points on one side of the axis, with the limit for $fn at least 3; an assertion fails if all points are within epsilon of the axis (C130_axis_wrong)."
 },
 "C131": {
  "status": "partial",
  "note": "The code is wrong where a failing run empties the output file, where input and output are the same file, where there is no input file, and for small values of --gran (the _wrong theorems); the other parts are proved."
 },
 "C132": {
  "status": "partial",
  "note": "Proved for points with coordinates that are equal or at least epsilon apart; otherwise the comparison used for sorting contradicts itself (C132_sort_wrong)."
 },
 "C133": {
  "status": "partial",
  "note": "SVG files that begin with white space or with a prefixed element are taken for STL files (C133_svg_wrong); the other parts are proved. The readers of XML and SVG are abstract here (see C97-C107)."
 },
 "C134": {
  "status": "partial",
  "note": "Proved for requests of at least one element. For 0 elements the code divides by zero in malloc, and stops with 'Out of memory' when an empty array without memory keeps size 0 (C134_zero_wrong). Addresses and freeing are not modelled."
 },
 "C135": {
  "status": "partial",
  "note": "Proved for places inside of lines of ASCII (C135_mark_partial), with two places (C135_second). Wrong: no column and no mark after a byte that is not ASCII (C135_binary_wrong) nor at the end of a file (C135_end_wrong); wrong lines at line starts are C47. Lines of 512 MB and more are excluded (the column is cast to int)."
 },
 "C136": {
  "status": "partial",
  "note": "halign, and keywords after :style=, proved for all texts and names. The code is wrong for valign (it is ignored; halign is tested instead), for keywords that are not after :style= (the manual says they count), for programs without fonts (text is dropped silently), and for surface (the program panics instead of reporting an error with its place): C136_valign_wrong, C136_style_wrong, C136_silent_wrong, C136_surface_wrong."
 },
 "C137": {
  "status": "partial",
  "note": "Complete characterisation for all files that the XML reader accepts (C137_drawn, C137_parsed); as claimed if all elements have a namespace. The code is wrong for elements that have no namespace inside of an svg element that has one by a prefix: they are drawn (C137_none_wrong)."
 },
 "C17": {
  "status": "proved",
  "note": "For the default setting of the skip-empty switch. The plane sweep is a parameter whose contract (result = Boolean combination of its inputs) is a hypothesis; an instance is exhibited."
 },
 "C19": {
  "status": "partial",
  "note": "The claim is false for the code: C19_wrong gives a tree where switching the optimisation off changes the result. Proved: it holds whenever the tree has at most min(limit,10) polygons at that height."
 },
 "C20": {
  "status": "proved",
  "note": "Functions ev_overlap, ev_split, ev_pair. Membership of edges in the search trees is modelled by flags; crossing records are only modelled as 'scheduled or not'."
 },
 "C22": {
  "status": "proved",
  "note": "Scan line events are modelled at the level of vertices: the place of a vertex in the state is given (geometric search is C23_tree), edges ending at a vertex are adjacent, and outlines are closed (C21_add_path, C20)."
 },
 "C28": {
  "status": "proved",
  "note": "C28_insert_update_at_null_wrong shows that the variant with cached extrema does not update them when inserting at a NULL position of a non-empty tree."
 },
 "C35": {
  "status": "partial",
  "note": "The claim is false for the code: the size field is one too large after making a heap of two or more elements (C35_vec_make_wrong). Proved: the elements are permuted into heap order, with right indices, and other memory is untouched."
 },
 "C36": {
  "status": "partial",
  "note": "The claim is false for the code when a part of a vector is inserted into itself at an overlapping or near position (C36_insert_self_wrong, exact condition) or when the inserted array starts at the end address of the vector (C36_adjacent_wrong); all other operations are proved to be the list operations."
 },
 "C39": {
  "status": "proved",
  "note": "The system allocator is a parameter with the contract that it returns unused zeroed memory; C39_align0_wrong records that the documented alignment 0 fails an assertion."
 },
 "C41": {
  "status": "proved",
  "note": "Appending a string to itself is excluded: C41_append_self_wrong shows exactly when it reads freed memory."
 },
 "C42": {
  "status": "partial",
  "note": "The decoder ors the tag bits of the continuation bytes into the code point, so the round trip is false for most non-ASCII code points (C42_wrong, C42_not_injective). Proved: the encoder is standard UTF-8, the exact set of code points that survive the round trip, the exact set of accepted sequences, ASCII, totality."
 },
 "C43": {
  "status": "partial",
  "note": "A broken last hexadecimal digit is not rejected (C43_wrong_last, C43_wrong). Proved: complete sequences, single-character escapes, unrecognised escapes, plain text, and rejection of every broken digit but the last."
 },
 "C44": {
  "status": "partial",
  "note": "Exact acceptance condition, result, absence of out-of-bounds reads and the round trip are proved for every file that does not begin with 'solid'. A correct binary file whose header begins with 'solid' is taken for text and rejected (C44_solid_header_wrong)."
 },
 "C45": {
  "status": "partial",
  "note": "False if no name follows 'solid': the next line is lost (C45_header_wrong, C45_lost_triangle_wrong). Proved: the header line with any other character behind 'solid', reading of complete text files, termination on every text."
 },
 "C47": {
  "status": "partial",
  "note": "line numbers are wrong at line starts (C47_wrong, C47_wrong_everywhere) and may be one too large at an unterminated end of file; proved: exact range of deviation for all files and positions, right inside of lines, the quoted text, the file lookup"
 },
 "C48": {
  "status": "partial",
  "note": "unknown names crash with a NULL access instead of being reported (C48_wrong); everything else proved exactly for all strings (C48_hex, C48_names_partial)"
 },
 "C51": {
  "status": "partial",
  "note": "Proved when |det| >= the tolerance; smaller determinants are treated as singular (C51_small_wrong), inversion into another variable records a wrong determinant (C51_swap_partial), and the rotation of the downward direction into Z is a reflection with recorded determinant 1 (C51_into_z_wrong)."
 },
 "C52": {
  "status": "partial",
  "note": "Refuted: the test rejects every axis permutation (C52_rejects_wrong) and accepts others (C52_accepts_wrong); what it accepts is characterised exactly. It is not called by the program."
 },
 "C53": {
  "status": "partial",
  "note": "Proved for all point lists whose coordinates, squared distances and areas are told apart by the epsilons (in particular for coordinates on a grid of 1/128 mm), for every order qsort may choose for equal elements. C53_wrong: squared distances are compared with the epsilon for distances, so a hull corner can be lost for finer coordinates."
 },
 "C54": {
  "status": "partial",
  "note": "all box operations proved exact except the projection of a 3D box, which uses only the lower corner (C54_projection_wrong)"
 },
 "C56": {
  "status": "partial",
  "note": "short writes are not detected and empty writes stop the program (C56_wrong, C56_empty_wrong); proved for environments that accept all or nothing"
 },
 "C57": {
  "status": "partial",
  "note": "Proved for every consistent comparison and for coordinates on a grid. The comparison with an epsilon is not transitive: C57_epsilon_wrong."
 },
 "C60": {
  "status": "partial",
  "note": "fails with spheres (C60_wrong: the maximum is compared with the minimum and may shrink); proved for all trees of polyhedra and for single spheres"
 },
 "C61": {
  "status": "partial",
  "note": "Meaning preserved and failures characterised exactly for trees without zero-extent objects; code disagrees for intersections with a disabled/empty last child (assertion) and with zero-extent children (C61_lone_wrong, C61_hollow_wrong)."
 },
 "C62": {
  "status": "partial",
  "note": "Holds for trees without zero-extent objects and without intersections with one enabled child and a disabled/empty last child; for the latter the run aborts (C62_lone_wrong)."
 },
 "C63": {
  "status": "partial",
  "note": "Proved for models at least half a layer high, in exact arithmetic; thinner models are cut at height 0 wherever they are (C63_thin_partial, C63_thin_wrong)."
 },
 "C64": {
  "status": "partial",
  "note": "Proved for chains without tiny translations and without tiny rotation axes; both are handled wrongly by the code (C64_tiny_wrong, C64_axis_wrong)."
 },
 "C65": {
  "status": "partial",
  "note": "Proved if the plane is not stretched by more than 1/epsilon (Steady); large tilted ellipsoids are sliced wrongly (C65_wrong)."
 },
 "C72": {
  "status": "partial",
  "note": "False for the code: C72_number_wrong (a sign or point alone is the number 0), C72_int_wrong (integers are clamped to 64 bits silently), C72_nul_wrong (everything behind a NUL is ignored), C72_include_wrong (include at top level is always rejected), C72_cycle_wrong (self-including file: the parser runs forever), C72_bare_wrong (include without <path> reads the file named by the next token). Proved parts: C72_include_partial, C72_int_partial."
 },
 "C79": {
  "status": "partial",
  "note": "The claim is false for the code (C79_wrong): get_arg returns at an unknown parameter, so that what follows is ignored and mandatory parameters are not checked. Proved: it is an error if the option says so; otherwise the exact effect."
 },
 "C82": {
  "status": "partial",
  "note": "The claim is false for the code (C82_wrong): multmatrix with a value that is no array, unknown parameters with the default option, use. Proved for everything else."
 },
 "C90": {
  "status": "partial",
  "note": "C90_not: where two contours touch at a vertex, the mark of an edge is lost; with contours that have no common vertex, C90_outline_partial is the full statement; the other parts of the statement hold without this condition"
 },
 "C91": {
  "status": "partial",
  "note": "C91_not: two triangles that touch at a corner give an open surface; C91_closed_partial holds if no two contours have a common vertex"
 },
 "C94": {
  "status": "partial",
  "note": "context proved for all trees; transformations around hull() and projection() are dropped by the code (C94_hull_wrong), and the theorem states this with 'within the innermost extrusion, hull or projection'"
 },
 "C95": {
  "status": "partial",
  "note": "proved; without kept context an object inside a disabled one is converted (C95_disabled_wrong)"
 },
 "C97": {
  "status": "partial",
  "note": "proved for all well-formed ASCII documents without comments directly before end tags; those, the prefix xml and characters outside of ASCII are wrong in the code (C97_comment_wrong, C97_xml_prefix_wrong, C97_nonascii_wrong); not-well-formed input is accepted (C97_lenient_wrong)"
 },
 "C99": {
  "status": "partial",
  "note": "false: C99_wrong has files on which the reader does not end or crashes; proved: all other loops end (C99_ends_partial), and on well-formed documents there is always a tree or a message (C97)"
 }
}