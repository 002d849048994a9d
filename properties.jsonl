{"id": "C01", "title": "Integer division rounds towards minus infinity with a non-negative remainder (Euclidean division)", "statement": "For a non-zero divisor d, the quotient q and remainder r returned by the division helpers satisfy x = q*d + r and 0 <= r < |d|; the only inputs with undefined behaviour are d = 0 and (most negative value)/(-1).", "quantifier": "for every 32-bit (resp. 64-bit) dividend and divisor", "why_tests_cant": "2^64 resp. 2^128 input pairs; the sign corner cases are exactly what sampled tests miss.", "anchors": ["src/hob3lop/matq.c: cq_divmod, cq_divmodw", "include/hob3lop/matq.h: cq_div, cq_mod"]}
{"id": "C02", "title": "64x64->128 bit product is exact", "statement": "The two result words (hi, lo) of the wide unsigned multiplication satisfy hi*2^64 + lo = a*b and no intermediate 64-bit addition loses a carry.", "quantifier": "for every pair of 64-bit unsigned operands", "why_tests_cant": "Carry chains fail on a vanishingly small set of inputs; the domain has 2^128 elements.", "anchors": ["src/hob3lop/matq.c: cq_udimw_mul_aux"]}
{"id": "C03", "title": "Comparing two fractions is exact", "statement": "Comparison of an/ad with bn/bd returns -1/0/+1 exactly as the rational numbers compare, for positive denominators; with the mixed numbers i+n/d (0<=n<d) it decides the order of the exact values.", "quantifier": "for every pair of fractions representable in the fixed-width format", "why_tests_cant": "Rational comparison must be exact for all 2^256 inputs, near-ties included; the sweep's order depends on it.", "anchors": ["src/hob3lop/matq.c: cq_dimif_cmp_frac_aux", "include/hob3lop/matq.h: cq_dimif_cmp, cq_dimif_cmp_frac"]}
{"id": "C04", "title": "The comparison of exact points is a total order on the values they denote", "statement": "cmp(a,b) = -cmp(b,a), it is transitive, total, and 0 exactly when the two points denote the same rational coordinates; likewise comparing an integer point with an exact point.", "quantifier": "for all points with well-formed coordinates (0 <= n < d)", "why_tests_cant": "Order axioms quantify over triples of inputs; search trees silently corrupt if any triple violates them.", "anchors": ["include/hob3lop/matq.h: cq_dimif_cmp, cq_vec2if_cmp, cq_dim_dimif_cmp, cq_vec2_vec2if_cmp"]}
{"id": "C05", "title": "96-by-64 bit division yields the exact quotient and remainder", "statement": "Given a 96-bit numerator and a 64-bit denominator whose quotient fits in 32 bits, the routine returns floor(num/den) and the exact remainder; normalisation and the two quotient-digit corrections never over- or undershoot.", "quantifier": "for every 96-bit numerator and non-zero 64-bit denominator with quotient < 2^32", "why_tests_cant": "Knuth division is famous for errors that only occur with probability about 2^-32 (missed second correction).", "anchors": ["src/hob3lop/matq.c: cq_dim_div_ew, cq_udime_mul_wn, cq_udime_sub, cq_udime_add"]}
{"id": "C06", "title": "x*m/d is returned exactly as integer part plus proper fraction", "statement": "The result (i,n,d') denotes exactly sx*sm/sd with 0 <= n < d', for every combination of signs (i is the floor).", "quantifier": "for all inputs with |sm| <= |sd|, sd != 0, in range", "why_tests_cant": "Sign/rounding combinations across the full product range cannot be enumerated.", "anchors": ["src/hob3lop/matq.c: cq_dimif_mul_div_nww"]}
{"id": "C07", "title": "Segment intersection classification is geometrically exact", "statement": "The intersection routine returns a negative value exactly when the direction vectors are parallel, zero exactly when the closed segments have no common point, and otherwise a positive code whose endpoint bits say exactly which of the four endpoints is the common point.", "quantifier": "for all four endpoints with coordinates in the documented 30-bit range", "why_tests_cant": "Exactness is about all degenerate configurations (touching, T-junctions, near-parallel); 2^240 inputs.", "anchors": ["src/hob3lop/matq.c: cq_vec2if_intersect"]}
{"id": "C08", "title": "The reported intersection point is the exact common point", "statement": "When the return code is positive and not an endpoint-only shortcut, the point returned denotes exactly the unique rational point lying on both segments.", "quantifier": "for all segment pairs in range that properly meet", "why_tests_cant": "Exactness of a rational result over the whole domain.", "anchors": ["src/hob3lop/matq.c: cq_vec2if_intersect, cq_dimif_mul_div_nww"]}
{"id": "C09", "title": "No integer overflow in the intersection code within the documented coordinate range", "statement": "With coordinates of at most 30 magnitude bits every intermediate value fits its machine type, so the overflow traps never fire and the machine arithmetic equals exact integer arithmetic.", "quantifier": "for all endpoint coordinates in [-(2^30-1), 2^30-1]", "why_tests_cant": "Extreme corners of an 8-dimensional box; tests only probe a few.", "anchors": ["src/hob3lop/matq.c: cq_vec2if_intersect", "include/hob3lop/matq.h: cq_vec2_right_cross3_z, cq_right_cross3_z, cq_ovf_if", "include/hob3lop/gon_tam.h: CQ_INT_DIG"]}
{"id": "C10", "title": "Rounding an exact coordinate to the grid is round-half-up", "statement": "Rounding i+n/d gives floor(i + n/d + 1/2): the error is at most one half, ties go up, and rounding is monotone.", "quantifier": "for every well-formed exact coordinate", "why_tests_cant": "Monotonicity is a relation between all pairs of inputs; ties depend on exact doubling without overflow.", "anchors": ["include/hob3lop/matq.h: cq_round"]}
{"id": "C11", "title": "Rounded division is round-to-nearest for positive divisors", "statement": "cq_divw_rnd(n,d) is within 1/2 of n/d for d > 0; claims for negative d are checked against the code.", "quantifier": "for all 64-bit numerators and divisors where no overflow occurs", "why_tests_cant": "Rounding behaviour for odd/even divisors and negative values over 2^128 inputs.", "anchors": ["include/hob3lop/matq.h: cq_divw_rnd"]}
{"id": "C12", "title": "Overflow-reporting Euclidean division reports overflow exactly when the quotient does not fit", "statement": "The wide-by-narrow division either returns the exact Euclidean quotient/remainder or reports an overflow; it reports an overflow only if the true quotient is not representable.", "quantifier": "for every 64-bit dividend and 32-bit divisor", "why_tests_cant": "The false positives live outside the range typical tests use.", "anchors": ["src/hob3lop/matq.c: cq_divmodx"]}
{"id": "C13", "title": "Pixel-versus-edge comparison decides on which side of a line a grid square lies", "statement": "The square/line comparison returns 0 exactly when the line meets the (half-open) unit square around the grid point, and otherwise the sign of the side the square lies on; the early exit for large cross products never changes the answer.", "quantifier": "for all grid points and edges in range", "why_tests_cant": "Hot-pixel decisions need exactness for every slope and every corner tie.", "anchors": ["src/hob3lop/matq.c: cq_cmp_edge_rnd"]}
{"id": "C14", "title": "Truth-table growth preserves the function: spread", "statement": "After spreading a table of 2^have bits by 2^add, bit k of the result is bit floor(k/2^add) of the input.", "quantifier": "for all tables, all have, add with have+add <= 10, and every bit index", "why_tests_cant": "2^1024 tables; in-place expansion can clobber unread input only for specific sizes.", "anchors": ["src/hob3lbase/bool-bitmap.c: cp_bool_bitmap_spread"]}
{"id": "C15", "title": "Truth-table growth preserves the function: repeat", "statement": "After repeating a table of 2^have bits 2^add times, bit k of the result is bit k mod 2^have of the input.", "quantifier": "for all tables, all have, add with have+add <= 10, and every bit index", "why_tests_cant": "2^1024 tables; case split on word sizes.", "anchors": ["src/hob3lbase/bool-bitmap.c: cp_bool_bitmap_repeat"]}
{"id": "C16", "title": "Truth-table combination is the pointwise Boolean operation", "statement": "Combining two tables with add/cut/sub/xor yields at each of the 2^size positions or/and/and-not/xor of the operand bits.", "quantifier": "for all pairs of tables, sizes and operations", "why_tests_cant": "Pairs of 1024-bit tables cannot be enumerated.", "anchors": ["src/hob3lbase/bool-bitmap.c: cp_bool_bitmap_combine"]}
{"id": "C17", "title": "Flattening a CSG tree preserves its set semantics", "statement": "For every CSG tree of union, difference, intersection and symmetric difference over polygons, the flattened lazy representation (and any eager reductions done on the way) contains a point iff the tree does.", "quantifier": "for every finite CSG tree, every limit on simultaneously processed polygons >= 2, and every point", "why_tests_cant": "Trees are unbounded; interleaving of lazy and eager evaluation depends on global shape.", "anchors": ["src/hob3l/csg2-bool.c: flatten_lazy, flatten_lazy_rec, flatten_eager, cp_csg2_op_flatten_layer", "src/hob3lbase/bool-bitmap.c"]}
{"id": "C18", "title": "Flattening never exceeds its fixed capacity and its assertions cannot fire", "statement": "At every step the number of collected operands is at most the configured limit and at most 10, at most two reductions are needed per combination, and the 1024-bit table index is always in range.", "quantifier": "for every tree and every legal limit (>= 2)", "why_tests_cant": "A statement about all reachable states of the reduction loop.", "anchors": ["src/hob3l/csg2-bool.c: flatten_lazy", "include/hob3lbase/bool-bitmap_tam.h: CP_BOOL_BITMAP_MAX_LAZY"]}
{"id": "C19", "title": "Switching the skip-empty optimisation off does not change results", "statement": "The command line documents --opt-no-skip-empty as an optimisation switch, so the result must be the same with it on or off.", "quantifier": "for every tree and point", "why_tests_cant": "The discrepancy needs a specific reduce-to-empty situation at the capacity limit.", "anchors": ["src/hob3l/csg2-bool.c: flatten_lazy, flatten_eager", "src/hob3l/opt.switch: opt-no-skip-empty"]}
{"id": "C20", "title": "Splitting overlapping collinear edges conserves coverage", "statement": "When two collinear edges overlap, the edges that replace them (after merging and splitting) cover every point of the line with the same XOR of polygon memberships as before, at every step of the case analysis.", "quantifier": "for all collinear overlapping edge pairs and all points", "why_tests_cant": "Six geometric cases times all coordinates/memberships.", "anchors": ["src/hob3lop/op-sweep.c: ev_overlap, ev_split, ev_pair"]}
{"id": "C21", "title": "Edges are normalised without changing the polygon", "statement": "Adding an edge drops exactly zero-length edges and otherwise stores it oriented left-to-right, so that swapping the end points of an input edge never changes the stored geometry.", "quantifier": "for all pairs of points", "why_tests_cant": "Unbounded coordinate domain.", "anchors": ["src/hob3lop/op-sweep.c: cq_sweep_add_edge, cq_sweep_add_poly, cq_sweep_add_v_line2"]}
{"id": "C22", "title": "The reduction keeps exactly the boundary of the Boolean combination", "statement": "Along each scan line the edges kept are exactly those where the Boolean function changes value, and the parity of kept edges below any gap equals the Boolean function of the containment bits there.", "quantifier": "for every sequence of edges crossing a scan line and every Boolean function with f(outside)=false", "why_tests_cant": "Quantifies over all edge sequences and all 2^1024 functions.", "anchors": ["src/hob3lop/op-sweep-reduce.c: cq_sweep_reduce, comb_eval"]}
{"id": "C23", "title": "Event and vertex comparators are consistent orders", "statement": "Lexicographic vertex comparison and the agenda comparators are antisymmetric, transitive and total, so priority queues and search trees built with them are well defined.", "quantifier": "for all pairs/triples of events", "why_tests_cant": "Order axioms quantify over triples.", "anchors": ["src/hob3lop/op-sweep-internal.h: dim2_cmp, vec2_cmp", "src/hob3lop/op-sweep.c: result_vertex_cmp, tree_vertex_edge_cmp"]}
{"id": "C24", "title": "Slicing a closed face loop yields an even number of cut points", "statement": "For every face (cyclic vertex list) and every height, the number of cut points produced is even, so the pairing assertion cannot fail.", "quantifier": "for all vertex loops of any length, all heights, including vertices exactly on the plane", "why_tests_cant": "Loops are unbounded; vertex-on-plane degeneracies.", "anchors": ["src/hob3lop/op-slice.c: cq_slice_add_face, slice_polyline_int"]}
{"id": "C25", "title": "Cut points are accurate, inside the segment and independent of edge direction", "statement": "The interpolated cut coordinate is within one half grid unit of the exact intersection, lies between the end points, and is the same whichever direction the edge is traversed.", "quantifier": "for all segments crossing the plane, all coordinates in range", "why_tests_cant": "Rounding over the whole domain; direction independence relates two calls.", "anchors": ["src/hob3lop/op-slice.c: cq_slice_interpol, slice_cut_z, slice_polyline_int"]}
{"id": "C26", "title": "Slices of a watertight mesh are watertight", "statement": "If every undirected edge of the mesh is used by an even number of face sides, then in every slice each cut point occurs an even number of times, so the slice consists of closed outlines.", "quantifier": "for all meshes and all heights", "why_tests_cant": "Meshes are unbounded.", "anchors": ["src/hob3lop/op-slice.c: cq_slice_add_face, cq_slice_fini"]}
{"id": "C27", "title": "Finishing a slice keeps exactly the non-degenerate lines", "statement": "Finalisation groups consecutive cut points into lines and removes exactly the zero-length ones, keeping every other line (in some order).", "quantifier": "for all lists of cut points of even length", "why_tests_cant": "The in-place swap-with-last removal loop must be right for all interleavings of degenerate lines.", "anchors": ["src/hob3lop/op-slice.c: cq_slice_fini"]}
{"id": "C28", "title": "Search-tree insertion keeps the tree ordered and balanced and adds exactly the new element", "statement": "Insertion yields a valid red-black tree whose in-order sequence is the old one with the new element at the requested place; stored heights are correct.", "quantifier": "for every valid tree and every insertion point", "why_tests_cant": "Rebalancing cases compose unboundedly up the tree.", "anchors": ["src/hob3lbase/dict.c: cp_dict_insert_ref_aug, _balance_insert, rb_rotate"]}
{"id": "C29", "title": "Search-tree removal keeps the tree ordered and balanced and removes exactly that element", "statement": "Removal of any node yields a valid red-black tree whose in-order sequence is the old one without that node.", "quantifier": "for every valid tree and every node in it", "why_tests_cant": "Rebalancing cases compose unboundedly up the tree.", "anchors": ["src/hob3lbase/dict.c: cp_dict_remove_aug, balance_remove, swap_remove_u, remove_u"]}
{"id": "C30", "title": "Search finds an element iff present, and duplicates are handled as documented", "statement": "With a consistent order, lookup returns an equal element iff one exists; with the duplicate modes it returns the first/last equal element or an insertion point before/after all equal ones.", "quantifier": "for every ordered tree and key", "why_tests_cant": "Trees are unbounded.", "anchors": ["src/hob3lbase/dict.c: cp_dict_find_ref_"]}
{"id": "C31", "title": "Joining and splitting search trees", "statement": "join of (left, middle, right) yields a valid balanced tree whose in-order sequence is the concatenation; split at a key yields two valid trees which partition the sequence at that key.", "quantifier": "for all valid trees of any two heights", "why_tests_cant": "Height difference is unbounded.", "anchors": ["src/hob3lbase/dict.c: cp_dict_join3_aug, cp_dict_join2_aug, cp_dict_split_aug_"]}
{"id": "C32", "title": "In-order stepping visits every element once, in order, in both directions", "statement": "Starting at the minimum and stepping forward visits exactly the in-order sequence and then ends; backward stepping is its inverse.", "quantifier": "for every tree", "why_tests_cant": "Trees are unbounded.", "anchors": ["src/hob3lbase/dict.c: cp_dict_step, cp_dict_start"]}
{"id": "C33", "title": "Tree height is logarithmic", "statement": "A valid tree with n elements has height at most 2*log2(n+1), so every operation is logarithmic.", "quantifier": "for every valid tree", "why_tests_cant": "Worst-case bound over all trees.", "anchors": ["src/hob3lbase/dict.c: cp_dict_insert_ref_aug, cp_dict_remove_aug"]}
{"id": "C34", "title": "Priority queue: heap order, contents and back-references", "statement": "After any sequence of insert, extract, remove, replace and update operations the queue holds exactly the elements inserted and not removed, the minimum is at the front, and each element's stored index is its position.", "quantifier": "for every sequence of operations and every comparison function that is a total preorder", "why_tests_cant": "Unbounded operation histories.", "anchors": ["src/hob3lbase/heap.c: cp_heap_insert, cp_heap_extract, cp_heap_remove, cp_heap_replace, cp_heap_update"]}
{"id": "C35", "title": "Making a heap from an array keeps the number of elements", "statement": "Turning an existing vector into a heap must permute the elements into heap order and leave the element count unchanged.", "quantifier": "for all vectors", "why_tests_cant": "Off-by-one in the size field only shows in later operations.", "anchors": ["src/hob3lbase/heap.c: cp_heap_make_", "src/hob3lbase/vec.c: cp_v_heap_make_"]}
{"id": "C36", "title": "Vector insertion, removal, copying and reversal implement the list operations, including self-aliasing sources", "statement": "Each vector operation equals the corresponding list operation; inserting a part of a vector into itself inserts the old contents of that part.", "quantifier": "for all vectors, positions, lengths and alias positions", "why_tests_cant": "Aliasing positions and lengths are unbounded combinations.", "anchors": ["src/hob3lbase/vec.c: cp_v_insert_arr_, cp_v_copy_arr_, cp_v_remove_, cp_v_reverse_, cp_v_inflate_"]}
{"id": "C37", "title": "Binary search", "statement": "On a sorted array binary search returns an index of an equal element iff one exists, and always terminates within the array.", "quantifier": "for all sorted arrays and keys", "why_tests_cant": "Array length unbounded.", "anchors": ["src/hob3lbase/vec.c: cp_bsearch"]}
{"id": "C38", "title": "Circular lists: chaining splices or splits rings, keeps links inverse", "statement": "For every configuration of rings, next and prev stay inverse to each other; chaining two nodes of different rings concatenates the rings, of the same ring splits it; removal isolates exactly the node.", "quantifier": "for all ring configurations and nodes", "why_tests_cant": "Unbounded ring structures.", "anchors": ["src/hob3lbase/list.c: cp_list_chain, cp_list_remove, cp_list_init", "include/hob3lbase/list.h"]}
{"id": "C39", "title": "Arena allocations are aligned, zeroed, in-bounds and pairwise disjoint", "statement": "Every block returned by the arena allocator is aligned as requested, lies inside memory owned by the arena, reads as zero and overlaps no other live block.", "quantifier": "for every sequence of allocations", "why_tests_cant": "Unbounded histories, block-boundary cases.", "anchors": ["src/hob3lbase/pool.c: cp_pool_calloc, try_block_calloc, block_next, cp_pool_clear"]}
{"id": "C40", "title": "Alignment arithmetic", "statement": "Aligning down/up by a power of two yields the nearest multiple not above/below; exactly powers of two are accepted; the derived alignment of a size is the largest power of two dividing it; the bounded array index equals the index if it is in range and 0 otherwise.", "quantifier": "for every 64-bit value and power of two", "why_tests_cant": "2^64 inputs.", "anchors": ["include/hob3lbase/base-def.h: cp_align_down, cp_align_up, cp_align_up_diff, cp_align_down_diff, cp_size_align, cp_idx0"]}
{"id": "C41", "title": "Growing strings stay NUL-terminated and hold exactly what was appended", "statement": "After any sequence of appends (of data outside of the buffer), prints, clears and reads the buffer holds exactly the concatenation, and reading it as a C string is safe.", "quantifier": "for every sequence of operations", "why_tests_cant": "Unbounded histories and growth boundaries.", "anchors": ["src/hob3lbase/vchar.c: cp_vchar_append_arr, cp_vchar_vprintf, cp_vchar_clear, v_grow", "include/hob3lbase/vchar.h: cp_vchar_cstr, cp_vchar_pop"]}
{"id": "C42", "title": "UTF-8 encode/decode round trip", "statement": "Encoding a valid code point and decoding the bytes gives back the code point; decoding accepts exactly well-formed UTF-8.", "quantifier": "for every code point and every byte string", "why_tests_cant": "1.1 million code points times contexts; all malformed byte strings.", "anchors": ["src/hob3lbase/utf8.c: cp_utf8_encode, cp_utf8_decode, cp_utf8_ok"]}
{"id": "C43", "title": "Escape sequences decode to the documented code points and malformed ones are rejected", "statement": "\\xHH, \\uHHHH, \\UHHHHHH decode to the denoted code point within the documented limits; a non-hex digit at any place is rejected.", "quantifier": "for every byte string", "why_tests_cant": "All malformed positions.", "anchors": ["src/hob3lbase/utf8.c: cp_utf8_escaped_decode"]}
{"id": "C44", "title": "Binary STL import returns exactly the triangles in the file and never reads outside it", "statement": "For every byte string the importer either rejects it or returns the encoded triangles in order (with the documented vertex order); truncated files are rejected; parsing what the exporter's format encodes gives the triangles back.", "quantifier": "for every byte string", "why_tests_cant": "All files.", "anchors": ["src/hob3l/stl-parse.c: cp_stl_parse, parse_bin, bin_u8, bin_u16, bin_u32"]}
{"id": "C45", "title": "Text STL header handling consumes only the header line", "statement": "The header line 'solid <name>' consumes only that line whatever the name is, including an empty name.", "quantifier": "for every input text", "why_tests_cant": "All texts; the empty-name corner.", "anchors": ["src/hob3l/stl-parse.c: tok_next_line, parse_solid"]}
{"id": "C46", "title": "SCAD lexer: termination, progress and losslessness", "statement": "The lexer terminates on every input after at most one token per character and never reads outside of the file content; the tokens it yields are exactly the decomposition of the file into longest numbers, identifiers, strings, comments and symbols, or an error if there is none; and the NUL characters it writes into the content never change the text of a token that was read earlier.", "quantifier": "for every byte string, every sequence of lexer steps of the parser", "why_tests_cant": "All inputs and all interleavings of lexer steps.", "anchors": ["src/hob3l/syn.c: lex_next, tok_next_aux2, tok_next, tok_path, sieve"]}
{"id": "C47", "title": "Error locations name the line containing the position", "statement": "The line number reported for a position in a file is the number of line breaks before that position.", "quantifier": "for every file and every position in it", "why_tests_cant": "Binary search may or may not hit the faulty comparison depending on file length and position.", "anchors": ["src/hob3l/syn-msg.c: cp_syn_get_loc, cmp_line", "src/hob3lbase/vec.c: cp_bsearch"]}
{"id": "C48", "title": "Colour names: hex triples decode exactly, anything else is a known name or an error", "statement": "'#rgb' and '#rrggbb' decode to the denoted components; malformed strings and unknown names are reported as failure.", "quantifier": "for every string", "why_tests_cant": "All strings.", "anchors": ["src/hob3l/gc.c: cp_color_by_name"]}
{"id": "C49", "title": "Skipping subtrahend slices where the minuend is empty is sound", "statement": "On each layer the slicer omits the subtracted part if the base part has nothing on that layer; the resulting region equals the one obtained without the shortcut.", "quantifier": "for every CSG tree and layer", "why_tests_cant": "Trees unbounded; interplay between slicing and flattening.", "anchors": ["src/hob3l/csg2-layer.c: csg2_add_layer_sub, csg2_add_layer_stack, cp_csg2_stack_get_layer", "src/hob3l/csg2-bool.c: flatten_lazy_sub, flatten_lazy_stack"]}
{"id": "C50", "title": "STL export: triangle count, closed outward surface, readable back", "statement": "The triangle count in the header of a binary file equals the number of 50-byte records that follow; reading the exported file (binary or text) back gives exactly the exported triangles; each solid is a closed surface exactly if the triangulation marks its outline edges correctly, and it is oriented outwards.", "quantifier": "for every model tree (read-back and count: fewer than 2^32 triangles)", "why_tests_cant": "All models.", "anchors": ["src/hob3l/csg2-2stl.c: cp_csg2_tree_put_stl, poly_put_stl, poly_put_stl_outline_edge, triangle_put_stl"]}
{"id": "C51", "title": "Matrix inversion formulas", "statement": "Over exact arithmetic, for non-zero determinant, the computed inverse multiplied with the matrix from either side is the identity, in 2D, 3D, 4D and for affine variants; the returned value is the determinant.", "quantifier": "for all matrices with non-zero determinant", "why_tests_cant": "Polynomial identities over continuous domains.", "anchors": ["src/hob3lmat/algo.c: cp_mat2_inv, cp_mat3_inv, cp_mat4_inv, cp_mat2w_inv, cp_mat3w_inv, cp_mat3_det, cp_mat4_det"]}
{"id": "C52", "title": "Axis-permutation test accepts exactly signed axis permutations", "statement": "The 'rectangular rotation' test returns true exactly for matrices with one non-zero entry in each row and column.", "quantifier": "for all matrices", "why_tests_cant": "2^9 zero patterns times values; a generator bug flips branches.", "anchors": ["src/hob3lmat/mat_is_rot.c: cp_mat3_is_rect_rot", "script/mkrotmat"]}
{"id": "C53", "title": "Convex hull contains all input points and is convex", "statement": "The hull computation returns a strictly convex clockwise polygon over input points containing all input points.", "quantifier": "for all point sets (exact arithmetic)", "why_tests_cant": "All point sets.", "anchors": ["src/hob3l/csg2-hull.c: cp_csg2_hull"]}
{"id": "C54", "title": "Bounding boxes enclose what they were extended with", "statement": "Extending a bounding box by a point or another box yields the smallest box containing both.", "quantifier": "for all boxes and points", "why_tests_cant": "Continuous domain.", "anchors": ["src/hob3lop/gon.c: cq_vec2_minmax, cq_v_vec2_minmax", "src/hob3lop/hedron.c: cq_vec3_minmax, cq_vec3_minmax_minmax2"]}
{"id": "C55", "title": "Constructing paths conserves the edges", "statement": "Tracing the outlines of a set of edges, cutting off a loop whenever a point is revisited, fails no assertion other than those about the order of the edges in the plane, ends, and yields non-empty paths without repeated points whose edges together are exactly the given edges.", "quantifier": "for all sets of edges with two distinct ends, all orders of the vertices, all nestings, all initial contents of the fields", "why_tests_cant": "Outlines are unbounded, touch in arbitrary patterns and merge and split arbitrarily.", "anchors": ["src/hob3lop/op-poly.c: cq_sweep_poly, cq_sweep_poly_append", "src/hob3lop/op-sweep-internal.h: list_edge_insert, list_edge_merge"]}
{"id": "C56", "title": "Writing to a stream either writes everything or stops with an error", "statement": "Callers assume that after a write call returns, all bytes have been written.", "quantifier": "for every buffer and every behaviour of the underlying stream (partial writes)", "why_tests_cant": "Depends on environment behaviour such as a full disk.", "anchors": ["src/hob3lbase/stream.c: cp_stream_fwrite"]}
{"id": "C57", "title": "Deduplicating vertices assigns one index per distinct vertex", "statement": "Equal vertices get the same index, different vertices different indices; indices are 0..count-1 in order of first occurrence.", "quantifier": "for every sequence of vertices and every consistent comparison", "why_tests_cant": "Unbounded sequences.", "anchors": ["src/hob3l/vec3-dict.c: cp_vec3_dict_insert", "src/hob3lbase/dict.c"]}
{"id": "C58", "title": "Faces cut in several pieces are filled by the even-odd rule", "statement": "When a face is cut in more than two points on a line, the lines drawn for it cover a position an odd number of times iff an odd number of the face's sides cut the plane at or before that position, whatever order the sort leaves equal distances in.", "quantifier": "for all faces (convex or not) of any length, all heights, all conforming sort implementations", "why_tests_cant": "The pairing follows the distance from a corner of the bounding box, which is not the order along the line; all shapes and tie orders would have to be tried.", "anchors": ["src/hob3lop/op-slice.c: cq_slice_add_face, cq_slice_fini"]}
{"id": "C59", "title": "Generated keyword lookups find exactly the keywords", "statement": "The lookup functions generated from keyword lists return the entry of a keyword for exactly that keyword and the default for every other string, and never read outside of the string.", "quantifier": "for every list of different keywords and every string", "why_tests_cant": "All strings and keyword sets.", "anchors": ["script/mksieve: make_tree_rec, make_tree_len, generate_body", "src/hob3l/gc-color.sieve", "src/hob3l/scad-cmd.sieve", "src/hob3l/svg-elem.sieve"]}
{"id": "C60", "title": "The bounding box of an object encloses it", "statement": "The bounding box computed for a model, which determines the range of the slices, encloses every point of the object; with the option to include subtracted parts, every point of each part.", "quantifier": "for every tree of unions, differences, intersections and symmetric differences of polyhedra and spheres, and every initial box", "why_tests_cant": "Depends on the order and kinds of parts; unbounded trees.", "anchors": ["src/hob3l/csg3.c: cp_csg3_tree_minmax, get_bb_csg3, get_bb_cut, csg3_sphere_minmax1", "src/hob3l/main.c"]}
{"id": "C61", "title": "The CSG tree of a SCAD file means what the file says", "statement": "Converting a SCAD file into a CSG tree never fails for well-formed files with extended objects, and the tree denotes the same set of points as the file: union() and groups unite their children, difference() subtracts all other children from the first child that contains an enabled object, intersection() intersects all children that contain an enabled object, transformations move everything below them, disabled subtrees (* and %) contribute nothing.", "quantifier": "for all SCAD trees of any nesting, all sets of points for the basic objects, all groups of invertible transformations", "why_tests_cant": "The meaning depends on arbitrary nestings of operators, empty groups, and disabled subtrees; tests only cover a few trees, and compare images rather than sets.", "anchors": ["src/hob3l/csg3.c: csg3_from_scad, csg3_from_difference, csg3_from_intersection, csg3_from_v_scad", "include/hob3l/csg3.h: cp_csg3_from_scad_tree"]}
{"id": "C62", "title": "The layers of a SCAD file contain exactly its points", "statement": "Running the program on a SCAD tree (conversion to CSG, cutting each object per layer, reducing each layer to one polygon) succeeds and gives one output per layer, and a point is in the output of a layer if and only if the point at that height belongs to the set of points that the SCAD tree denotes.", "quantifier": "for all SCAD trees, all numbers of layers, all limits >= 2 on simultaneously processed polygons, all interpretations of objects and invertible transformations, given that single objects are cut correctly and the plane sweep evaluates truth tables correctly", "why_tests_cant": "This is the composition of all stages over unbounded trees and layer counts; a test can only look at some files.", "anchors": ["src/hob3l/main.c: do_file, process_stack_csg", "src/hob3l/csg3.c", "src/hob3l/csg2-tree.c", "src/hob3l/csg2-layer.c", "src/hob3l/csg2-bool.c"]}
{"id": "C63", "title": "The layers cover the height of the model", "statement": "The layers chosen for a model are all inside its bounding box, there is at least one, they are one layer height apart, together as high as the bounding box up to half a layer, and each height in the box (but for that rest) is at most half a layer away from a layer.", "quantifier": "for all bounding boxes, all layer heights > 0, all epsilons > 0 (exact arithmetic)", "why_tests_cant": "Off-by-one errors in the number of layers and thin or unusual boxes are easily missed by sample models.", "anchors": ["include/hob3lbase/arith.h: cp_range_init", "src/hob3l/main.c: do_file", "src/hob3l/csg2-tree.c: cp_csg2_tree_from_csg3"]}
{"id": "C64", "title": "Nested transformations act on points as documented, with exact inverse", "statement": "A chain of translate, rotate, mirror, scale and multmatrix is rejected exactly if one of them is singular within the tolerance; otherwise the matrix maps each point as the composition of the transformations, innermost first, and the recorded inverse and determinant belong to it.", "quantifier": "for all chains of transformations of any length, all points, all tolerances (exact arithmetic)", "why_tests_cant": "Continuous parameters and unbounded nesting; signs and orders of rotations are only sampled by tests.", "anchors": ["src/hob3l/csg3.c: csg3_from_translate, csg3_from_mirror, csg3_from_scale, csg3_from_multmatrix, csg3_from_rotate", "src/hob3lmat/algo.c: cp_dim3_rot_unit, cp_dim3_mirror_unit, cp_mat3w_inv", "src/hob3lmat/mat_gen_ext.c: cp_mat3wi_mul, cp_mat3wi_rot_v"]}
{"id": "C65", "title": "The slice of a transformed sphere is the intersection of the ellipsoid with the plane", "statement": "The ellipse generated for a sphere under any regular affine map at any height is exactly the intersection of its image with the horizontal plane, and none is generated only if the plane misses the (minimally shrunken) ellipsoid.", "quantifier": "for all regular affine maps, all heights, all tolerances (exact arithmetic)", "why_tests_cant": "Continuous family of maps; the error is in rarely used size ranges.", "anchors": ["src/hob3l/csg2-layer.c: csg2_add_layer_sphere", "src/hob3lmat/algo.c: cp_vec3_right_normal3, cp_dim3_rot_unit_into_z", "src/hob3lmat/mat_gen_ext.c: cp_vec3_unit, cp_mat3wi_rot_into_z"]}
{"id": "C66", "title": "Open outlines are detected", "statement": "Constructing paths from a set of edges reports success exactly if each point is an end of an even number of edges, and an open outline otherwise.", "quantifier": "for all sets of edges in sweep order, all points", "why_tests_cant": "Unbounded sets of edges; missing a single open end yields a wrong polygon silently.", "anchors": ["src/hob3lop/op-poly.c: cq_sweep_poly"]}
{"id": "C67", "title": "The inside is on the same side of all traced edges", "statement": "At every position of the sweep line, the edges crossing it alternate, from bottom to top, between the two directions in which they are traced, starting with backward.", "quantifier": "for all sets of edges, all positions of the sweep, all nestings of outlines and holes", "why_tests_cant": "Nesting depth and sequence of starts, bends and ends are unbounded.", "anchors": ["src/hob3lop/op-poly.c: cq_sweep_poly"]}
{"id": "C68", "title": "The points of a traced polygon are unique and sorted", "statement": "The polygon that is constructed has no two equal points, and its points are in the order of the sweep.", "quantifier": "for all sequences of vertices in sweep order", "why_tests_cant": "Sequences of vertices are unbounded with arbitrary coincidences.", "anchors": ["src/hob3lop/op-poly.c: cq_sweep_poly", "src/hob3lop/op-sweep-internal.h: point_idx_get"]}
{"id": "C69", "title": "Tracing never fails on a valid arrangement of edges", "statement": "If the edges given to the construction of polygon paths have no common points except common ends, then the construction violates no assertion, accesses nothing out of bounds and ends; it reports success exactly if each point is an end of an even number of edges.", "quantifier": "for all finite sets of non-crossing edges with integer coordinates of at most 30 bits, including vertical edges, nested outlines, and points with many edges", "why_tests_cant": "The number of edges and their geometric configurations are unbounded; the claim is about all arrangements in the plane.", "anchors": ["src/hob3lop/op-poly.c: cq_sweep_poly", "src/hob3lop/op-sweep.c: cq_sweep_result_vertex_cmp, cq_sweep_tree_vertex_edge_cmp", "src/hob3lop/op-sweep-internal.h: state_edge_insert"]}
{"id": "C70", "title": "The traced outlines have the even-odd inside on the same side", "statement": "After the construction of polygon paths, an edge runs from right to left if and only if an even number of edges is below it, on every vertical line that meets no vertex; so the even-odd interior is on the same side of each edge of each path, for outlines and holes at any depth.", "quantifier": "for all arrangements as in C69, all edges, all vertical lines through the edge that meet no vertex", "why_tests_cant": "Nesting depth, number of edges and the positions of the line are unbounded.", "anchors": ["src/hob3lop/op-poly.c: cq_sweep_poly", "src/hob3lop/op-sweep.c: cq_sweep_tree_vertex_edge_cmp"]}
{"id": "C71", "title": "SCAD parser: exactly the grammar, one syntax tree", "statement": "The parser returns a syntax tree if and only if the file, together with the files it includes, belongs to the SCAD subset's grammar; the tree is the only one of the file; every other file is rejected with an error; and parsing terminates if no files are included.", "quantifier": "for all file contents, file names and file systems", "why_tests_cant": "Programs are unbounded and recursive; tests can only sample accepted and rejected inputs and cannot show unambiguity.", "anchors": ["src/hob3l/syn.c: cp_syn_parse, parse_stmt_list, parse_stmt_item, parse_item_push_stmt_item, parse_include_push_stmt_item, parse_args, parse_value, parse_new_val_array, parse_modifier"]}
{"id": "C72", "title": "Malformed SCAD input is reported, includes work everywhere", "statement": "Numbers without digits, integers out of range, NUL characters in the file and files that include themselves are reported as errors, and 'include <file>' is replaced by the items of the file wherever an item may stand.", "quantifier": "for all file contents and file systems", "why_tests_cant": "All inputs; nontermination cannot be observed by a test.", "anchors": ["src/hob3l/syn.c: tok_next_aux2, parse_new_val_int, parse_stmt_list, parse_include_push_stmt_item, cp_syn_read"]}
{"id": "C73", "title": "Basic solids are closed surfaces", "statement": "The polyhedra made for cube, cylinder (also with a tip), sphere with $fn, and linear_extrude (also with twist, slices, scale to 0) are closed surfaces: making them violates no assertion; each face has at least three different points that exist; each edge belongs to exactly two faces which use it in opposite directions; points - edges + faces = 2. A mirroring transformation reverses all faces. Each slice of such a solid is made of closed outlines.", "quantifier": "for all values of $fn, all limits --max-fn of at least 3, all numbers of slices, all outlines with at least three points, all coordinates", "why_tests_cant": "The numbers of points and faces are unbounded and the index arithmetic has separate cases for lids, roofs, wrap-around and triangulated sides; tests see a few sizes and cannot detect a single missing or reversed face that is invisible at the tested heights", "anchors": ["src/hob3l/csg3.c: faces_n_edges_from_tower, face_from_poly_lid, csg3_from_cube, csg3_poly_cylinder, csg3_poly_make_sphere, csg3_from_linext, cp_csg3_get_fn"]}
{"id": "C74", "title": "Solids of revolution are closed surfaces", "statement": "rotate_extrude of outlines on one side of the axis (points on the axis allowed) violates no assertion and makes one solid, or two for a full turn; each is a closed surface: faces with at least three different points that exist, each edge belongs to exactly two faces which use it in opposite directions. Outlines on both sides of the axis are reported.", "quantifier": "for all angles, values of $fn, limits --max-fn of at least 2, all polygons with simple outlines, any set of points on the axis", "why_tests_cant": "Points on the axis are merged, which makes faces degenerate in several ways; the combinations are unbounded", "anchors": ["src/hob3l/csg3.c: csg3_from_rotext, rotext_arc, rotext_idx, poly3_push_face4"]}
{"id": "C75", "title": "The slice of a solid is its outline at that height", "statement": "For a solid made of horizontal layers of corresponding points, the slice at a height between two layers consists exactly of the sides of the outline through the points where the connections of corresponding points are cut (for twisted extrusions also through the cuts of the diagonals); outside the solid the slice is empty; the slice of an upright prism is exactly its base outline.", "quantifier": "for all solids of layers with at least three points each, all point coordinates in range, all heights", "why_tests_cant": "All faces and all heights contribute; missing, duplicate or wrong lines can occur in any gap and for any number of points", "anchors": ["src/hob3l/csg3.c: faces_n_edges_from_tower", "src/hob3l/csg2-tree.c, src/hob3l/csg2-layer.c: slicing of polyhedra (cq_slice)", "src/hob3lop/op-slice.c"]}
{"id": "C76", "title": "Points of a circle are exact and symmetric", "statement": "The loop over the points of a circle gives each index from 0 to n-1 exactly once; independently of the accuracy of sine and cosine, the points are exactly symmetric to the x-axis, the first point is exactly (1,0) and for even n the opposite point is exactly (-1,0); in exact arithmetic, the points are those of the regular polygon, counterclockwise.", "quantifier": "for all n, and for all functions sine and cosine (for the symmetry)", "why_tests_cant": "n is unbounded; the order of visits and the special cases depend on the parity of n; symmetry must hold bit by bit", "anchors": ["src/hob3lmat/algo.c: cp_circle_iter_step", "include/hob3lmat/algo.h: cp_circle_each, CP_CIRCLE_ITER_INIT"]}
{"id": "C77", "title": "Solids are oriented the same way and have the right volume", "statement": "The faces of cube, cylinder, sphere and linear_extrude (without twist) are clockwise seen from outside under any invertible affine transformation, including mirroring; for cube, cylinder, cone and linear_extrude with any scale and number of slices, the enclosed volume is exactly that of the prism or frustum times the absolute value of the determinant.", "quantifier": "for all affine transformations, all numbers of corners, radii, slices, scales, all outlines (exact arithmetic)", "why_tests_cant": "A wrong orientation of one face, one wrong index, or a wrong treatment of mirroring changes nothing in a slice but breaks consumers of the polyhedron; volumes for all sizes cannot be enumerated", "anchors": ["src/hob3l/csg3.c: faces_n_edges_from_tower, face_rev_perhaps, csg3_from_cube, csg3_poly_cylinder, csg3_poly_make_sphere, csg3_from_linext"]}
{"id": "C78", "title": "Arguments of functors are matched to parameters", "statement": "A call with unnamed arguments followed by named ones is accepted exactly if there is a position for each unnamed one, all names are names of parameters, every mandatory parameter is given and every value has the right type; each parameter then has the last value given for it or its default; the order of named arguments is irrelevant if no name occurs twice. A vector of two numbers for translate, mirror, scale leaves the third component at its default.", "quantifier": "for all functors, all lists of arguments with any values", "why_tests_cant": "Names, positions, repetitions and types combine without bound; an error shows only in particular combinations", "anchors": ["src/hob3l/scad.c: get_arg, GET_ARG, get_vec2_3, get_vec2_3_float, multmatrix_from_item ... projection_from_item"]}
{"id": "C79", "title": "An unknown parameter has no effect on the others", "statement": "If unknown parameters are errors, a call with one is rejected; if they are only warned about, then the call means the same as without it.", "quantifier": "for all functors, all lists of arguments", "why_tests_cant": "The effect depends on where the unknown parameter is and on what follows or precedes it", "anchors": ["src/hob3l/scad.c: get_arg", "src/hob3l/main.c: err_unknown_param"]}
{"id": "C80", "title": "Radius and diameter of sphere, circle and cylinder", "statement": "Each radius comes from at most one of the parameters for it (r, r1, r2, or half of d, d1, d2) and is 1 if none is given; all other combinations are rejected, and all these are accepted.", "quantifier": "for all lists of arguments, any arithmetic", "why_tests_cant": "64 combinations of the six parameters of cylinder, each by position or by name and with repetitions", "anchors": ["src/hob3l/scad.c: sphere_from_item, circle_from_item, cylinder_from_item"]}
{"id": "C81", "title": "Points and faces are as given and indices are in range", "statement": "An accepted polyhedron or polygon has exactly the given points and faces (paths) in order; each face has at least three corners and each is the index of a point; conversely all of these are accepted. Without paths, a polygon has one path with all points.", "quantifier": "for all lists of arguments, any number of points and faces", "why_tests_cant": "An index that is out of range leads to access outside of an array only later; sizes are unbounded", "anchors": ["src/hob3l/scad.c: polyhedron_from_item, polygon_from_item"]}
{"id": "C82", "title": "Wrong arguments lead to an error message", "statement": "For any syntax tree, the conversion to SCAD objects gives objects or an error message; it never fails an assertion, reads uninitialised data or follows a NULL pointer.", "quantifier": "for all programs, all options", "why_tests_cant": "Requires all combinations of functors, parameters, types and options", "anchors": ["src/hob3l/scad.c: cp_scad_from_syn_tree, get_arg, get_mat4"]}
{"id": "C83", "title": "At most one root", "statement": "A program is accepted only if at most one object has the modifier !, and the root is then this object (or none); conversely a program with at most one whose arguments are all right is accepted.", "quantifier": "for all programs", "why_tests_cant": "Objects with ! can be at any depth of a tree of any size", "anchors": ["src/hob3l/scad.c: func_new_, cp_scad_from_syn_tree"]}
{"id": "C84", "title": "Escape sequences in texts", "statement": "A text is accepted exactly if each backslash starts one of the five escape sequences, and gives what these mean; every text can be written this way.", "quantifier": "for all texts", "why_tests_cant": "Texts are unbounded; the interaction of backslashes with what follows", "anchors": ["src/hob3l/scad.c: string_unquote"]}
{"id": "C85", "title": "The objects are those of the program", "statement": "The tree of objects has the shape of the program: the same objects in the same order with their modifiers and children; only functors that are not supported are left out, and only if this is not an error.", "quantifier": "for all programs", "why_tests_cant": "Programs are trees of any shape", "anchors": ["src/hob3l/scad.c: v_scad_from_syn_stmt_item, v_scad_from_v_syn_stmt_item, v_scad_from_syn_stmt, cp_scad_from_syn_tree"]}
{"id": "C86", "title": "Triangulating a non-crossing arrangement never fails an assertion", "statement": "For edges without common points except common ends, given in the order of the sweep, the triangulation violates no assertion, terminates, and returns success if and only if every point is an end of an even number of edges (so exactly for outlines that are closed).", "quantifier": "for all arrangements of finitely many edges with coordinates below 2^30, any nesting of holes, any number of edges that meet in a point, all initial contents of the working fields of the edges", "why_tests_cant": "The number of edges, the nesting of holes, and the coincidences of points and directions are unbounded; an assertion failure depends on rare combinations of them.", "anchors": ["src/hob3lop/op-trianglify.c: cq_sweep_trianglify", "src/hob3lop/op-trianglify.c: flush_triangle_", "src/hob3lop/op-sweep-internal.h: vertex_list_step"]}
{"id": "C87", "title": "The triangles are clockwise and not degenerate, and no point is added or lost", "statement": "Every triangle of the result has corners that are points of the result, clockwise order and an area other than zero; the points of the result are the ends of the edges, each once, from left to right.", "quantifier": "for all arrangements as in C86, all triangles", "why_tests_cant": "The number of triangles is unbounded; degenerate triangles appear only for special positions of points (collinear, equal x).", "anchors": ["src/hob3lop/op-trianglify.c: cq_sweep_trianglify", "src/hob3lop/op-trianglify.c: flush_triangle_", "include/hob3lop/gon_tam.h: cp_csg2_tri_t"]}
{"id": "C88", "title": "The triangles cover exactly the even-odd inside, each place once", "statement": "A point that is not on a vertical line with an end of an edge and not on a side of a triangle is strictly inside exactly one triangle if the number of edges below it is odd, and in none if it is even.  No two triangles overlap.  A point strictly inside a triangle is inside by the even-odd rule, and a point that is inside by that rule is in a triangle or on its boundary.", "quantifier": "for all arrangements as in C86 for which the triangulation succeeds, all rational points", "why_tests_cant": "The points of the plane and the arrangements are infinitely many; a gap or an overlap of thin triangles is invisible in any sample.", "anchors": ["src/hob3lop/op-trianglify.c: cq_sweep_trianglify", "src/hob3lop/op-trianglify.c: flush_triangle_both", "src/hob3l/csg2-bool.c: cp_csg2_op_flatten_layer"]}
{"id": "C89", "title": "The triangles have the same area as the outlines", "statement": "After the triangulation, an edge is directed from right to left if and only if an even number of edges is below it, and the sum of the areas of the triangles is exactly the area enclosed by the edges in these directions.", "quantifier": "for all arrangements as in C86 for which the triangulation succeeds, all edges, all vertical lines that meet no vertex", "why_tests_cant": "The number of edges and their positions are unbounded.", "anchors": ["src/hob3lop/op-trianglify.c: cq_sweep_trianglify"]}
{"id": "C90", "title": "Marked sides of the triangles are the outline", "statement": "In the triangulation of a polygon, each directed side occurs in at most one triangle; a side that is marked as outline is an edge of the polygon, run through so that the inside is on the same side as in the polygon; a side that is not an edge occurs in exactly two triangles in opposite directions; each edge is a side of exactly one triangle. If no two contours touch at a vertex, the marked sides are exactly the edges, each once.", "quantifier": "for all polygons without crossing edges (any number of contours, holes, nesting), any number of vertices", "why_tests_cant": "Arbitrarily many vertices in arbitrary position; the marks get lost only in special constellations, so that finding them by samples is luck.", "anchors": ["src/hob3lop/op-trianglify.c: flush_triangle_, remove2, is_outline"]}
{"id": "C91", "title": "The STL of a triangulated polygon is closed", "statement": "The solid that is written to STL for a triangulated layer (bottom and top triangles, and walls at the marked sides) is a closed surface: each directed line between two corners occurs as often as its reverse.", "quantifier": "for all polygons without crossing edges (any number of contours, holes, nesting), any number of vertices", "why_tests_cant": "Needs the relation of marks and triangles for all polygons: one missing wall in a rare constellation makes the file unusable for some slicers.", "anchors": ["src/hob3lop/op-trianglify.c: flush_triangle_", "src/hob3l/csg2-2stl.c: poly_stl"]}
{"id": "C92", "title": "Every parameter of a functor sets its own field", "statement": "For every accepted functor call, each field of the object made is what the last value given for the parameter of this name (or position) says, and the documented default if none is given: numbers (also true, false, PI), counts (negative ones are refused), truth values, texts with escape sequences, vectors or one number for all coordinates, colours by name or by numbers with alpha; rotations and colours are accepted for exactly the documented forms.", "quantifier": "for all functors, all lists of arguments", "why_tests_cant": "The combinations of named, positional, repeated and missing arguments are unbounded; swapped fields with equal defaults are invisible in samples.", "anchors": ["src/hob3l/scad.c: cube_from_item, square_from_item, linext_from_item, rotext_from_item, import_from_item, surface_from_item, text_from_item, color_from_item, rotate_from_item, get_arg, try_get_float, try_get_uint32, try_get_bool"]}
{"id": "C93", "title": "Names of functors", "statement": "A text is taken as a functor exactly if it is in the documented list (with the aliases group, render and braces for union, import_stl for import), no text names two functors; exactly the functors that make no shape on their own have children.", "quantifier": "for all texts, all functors", "why_tests_cant": "The set of texts that must not be accepted is infinite.", "anchors": ["src/hob3l/scad-cmd.sieve", "src/hob3l/scad.c: v_scad_from_syn_stmt_item"]}
{"id": "C94", "title": "Each object gets the transformation, colour and modifiers of its context", "statement": "When a program is accepted, every shape and extrusion of the result stands for an object of the program, in order and at most once, with the product of the transformations around it, the innermost colour and alpha, and the union of all modifiers; nothing that is disabled or inside something disabled appears; if all errors are reported, no shape that is not disabled is lost.", "quantifier": "for all object trees, all transformations, colours and modifiers, all option settings", "why_tests_cant": "Nestings of operators, transformations, colours, extrusions and modifiers are unbounded; the context is passed down by pointers through every conversion function", "anchors": ["src/hob3l/csg3.c:csg3_from_scad", "src/hob3l/csg3.c:csg3_from_color", "src/hob3l/csg3.c:csg3_from_translate", "src/hob3l/csg3.c:csg3_from_hull", "src/hob3l/csg3.c:csg3_from_projection"]}
{"id": "C95", "title": "The root modifier ! selects exactly one object", "statement": "With an object marked by !, only that object is converted: as if it were the whole program; or, if the context is kept, with the colours and modifiers around it, with the product of the transformations around it reported separately and not applied; both ways give the same object apart from colours and modifiers.", "quantifier": "for all object trees, all positions of the marked object, all transformations around it", "why_tests_cant": "The search visits the tree in a special mode that every operator and shape must respect; the positions of the mark are unbounded", "anchors": ["src/hob3l/csg3.c:csg3_from_scad", "src/hob3l/csg3.c:cp_csg3_from_scad_tree"]}
{"id": "C96", "title": "Objects in the wrong dimension are rejected, and only those", "statement": "If all errors are reported and a program is accepted, then every object that is not disabled is in its place: 2D shapes, hulls and projections inside extrusions, 3D shapes and extrusions outside of them or inside projections, no empty shapes, no collapsing transformations; conversely a program in which everything is in its place is not rejected.", "quantifier": "for all object trees and option settings", "why_tests_cant": "The place of an object depends on the whole path to it", "anchors": ["src/hob3l/csg3.c:csg3_from_scad", "src/hob3l/csg3.c:msg"]}
{"id": "C97", "title": "XML documents are read as the tree they denote", "statement": "Reading a well-formed XML document with namespaces gives one root element with its attributes, child elements and texts, in order, with the namespace that is in scope for each prefix, with character and entity references replaced, blanks around texts removed and comments skipped; a document in which a prefix is not declared is rejected.", "quantifier": "for all well-formed documents: all names, nesting depths, numbers of attributes, layouts, declarations and comments", "why_tests_cant": "Documents are trees of unbounded depth with scoping of declarations; tests cover single files", "anchors": ["src/hob3l/xml-parse.c:cp_xml_parse", "src/hob3l/xml-parse.c:parse_elem", "src/hob3l/xml-parse.c:parse_content_list"]}
{"id": "C98", "title": "Decoding a text in place never overwrites what has not been read", "statement": "The XML reader replaces references in the file buffer itself; the decoded text never needs more room than the bytes that have been read, so that the check for space cannot fail and unread input is not damaged.", "quantifier": "for all files, all positions and all delimiters", "why_tests_cant": "The margin depends on the byte length of every character and reference, including broken ones", "anchors": ["src/hob3l/xml-parse.c:parse_text", "src/hob3lbase/utf8.c:cp_utf8_encode"]}
{"id": "C99", "title": "The XML reader ends with a tree or a message", "statement": "For every file, reading XML ends, and ends with a tree or an error message, not with an endless loop, an access to NULL or a failed assertion.", "quantifier": "for all byte sequences", "why_tests_cant": "Termination and absence of crashes on all inputs, in particular truncated ones", "anchors": ["src/hob3l/xml-parse.c:cp_xml_parse", "src/hob3l/xml-parse.c:parse_tag", "src/hob3l/xml-parse.c:skip_comment", "src/hob3l/xml-parse.c:parse_attr_list"]}
{"id": "C100", "title": "SVG path data is drawn as SVG defines it", "statement": "Path data in any notation that SVG allows (separators, repeated arguments, absolute and relative commands, implicit line commands after a move, smooth curves) is accepted, and the vertices of the polygon are those of the subpaths that SVG defines, with curves divided evenly.", "quantifier": "for all well-formed path data, of any length, in any notation, and all coordinates", "why_tests_cant": "The notation is free (numbers may touch, separators are optional) and commands depend on all commands before them; tests cover a few paths", "anchors": ["src/hob3l/svg-parse.c:str_path", "src/hob3l/svg-parse.c:s_double", "src/hob3l/svg-parse.c:path_line_abs", "src/hob3l/svg-parse.c:path_quad_abs", "src/hob3l/svg-parse.c:path_cub_abs"]}
{"id": "C101", "title": "The polygon of a path has the vertices of the path", "statement": "After the vertices of an SVG path have been transformed, sorted and stripped of duplicates, each path of the polygon still visits the transformed vertices of its subpath, in order; points are only dropped if there are less than three different ones; the points that are left are distinct.", "quantifier": "for all paths, all transformations, and any order in which the sort leaves equal points", "why_tests_cant": "The references are computed by a permutation of the points; tests cannot cover all coincidences of vertices", "anchors": ["src/hob3l/svg-parse.c:path_uniquify", "src/hob3l/svg-parse.c:path_fini"]}
{"id": "C102", "title": "Elliptical arcs are drawn on the ellipse that SVG defines", "statement": "For an elliptical arc command, the points that are drawn are on the ellipse with the given radii and rotation through both end points (with the radii scaled up if they are too small), on the one of the four arcs that the two flags select, and divide it evenly.", "quantifier": "for all end points, radii, rotations and flags", "why_tests_cant": "Four continuous parameters and two flags with sign conventions and out-of-range corrections", "anchors": ["src/hob3l/svg-parse.c:path_arc_abs", "src/hob3l/svg-parse.c:path_arc2_abs", "src/hob3lmat/algo.c:cp_vec2_angle"]}
{"id": "C103", "title": "Path data never makes the program abort", "statement": "Reading an SVG path element ends with a polygon or an error message, never with a failed assertion, whatever is drawn.", "quantifier": "for all well-formed path data", "why_tests_cant": "The abort needs a path without segments, which tests do not contain", "anchors": ["src/hob3l/svg-parse.c:path_fini", "src/hob3l/svg-parse.c:path_uniquify"]}
{"id": "C104", "title": "SVG transform attributes compose as written", "statement": "The value of a transform attribute, in any notation SVG allows, moves every point of the element by the listed functions, the last one first, then by the transformation of the surroundings; any other value is rejected without effect.", "quantifier": "for all lists of transform functions, all separators, all numbers, all surrounding transformations", "why_tests_cant": "Orders and centres of rotation only matter for combinations of functions; notations are unbounded", "anchors": ["src/hob3l/svg-parse.c:xform_cmd", "src/hob3l/svg-parse.c:process_std_attr", "src/hob3lmat/mat_gen_ext.c:cp_mat2w_mul"]}
{"id": "C105", "title": "Basic shapes of SVG have the outline that SVG defines", "statement": "rect, circle, ellipse, polygon, polyline with attributes in any notation and unit give the outline that SVG defines (corner points, corner radii limited to half of the size, points on the ellipse, given points), missing coordinates count as 0, and no shape makes the program crash.", "quantifier": "for all attribute values, all units, all subsets of attributes", "why_tests_cant": "The combinations of missing attributes and units are too many for tests", "anchors": ["src/hob3l/svg-parse.c:csg2_from_rect", "src/hob3l/svg-parse.c:csg2_from_circle", "src/hob3l/svg-parse.c:csg2_from_ellipse", "src/hob3l/svg-parse.c:csg2_from_polygon", "src/hob3l/svg-parse.c:s_attr_coord", "src/hob3l/svg-parse.c:s_unit_dim"]}
{"id": "C106", "title": "Nested SVG elements: coordinate systems and layers", "statement": "Exactly the shapes of the document are drawn, in document order (with a layer: exactly those inside of an element whose id is the layer), each one transformed by the transform attributes of all elements around it.", "quantifier": "for all trees of elements, all transform attributes, all layer names", "why_tests_cant": "Trees are unbounded in depth; a context that leaks between siblings shows only in certain trees", "anchors": ["src/hob3l/svg-parse.c:csg2_from_elem", "src/hob3l/svg-parse.c:csg2_from_g", "src/hob3l/svg-parse.c:csg2_from_obj", "src/hob3l/svg-parse.c:process_std_attr", "src/hob3l/svg-elem.sieve"]}
{"id": "C107", "title": "SVG images are placed and scaled by size and view box", "statement": "The contents of the view box are mapped to the area of the given size as preserveAspectRatio says, and at the top level an image is placed in millimetres with its lower left corner, or its centre, at the origin.", "quantifier": "for all sizes, units, view boxes, alignments", "why_tests_cant": "Needs images whose aspect ratio differs from that of the view box, in all alignments", "anchors": ["src/hob3l/svg-parse.c:csg2_from_svg", "src/hob3l/svg-parse.c:svg_xform", "src/hob3l/svg-parse.c:match_align"]}
{"id": "C108", "title": "Finding intersections changes neither coverage nor parity", "statement": "When the sweep has found all intersections, the edges cover every point of the plane as the input edges did (XOR of the polygons), every polygon has, modulo 2, as many edge ends at every grid point as before, every edge is a part of an input edge, and every crossing recorded lies on an input edge.", "quantifier": "for all sets of input edges with coordinates in range, for all runs of the first phase, for all points of the plane", "why_tests_cant": "Overlaps, T-junctions and crossings interact in unboundedly many orders", "anchors": ["src/hob3lop/op-sweep.c:sweep_phase1_find_intersections", "src/hob3lop/op-sweep.c:ev_left", "src/hob3lop/op-sweep.c:ev_rigt", "src/hob3lop/op-sweep.c:ev_cross", "src/hob3lop/op-sweep.c:ev_pair"]}
{"id": "C109", "title": "The intersection sweep returns closed polygons", "statement": "After the intersection with snap rounding, every polygon is still closed: at every grid point an even number of its edges end; no two result edges leave a point in the same direction.", "quantifier": "for all polygons with coordinates in range, for all runs of both phases, for all grid points", "why_tests_cant": "A lost or duplicated edge end shows only for rare constellations of edges in the same pixel", "anchors": ["src/hob3lop/op-sweep.c:cq_sweep_intersect", "src/hob3lop/op-sweep.c:sweep_phase2_pass", "src/hob3lop/op-sweep-internal.h:bundle_edge_new", "src/hob3lop/op-sweep-internal.h:result_insert"]}
{"id": "C110", "title": "Snap rounding moves nothing by more than half a unit", "statement": "Every vertex and every point of an edge of the result is within half a unit (in each coordinate) of a point of an input edge.", "quantifier": "for all input edges with coordinates in range, for all runs, for all points of result edges", "why_tests_cant": "Error bounds hold for all inputs or not at all", "anchors": ["src/hob3lop/op-sweep.c:sweep_phase2_pass", "src/hob3lop/op-sweep.c:bundle_new_from_agenda", "src/hob3lop/matq.h:cq_round"]}
{"id": "C111", "title": "The check for intersections finds exactly the intersections", "statement": "The check reports 0 exactly for sets of lines without intersections, including junctions (equal end points and full overlap are not counted); otherwise it reports 1 and names two intersecting lines and a common point.", "quantifier": "for all sets of non-degenerate lines with coordinates in range", "why_tests_cant": "Crossings and overlaps of all pairs in all positions", "anchors": ["src/hob3lop/op-sweep.c:cq_has_intersect", "include/hob3lop/op-sweep.h:cq_has_intersect"]}
{"id": "C112", "title": "Boolean operations are right point by point", "statement": "For polygons given by edges that only touch at their ends, the Boolean operation (union, intersection, difference, or any other function of the polygons) yields a set of edges such that a point that is on no edge is inside of the result iff the function applied to the set of polygons the point is inside of says so. The result consists of closed outlines, and has no edge across which the function does not change.", "quantifier": "for all sets of edges without crossings in which every polygon is closed, for all functions of up to ten polygons, for all points of the plane", "why_tests_cant": "All positions of points and edges, including vertical edges, several edges at one vertex and edges shared by several polygons", "anchors": ["src/hob3lop/op-sweep-reduce.c:cq_sweep_reduce", "src/hob3lop/op-sweep-internal.h:state_edge_insert", "src/hob3lop/op-sweep-internal.h:tree_edge_prev", "src/hob3lop/op-sweep.c:cq_sweep_result_vertex_cmp"]}
{"id": "C113", "title": "A printed syntax tree is read back", "statement": "Printing the syntax tree of a program as SCAD text yields a text that is accepted again, and its syntax tree is the same.", "quantifier": "for all texts that are accepted by the parser, with values, named arguments, ranges, vectors and strings nested to any depth", "why_tests_cant": "Nesting is unbounded, and every combination of neighbouring tokens must stay separated when printed", "anchors": ["src/hob3l/syn-2scad.c:cp_syn_tree_put_scad", "src/hob3l/syn-2scad.c:cp_syn_value_put_scad", "src/hob3l/syn.c:cp_syn_parse", "src/hob3l/main.c:--dump-syn"]}
{"id": "C114", "title": "Boolean operations yield the right polygons", "statement": "For polygons given by edges that only touch at their ends, a Boolean operation ends, violates no assertion, and yields paths (each without repeated points, with valid point indices) such that any point that is on none of the edges given is inside of the paths, by the even-odd rule, iff the operation applied to the polygons the point is inside of says so.", "quantifier": "for all sets of edges without crossings in which every polygon is closed, for all functions of up to ten polygons, for all points of the plane", "why_tests_cant": "Composition of two algorithms on unbounded inputs: all arrangements of edges, shared edges, several edges at one vertex, vertical edges", "anchors": ["src/hob3lop/op-sweep-reduce.c:cq_sweep_reduce", "src/hob3lop/op-poly.c:cq_sweep_poly", "src/hob3lop/op-sweep.c:cq_sweep_result_vertex_cmp"]}
{"id": "C115", "title": "Boolean operations yield the right triangles", "statement": "For polygons given by edges that only touch at their ends, a Boolean operation whose result is triangulated ends, violates no assertion, succeeds, and yields non-degenerate clockwise triangles that do not overlap, such that any point on none of the edges given is covered by the triangles iff the operation applied to the polygons the point is inside of says so.", "quantifier": "for all sets of edges without crossings in which every polygon is closed, for all functions of up to ten polygons, for all points of the plane", "why_tests_cant": "Composition of two algorithms on unbounded inputs; the triangulation needs properties of the edge set that the reduction must establish for every input", "anchors": ["src/hob3lop/op-sweep-reduce.c:cq_sweep_reduce", "src/hob3lop/op-trianglify.c:cq_sweep_trianglify"]}
{"id": "C116", "title": "A dumped object tree is read back as the same tree", "statement": "The SCAD text written for the tree of objects (the dump option) is a valid program, and reading it gives the same objects in the same order with the same parameters, modifiers and root.", "quantifier": "For every program that can be read, every tree of objects made from it, all nesting depths, object types, parameter values and modifiers", "why_tests_cant": "Unit tests can only compare a few dumps with the expected text; that every object of every tree is read back needs an argument over the printer, the tokeniser, the parser and the argument reader together.", "anchors": ["src/hob3l/scad-2scad.c:cp_scad_tree_put_scad", "src/hob3l/gc.c:cp_gc_modifier_put_scad", "src/hob3l/scad.c:cp_scad_from_syn_tree"]}
{"id": "C117", "title": "Sine and cosine in degrees are exact whenever they are rational", "statement": "For an angle given as a double, in degrees: if the sine (cosine) of the angle is a rational number, the function returns exactly that number (so that rotations by multiples of 90 degrees introduce no rounding), and whenever a tabulated value is returned, it is the sine (cosine).", "quantifier": "all 64-bit patterns of doubles", "why_tests_cant": "There are 2^64 doubles; tests try a few angles. That the table covers all rational cases is a theorem of number theory (Niven).", "anchors": ["src/hob3lmat/algo.c:cp_sin_deg", "src/hob3lmat/algo.c:cp_cos_deg", "src/hob3lmat/algo.c:cp_f_get_int"]}
{"id": "C118", "title": "The JavaScript export shows exactly the triangles of the solid, in scenes within the limits of the format", "statement": "Reading the scenes of the JavaScript output, as documented (relative indices, arrays of vertices, normals, colours), gives exactly the triangles that the solid has (the same as in the STL output), in the same order, with coordinates on the integer grid. Each scene has at most 65535 vertices, complete arrays, and indices within the arrays, however large the model is; the surface that is shown is closed if the layers have outlines marked correctly.", "quantifier": "all trees of polygons, all numbers of triangles", "why_tests_cant": "The split into scenes only happens beyond 21845 triangles, and an error there shows as a garbled model in a browser.", "anchors": ["src/hob3l/csg2-2js.c:cp_csg2_tree_put_js", "src/hob3l/csg2-2js.c:triangle_put_js", "src/hob3l/csg2-2js.c:scene_flush", "doc/jsformat.md"]}
{"id": "C119", "title": "PostScript output: one numbered page per layer, correct page count and bounding box, fitted to the paper", "statement": "The PostScript file has one page for each non-empty layer (or one page for all), numbered from 1, with exactly the triangles, paths, marks and vertices of the polygons of that layer; the trailer gives the number of pages and the smallest integer box that contains everything that is drawn. Without scaling, one inch is 72 points and the origin is the centre of the page; with scaling to a bounding box, each point of the box is put on the paper within the margin, with the largest uniform scale.", "quantifier": "all trees of polygons, all options, all boxes", "why_tests_cant": "The scale is a formula over all boxes, and the page structure depends on which layers are empty; pictures in tests are looked at only for small centred objects.", "anchors": ["src/hob3l/ps.c:cp_ps_xform_from_minmax", "src/hob3l/ps.c:cp_ps_x", "src/hob3l/csg2-2ps.c:cp_csg2_tree_put_ps", "src/hob3l/csg2-2ps.c:coord"]}
{"id": "C120", "title": "The automatic grid fits the model: no overflow, and coordinates are exact in the output", "statement": "With the default --auto-grid (and --auto-grid-max), the grid chosen for a model is a power of two; each x and y coordinate of the model is converted to the integer grid without overflow, with an error of at most half a unit of the grid, and the resulting coordinates are exactly representable in the float of a binary STL file (24 bits), so that reading them back gives the same grid coordinate. The grid is not made coarser than necessary.", "quantifier": "all models (trees of objects), all grid settings, all modes, all roundings of doubles", "why_tests_cant": "The grid depends on the binary exponent of the largest coordinate; tests use small models for which the default grid is kept.", "anchors": ["src/hob3l/main.c:auto_dim_scale", "src/hob3l/main.c:do_file", "src/hob3lop/gon.c:cq_import_dim", "include/hob3lop/gon.h:cq_export_dim"]}
{"id": "C121", "title": "Command line options mean what the help says", "statement": "Each documented option is recognised by its full name after any number of dashes, abbreviations and unknown names are rejected; a value may be given as --x=v or as the next argument, with the same effect; options with a boolean have an opposite that undoes them; of several settings of the same thing, the last one counts; an option sets exactly its own setting; --dump-... selects the named format.", "quantifier": "all option names, values, positions on the command line, previous settings", "why_tests_cant": "71 options, generated opposites, and a binary search over a generated table: tests try a few options one at a time.", "anchors": ["src/hob3l/main.c:parse_opt", "src/hob3l/main.c:opt_cmp", "src/hob3l/main.c:main", "src/hob3l/opt.switch", "script/mkswitch:learn_case"]}
{"id": "C122", "title": "Values of options are parsed exactly or rejected", "statement": "A decimal number that fits is accepted with its value, everything that is not a number in range is rejected; a colour is six hexadecimal digits rrggbb; the output format follows from the suffix of the output file unless an explicit format is given, and an unknown suffix is an error.", "quantifier": "all strings", "why_tests_cant": "The set of accepted strings is infinite; signs and overflow are not tried by tests.", "anchors": ["src/hob3l/main.c:get_arg_size", "src/hob3l/main.c:get_arg_uint32", "src/hob3l/main.c:get_arg_uint8", "src/hob3l/main.c:get_arg_rgb", "src/hob3l/main.c:has_suffix", "src/hob3l/main.c:main"]}
{"id": "C123", "title": "The dump of the tree of 3D objects is a program for the same objects", "statement": "The text printed by the option that dumps the tree of 3D objects in SCAD syntax is a valid SCAD program, and reading it gives the same tree of objects (same balls with the same matrices, same solids with the same points and faces, same differences and intersections in the same order).", "quantifier": "for every tree of 3D objects that the program can make, every number formatting that is exact, every file name and file system", "why_tests_cant": "the tree may be arbitrarily deep and wide, and the claim is about all texts the printer can make, read by lexer, parser, argument conversion and CSG conversion together", "anchors": ["src/hob3l/csg3-2scad.c:cp_csg3_tree_put_scad", "src/hob3l/csg3.c:cp_csg3_from_scad_tree", "src/hob3l/scad.c:cp_scad_from_syn_tree", "src/hob3l/syn.c:cp_syn_parse"]}
{"id": "C124", "title": "The SCAD output describes the layers", "statement": "The SCAD output of a sliced model is a program that this tool reads without any error, with any options, and what it describes is exactly the layers: for each polygon of each layer the part of space above its area between the height of the layer and this plus the layer thickness without the gap. Empty layers and empty models are allowed; triangles are used if there are any.", "quantifier": "for all stacks of layers, all polygons with valid paths, all settings of thickness and gap, all numbers that are printed exactly, all options of the reader", "why_tests_cant": "The output is text that has to be derived by a grammar and then converted argument by argument; sizes are unbounded, and a wrong height, offset, index or bracket in one of the cases is not seen in samples.", "anchors": ["src/hob3l/csg2-2scad.c: cp_csg2_tree_put_scad", "src/hob3l/csg2-layer.c: cp_csg2_layer_thickness", "src/hob3l/syn.c: cp_syn_parse", "src/hob3l/scad.c: cp_scad_from_syn_tree"]}
{"id": "C125", "title": "Values kept in search tree nodes stay right", "statement": "A search tree can be given a callback that maintains, in every node, a value computed from the node itself and the values kept in its two children (for example the exclusive-or, sum or maximum over the subtree). If these values are right before an insertion, removal, extraction of an end, join of two trees (with or without an element in between) or split, they are right in every node of the resulting trees afterwards, in addition to the order, the balance and the root being right; so the root's value always describes the whole tree.", "quantifier": "all value types and callbacks, all valid trees of any size, all positions, all elements, all split points", "why_tests_cant": "a missing callback call corrupts a value only for particular shapes and colours of the tree and may be noticed only many operations later; tests can cover few shapes", "anchors": ["src/hob3lbase/dict.c:cp_dict_insert_ref_aug", "src/hob3lbase/dict.c:cp_dict_remove_aug", "src/hob3lbase/dict.c:cp_dict_join3_aug", "src/hob3lbase/dict.c:cp_dict_join2_aug", "src/hob3lbase/dict.c:cp_dict_split_aug", "src/hob3lop/op-sweep-internal.h:cq_sweep_bundle_aug_ev"]}
{"id": "C126", "title": "Exchanging two tree nodes", "statement": "Exchanging two nodes of search trees puts each node in the place of the other: the trees in memory afterwards are exactly the old ones with the two nodes exchanged, with the same shape, balance and otherwise the same order, all parent and child pointers fitting, and the root variables updated; nothing else in memory changes. This holds if both are in one tree (also parent and child, or siblings, or the root), in two trees, or if one is in no tree, which replaces the other by it. Exchanging two edges of a bundle also keeps the sums stored in the nodes right.", "quantifier": "all sets of disjoint trees of any size in memory, all pairs of nodes, all summed values", "why_tests_cant": "pointer surgery with several aliasing cases; a wrong pointer is noticed only when that pointer is followed later", "anchors": ["src/hob3lbase/dict.c:cp_dict_swap", "src/hob3lbase/dict.c:cp_dict_swap_update_root", "src/hob3lbase/dict.c:cp_dict_swap_update_root2", "src/hob3lop/op-sweep-internal.h:bundle_edge_swap"]}
{"id": "C127", "title": "Edges are in reverse order after their crossing", "statement": "When the sweep line passes a point where any number of edges cross, exactly the edges through this point change places: their vertical order is reversed, the order of all other edges is unchanged, and the tree remains valid. In the first phase, additionally, the edges through the point do not wait for any crossing afterwards, and crossings that were expected between the outermost of them and their old neighbours are forgotten. No run aborts.", "quantifier": "all trees of edges, all runs of edges through the point, at any position", "why_tests_cant": "requires many edges through one point off the grid; the limit on the number of edges in the assertions is reached only by inputs that no test contains", "anchors": ["src/hob3lop/op-sweep.c:ev_cross", "src/hob3lop/op-sweep.c:ev_clear_and_reverse", "src/hob3lop/op-sweep.c:sweep_phase2_edge_reverse", "src/hob3lop/op-sweep-internal.h:xing_split"]}
{"id": "C128", "title": "linear_extrude puts the points where the language says", "statement": "linear_extrude makes one polyhedron per outline of its children. Level k of n slices is the outline turned clockwise by k/n of the twist, then scaled by a factor that goes from 1 to the scale in each direction, then lifted to k/n of the height (minus half the height with center), then moved by the surrounding transformation; with scale 0 the last level is the one point over the origin. The sides between levels are flat faces. A negative scale is taken as 0. Outside of 3D, with a height or number of slices of 0, or with exactly one scale of 0, it is refused or skipped as the options say; nothing else is refused, and no assertion fails.", "quantifier": "all heights, twists, scales, numbers of slices, transformations, sets of outlines, message options", "why_tests_cant": "continuum of parameters; tests compare a few pictures or counts of faces", "anchors": ["src/hob3l/csg3.c:csg3_from_linext", "src/hob3l/csg3.c:faces_n_edges_from_tower"]}
{"id": "C129", "title": "Basic shapes have the points their parameters describe", "statement": "cube makes the eight corners of a box with the given sides, from the origin or centred; cylinder two regular polygons, with the first radius at the bottom and the second at the top, a radius of 0 making a single point; sphere, with a number of corners given, points of the sphere at equally spaced polar angles and directions, otherwise the scaled exact sphere; square and circle a rectangle and a regular polygon as a clockwise path. All are moved by the surrounding transformation, and the faces are reversed exactly if the transformation used for the points mirrors. Outside of the right context, or with a size of 0 or a radius or height that is not positive, the shape is refused or skipped as the options say.", "quantifier": "all sizes, radii, heights, center flags, numbers of corners, transformations, message options", "why_tests_cant": "continuum of parameters; pictures of a few shapes do not show special cases like radii of very different size", "anchors": ["src/hob3l/csg3.c:csg3_from_cube", "src/hob3l/csg3.c:csg3_from_cylinder", "src/hob3l/csg3.c:csg3_from_sphere", "src/hob3l/csg3.c:csg3_from_circle", "src/hob3l/csg3.c:csg3_from_square"]}
{"id": "C130", "title": "rotate_extrude makes the solids that the outlines and the angle describe", "statement": "rotate_extrude with an angle below 360 makes a solid from the outlines turned to equally spaced directions from the x axis to the angle, with the outlines as flat ends; a full turn makes two such solids that together go around once. The number of segments follows $fn. Points on the axis (within epsilon) are put exactly on the axis and are used once. All points are moved by the surrounding transformation, and the faces are oriented so that the volume is that of the outlines' moment about the axis, positive for counter-clockwise outlines, also on the negative side of the axis and under mirroring. Outlines on both sides of the axis, angles that are not positive, and uses outside of 3D are refused or skipped as the options say.", "quantifier": "all outlines (any number of paths and points), angles, $fn, transformations, epsilons, message options", "why_tests_cant": "the space of outlines and angles is a continuum; orientation errors for negative sides or mirrored objects show up only in some combinations", "anchors": ["src/hob3l/csg3.c:csg3_from_rotext", "src/hob3l/csg3.c:rotext_arc"]}
{"id": "C131", "title": "A run writes the output of the input and changes nothing else", "statement": "The run succeeds exactly if the input is accepted by every stage that the selected format needs; then the output file (or stdout) contains exactly the output in that format. No file except the output file is ever changed, and a run that fails keeps the old output file. --gran sets the reciprocal of --grid.", "quantifier": "all file systems, input and output files, formats, options, behaviours of the stages", "why_tests_cant": "depends on the order of side effects in failing runs and on coincidences of file names, which tests with fresh output files do not show", "anchors": ["src/hob3l/main.c:main", "src/hob3l/main.c:do_file"]}
{"id": "C132", "title": "polyhedron and polygon have exactly the given points, faces and paths", "statement": "polyhedron makes a solid with exactly the given points, moved by the surrounding transformation, and the given faces, turned around if the transformation mirrors, so that the volume keeps its sign; polygon an area with the given points, moved, and the given paths. Equal points are an error, wherever they are in the list; different points are none. Too few points or faces, and uses in the wrong context, are refused or skipped as the options say.", "quantifier": "all lists of points, faces and paths, transformations, epsilons, message options", "why_tests_cant": "the check for equal points depends on sorting with an inexact comparison: failures need special constellations of points", "anchors": ["src/hob3l/csg3.c:csg3_from_polyhedron", "src/hob3l/csg3.c:csg3_from_polygon"]}
{"id": "C133", "title": "import reads the file that is named, in the format it has", "statement": "A relative file name is looked up in the directory of the file that contains the import, an absolute one as it is. An SVG file is drawn in 2D, an STL file becomes a solid with exactly its triangles, moved by the surrounding transformation and turned around if that mirrors. Files that cannot be read, other XML files and damaged files are errors; the wrong context is refused or skipped as the options say.", "quantifier": "all file systems, names, file contents, transformations, contexts, message options", "why_tests_cant": "all file contents; the format is guessed from the first bytes, so rare but valid files matter", "anchors": ["src/hob3l/csg3.c:csg3_from_import", "src/hob3l/syn.c:cp_syn_read"]}
{"id": "C134", "title": "Arrays get the memory they need", "statement": "Requesting memory for n elements of size s either yields a block with room for n*s bytes or stops the program with an error, also if n*s does not fit into the machine word. Growing an array keeps its contents, and zeroes the new part if that was requested. Requests for no elements are served, too.", "quantifier": "for all numbers and sizes of elements, all old contents, all behaviours of the C library", "why_tests_cant": "The overflow occurs for products beyond 2^64, and failure of the C library's allocator cannot be provoked at each call by a test.", "anchors": ["src/hob3lbase/alloc.c:global_malloc", "src/hob3lbase/alloc.c:global_recalloc", "include/hob3lbase/alloc.h:cp_malloc"]}
{"id": "C135", "title": "Error messages show the place in the source", "statement": "A message about a place in a file begins with the name of the file, the number of the line and the column at which the place is displayed; the line is quoted with tabs expanded, and the mark on the line below it stands under the byte that is meant. A message about two places shows both.", "quantifier": "for all files, all places in them, all contents of lines", "why_tests_cant": "Tabs, control characters, bytes of UTF-8 and ends of files combine in unlimited ways on a line; tests of messages use a few short lines.", "anchors": ["src/hob3l/syn-msg.c:format_source_line", "src/hob3l/syn-msg.c:cp_syn_format_loc", "src/hob3l/syn-msg.c:cp_syn_get_loc"]}
{"id": "C136", "title": "Style and position of text; texts and surfaces are not lost silently", "statement": "text() selects the variant of the font by the keywords in the argument font, moves the text so that its beginning, center or end (halign) and its top, baseline or bottom (valign) are at the origin, and then applies the transformations around it. Texts that cannot be decoded, texts in a program without fonts, and surface(), which is not supported, are reported as errors.", "quantifier": "for all font names, alignments, rendered texts (any polygons and any width), and transformations around the text", "why_tests_cant": "The style depends on the place of substrings in an arbitrary name, and the position on the extent of arbitrary outlines; a test shows one font name and one text, and the default build has no fonts at all.", "anchors": ["src/hob3l/csg3.c: csg3_from_text, csg3_from_surface", "src/hob3l/scad.c: text_from_item", "doc/scadformat.md: text", "include/hob3lbase/panic.h: CP_NYI"]}
{"id": "C137", "title": "Exactly the elements of SVG are drawn", "statement": "When an SVG file is imported, the elements that are drawn are exactly those in the namespace of SVG that have only such elements around them, in the order of the document, whatever prefixes are used; attributes of other namespaces are ignored. A file whose first element is not an svg element of that namespace is rejected.", "quantifier": "for all files that the XML reader accepts, with any nesting of elements, prefixes and namespaces", "why_tests_cant": "Namespaces can be declared, shadowed and mixed at any depth; a test has one nesting.", "anchors": ["src/hob3l/csg3.c: csg3_from_import", "src/hob3l/xml-parse.c: cp_xml_set_ns, cp_xml_find, cp_xml_skip_attr", "src/hob3l/svg-parse.c: csg2_from_elem, s_attr_str"]}
