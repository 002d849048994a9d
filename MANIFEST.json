{
 "claims": [
  {
   "property": "C01",
   "status": "proved",
   "theorems": [
    "Hob3l.Matq.C01_divmod",
    "Hob3l.Matq.C01_divmodw"
   ],
   "note": ""
  },
  {
   "property": "C02",
   "status": "proved",
   "theorems": [
    "Hob3l.Matq.C02_mul_exact"
   ],
   "note": ""
  },
  {
   "property": "C03",
   "status": "proved",
   "theorems": [
    "Hob3l.Matq.C03_frac_cmp",
    "Hob3l.Matq.C03_mixed_cmp"
   ],
   "note": ""
  },
  {
   "property": "C04",
   "status": "proved",
   "theorems": [
    "Hob3l.Matq.C04_cmp_values",
    "Hob3l.Matq.C04_total_order",
    "Hob3l.Matq.C04_grid_cmp"
   ],
   "note": ""
  },
  {
   "property": "C05",
   "status": "proved",
   "theorems": [
    "Hob3l.Matq.C05_div_exact",
    "Hob3l.Matq.C05_domain"
   ],
   "note": ""
  },
  {
   "property": "C06",
   "status": "proved",
   "theorems": [
    "Hob3l.Matq.C06_mul_div"
   ],
   "note": ""
  },
  {
   "property": "C07",
   "status": "proved",
   "theorems": [
    "Hob3l.Matq.C07_classification"
   ],
   "note": ""
  },
  {
   "property": "C08",
   "status": "proved",
   "theorems": [
    "Hob3l.Matq.C08_exact_point"
   ],
   "note": ""
  },
  {
   "property": "C09",
   "status": "proved",
   "theorems": [
    "Hob3l.Matq.C09_no_overflow",
    "Hob3l.Matq.C09_range_is_tight"
   ],
   "note": ""
  },
  {
   "property": "C10",
   "status": "proved",
   "theorems": [
    "Hob3l.Matq.C10_round",
    "Hob3l.Matq.C10_round_props"
   ],
   "note": ""
  },
  {
   "property": "C11",
   "status": "proved",
   "theorems": [
    "Hob3l.Matq.C11_divw_rnd",
    "Hob3l.Matq.C11_negative_divisor_wrong"
   ],
   "note": "Proved for positive divisors; the theorem C11_negative_divisor_wrong shows the code is wrong for negative divisors (3/-3 gives 0)."
  },
  {
   "property": "C12",
   "status": "partial",
   "theorems": [
    "Hob3l.Matq.C12_spurious_overflow",
    "Hob3l.Matq.C12_divmodx_partial"
   ],
   "note": "The claim is false for the code (C12_spurious_overflow); proved: exact characterisation of when it returns."
  },
  {
   "property": "C13",
   "status": "proved",
   "theorems": [
    "Hob3l.Matq.C13_pixel_edge",
    "Hob3l.Matq.C13_orientation_needed"
   ],
   "note": "For edges stored left to right, as the sweep does; C13_orientation_needed shows the restriction is necessary."
  },
  {
   "property": "C14",
   "status": "proved",
   "theorems": [
    "Hob3l.Bitmap.C14_spread",
    "Hob3l.Bitmap.C14_domain"
   ],
   "note": ""
  },
  {
   "property": "C15",
   "status": "proved",
   "theorems": [
    "Hob3l.Bitmap.C15_repeat",
    "Hob3l.Bitmap.C15_domain"
   ],
   "note": ""
  },
  {
   "property": "C16",
   "status": "proved",
   "theorems": [
    "Hob3l.Bitmap.C16_combine",
    "Hob3l.Bitmap.C16_get_set",
    "Hob3l.Bitmap.C16_joint_table"
   ],
   "note": ""
  },
  {
   "property": "C17",
   "status": "proved",
   "theorems": [
    "Hob3l.Flatten.C17_flatten_layer",
    "Hob3l.Flatten.C17_flatten"
   ],
   "note": "For the default setting of the skip-empty switch. The plane sweep is a parameter whose contract (result = Boolean combination of its inputs) is a hypothesis; an instance is exhibited."
  },
  {
   "property": "C18",
   "status": "proved",
   "theorems": [
    "Hob3l.Flatten.C18_capacity",
    "Hob3l.Flatten.C18_combine",
    "Hob3l.Flatten.C18_limit_needed"
   ],
   "note": ""
  },
  {
   "property": "C19",
   "status": "partial",
   "theorems": [
    "Hob3l.Flatten.C19_skip_empty_off_partial",
    "Hob3l.Flatten.C19_list_ok",
    "Hob3l.Flatten.C19_wrong"
   ],
   "note": "The claim is false for the code: C19_wrong gives a tree where switching the optimisation off changes the result. Proved: it holds whenever the tree has at most min(limit,10) polygons at that height."
  },
  {
   "property": "C20",
   "status": "proved",
   "theorems": [
    "Hob3l.Sweep.C20_overlap",
    "Hob3l.Sweep.C20_split",
    "Hob3l.Sweep.C20_pair"
   ],
   "note": "Functions ev_overlap, ev_split, ev_pair. Membership of edges in the search trees is modelled by flags; crossing records are only modelled as 'scheduled or not'."
  },
  {
   "property": "C21",
   "status": "proved",
   "theorems": [
    "Hob3l.Sweep.C21_add_edge",
    "Hob3l.Sweep.C21_add_path",
    "Hob3l.Sweep.C21_add_tri",
    "Hob3l.Sweep.C21_add_lines"
   ],
   "note": ""
  },
  {
   "property": "C22",
   "status": "proved",
   "theorems": [
    "Hob3l.Sweep.C22_containment_bits",
    "Hob3l.Sweep.C22_reduce"
   ],
   "note": "Scan line events are modelled at the level of vertices: the place of a vertex in the state is given (geometric search is C23_tree), edges ending at a vertex are adjacent, and outlines are closed (C21_add_path, C20)."
  },
  {
   "property": "C23",
   "status": "proved",
   "theorems": [
    "Hob3l.Sweep.C23_vec2_cmp",
    "Hob3l.Sweep.C23_phase1",
    "Hob3l.Sweep.C23_phase2",
    "Hob3l.Sweep.C23_xing_phase1",
    "Hob3l.Sweep.C23_xing_phase2",
    "Hob3l.Sweep.C23_result",
    "Hob3l.Sweep.C23_tree",
    "Hob3l.Sweep.C23_tree_end",
    "Hob3l.Sweep.C23_tree_monotone"
   ],
   "note": ""
  },
  {
   "property": "C24",
   "status": "proved",
   "theorems": [
    "Hob3l.Slice.C24_even_cut_points"
   ],
   "note": ""
  },
  {
   "property": "C25",
   "status": "proved",
   "theorems": [
    "Hob3l.Slice.C25_cut_point",
    "Hob3l.Slice.C25_no_cut",
    "Hob3l.Slice.C25_exact_on_side"
   ],
   "note": ""
  },
  {
   "property": "C26",
   "status": "proved",
   "theorems": [
    "Hob3l.Slice.C26_watertight",
    "Hob3l.Slice.C26_degree"
   ],
   "note": ""
  },
  {
   "property": "C27",
   "status": "proved",
   "theorems": [
    "Hob3l.Slice.C27_fini"
   ],
   "note": ""
  },
  {
   "property": "C28",
   "status": "proved",
   "theorems": [
    "Hob3l.Dict.C28_insert_at",
    "Hob3l.Dict.C28_insert_end",
    "Hob3l.Dict.C28_insert_update_at",
    "Hob3l.Dict.C28_insert_update_at_null_wrong"
   ],
   "note": "C28_insert_update_at_null_wrong shows that the variant with cached extrema does not update them when inserting at a NULL position of a non-empty tree."
  },
  {
   "property": "C29",
   "status": "proved",
   "theorems": [
    "Hob3l.Dict.C29_remove",
    "Hob3l.Dict.C29_extract",
    "Hob3l.Dict.C29_extract_update"
   ],
   "note": ""
  },
  {
   "property": "C30",
   "status": "proved",
   "theorems": [
    "Hob3l.Dict.C30_lookup",
    "Hob3l.Dict.C30_first_last",
    "Hob3l.Dict.C30_always_insert",
    "Hob3l.Dict.C30_insert_by"
   ],
   "note": ""
  },
  {
   "property": "C31",
   "status": "proved",
   "theorems": [
    "Hob3l.Dict.C31_join3",
    "Hob3l.Dict.C31_join2",
    "Hob3l.Dict.C31_split"
   ],
   "note": ""
  },
  {
   "property": "C32",
   "status": "proved",
   "theorems": [
    "Hob3l.Dict.C32_walk",
    "Hob3l.Dict.C32_step"
   ],
   "note": ""
  },
  {
   "property": "C33",
   "status": "proved",
   "theorems": [
    "Hob3l.Dict.C33_height",
    "Hob3l.Dict.C33_reachable"
   ],
   "note": ""
  },
  {
   "property": "C34",
   "status": "proved",
   "theorems": [
    "Hob3l.Heap.C34_vec_insert",
    "Hob3l.Heap.C34_vec_extract",
    "Hob3l.Heap.C34_vec_update",
    "Hob3l.Heap.C34_vec_min",
    "Hob3l.Heap.C34_insert",
    "Hob3l.Heap.C34_remove",
    "Hob3l.Heap.C34_extract",
    "Hob3l.Heap.C34_min",
    "Hob3l.Heap.C34_update",
    "Hob3l.Heap.C34_replace",
    "Hob3l.Heap.C34_replace_modes",
    "Hob3l.Heap.C34_history"
   ],
   "note": ""
  },
  {
   "property": "C35",
   "status": "partial",
   "theorems": [
    "Hob3l.Heap.C35_vec_make_partial",
    "Hob3l.Heap.C35_vec_make_wrong",
    "Hob3l.Heap.C35_make_partial"
   ],
   "note": "The claim is false for the code: the size field is one too large after making a heap of two or more elements (C35_vec_make_wrong). Proved: the elements are permuted into heap order, with right indices, and other memory is untouched."
  },
  {
   "property": "C36",
   "status": "partial",
   "theorems": [
    "Hob3l.Vec.C36_inflate",
    "Hob3l.Vec.C36_set_size",
    "Hob3l.Vec.C36_ensure_size",
    "Hob3l.Vec.C36_clear",
    "Hob3l.Vec.C36_copy_arr",
    "Hob3l.Vec.C36_copy",
    "Hob3l.Vec.C36_copy_self",
    "Hob3l.Vec.C36_insert_partial",
    "Hob3l.Vec.C36_insert_self_partial",
    "Hob3l.Vec.C36_insert_self_wrong",
    "Hob3l.Vec.C36_adjacent_wrong",
    "Hob3l.Vec.C36_push",
    "Hob3l.Vec.C36_append",
    "Hob3l.Vec.C36_append_self",
    "Hob3l.Vec.C36_remove",
    "Hob3l.Vec.C36_extract",
    "Hob3l.Vec.C36_pop",
    "Hob3l.Vec.C36_reverse"
   ],
   "note": "The claim is false for the code when a part of a vector is inserted into itself at an overlapping or near position (C36_insert_self_wrong, exact condition) or when the inserted array starts at the end address of the vector (C36_adjacent_wrong); all other operations are proved to be the list operations."
  },
  {
   "property": "C37",
   "status": "proved",
   "theorems": [
    "Hob3l.Vec.C37_bsearch",
    "Hob3l.Vec.C37_sorted",
    "Hob3l.Vec.C37_steps"
   ],
   "note": ""
  },
  {
   "property": "C38",
   "status": "proved",
   "theorems": [
    "Hob3l.Ring.C38_rotate",
    "Hob3l.Ring.C38_init",
    "Hob3l.Ring.C38_frame",
    "Hob3l.Ring.C38_inverse",
    "Hob3l.Ring.C38_join",
    "Hob3l.Ring.C38_split",
    "Hob3l.Ring.C38_remove",
    "Hob3l.Ring.C38_is_member",
    "Hob3l.Ring.C38_each",
    "Hob3l.Ring.C38_each_rev"
   ],
   "note": ""
  },
  {
   "property": "C39",
   "status": "proved",
   "theorems": [
    "Hob3l.Pool.C39_calloc",
    "Hob3l.Pool.C39_disjoint",
    "Hob3l.Pool.C39_never_dies",
    "Hob3l.Pool.C39_succeeds",
    "Hob3l.Pool.C39_pool_calloc",
    "Hob3l.Pool.C39_realloc",
    "Hob3l.Pool.C39_clear",
    "Hob3l.Pool.C39_align0_wrong"
   ],
   "note": "The system allocator is a parameter with the contract that it returns unused zeroed memory; C39_align0_wrong records that the documented alignment 0 fails an assertion."
  },
  {
   "property": "C40",
   "status": "proved",
   "theorems": [
    "Hob3l.Align.C40_accept",
    "Hob3l.Align.C40_align_down",
    "Hob3l.Align.C40_align_up",
    "Hob3l.Align.C40_align_up_overflow",
    "Hob3l.Align.C40_size_align",
    "Hob3l.Align.C40_idx0"
   ],
   "note": ""
  },
  {
   "property": "C41",
   "status": "proved",
   "theorems": [
    "Hob3l.VChar.C41_append_arr",
    "Hob3l.VChar.C41_append",
    "Hob3l.VChar.C41_print",
    "Hob3l.VChar.C41_shrink",
    "Hob3l.VChar.C41_cstr",
    "Hob3l.VChar.C41_history",
    "Hob3l.VChar.C41_append_self_wrong"
   ],
   "note": "Appending a string to itself is excluded: C41_append_self_wrong shows exactly when it reads freed memory."
  },
  {
   "property": "C42",
   "status": "partial",
   "theorems": [
    "Hob3l.Utf8.C42_encode",
    "Hob3l.Utf8.C42_unique",
    "Hob3l.Utf8.C42_encode_assert",
    "Hob3l.Utf8.C42_decode_encoded_partial",
    "Hob3l.Utf8.C42_roundtrip_partial",
    "Hob3l.Utf8.C42_ascii",
    "Hob3l.Utf8.C42_wrong",
    "Hob3l.Utf8.C42_not_injective",
    "Hob3l.Utf8.C42_accepts_exactly_partial",
    "Hob3l.Utf8.C42_decode_total"
   ],
   "note": "The decoder ors the tag bits of the continuation bytes into the code point, so the round trip is false for most non-ASCII code points (C42_wrong, C42_not_injective). Proved: the encoder is standard UTF-8, the exact set of code points that survive the round trip, the exact set of accepted sequences, ASCII, totality."
  },
  {
   "property": "C43",
   "status": "partial",
   "theorems": [
    "Hob3l.Utf8.C43_hex",
    "Hob3l.Utf8.C43_simple",
    "Hob3l.Utf8.C43_unrecognised",
    "Hob3l.Utf8.C43_plain",
    "Hob3l.Utf8.C43_premature_partial",
    "Hob3l.Utf8.C43_wrong_last",
    "Hob3l.Utf8.C43_wrong",
    "Hob3l.Utf8.C43_backslash_at_end"
   ],
   "note": "A broken last hexadecimal digit is not rejected (C43_wrong_last, C43_wrong). Proved: complete sequences, single-character escapes, unrecognised escapes, plain text, and rejection of every broken digit but the last."
  },
  {
   "property": "C44",
   "status": "partial",
   "theorems": [
    "Hob3l.Stl.C44_binary",
    "Hob3l.Stl.C44_roundtrip",
    "Hob3l.Stl.C44_solid_header_wrong"
   ],
   "note": "Exact acceptance condition, result, absence of out-of-bounds reads and the round trip are proved for every file that does not begin with 'solid'. A correct binary file whose header begins with 'solid' is taken for text and rejected (C44_solid_header_wrong)."
  },
  {
   "property": "C45",
   "status": "partial",
   "theorems": [
    "Hob3l.Stl.C45_header_partial",
    "Hob3l.Stl.C45_header_wrong",
    "Hob3l.Stl.C45_text_partial",
    "Hob3l.Stl.C45_total",
    "Hob3l.Stl.C45_lost_triangle_wrong",
    "Hob3l.Stl.C45_more_wrong"
   ],
   "note": "False if no name follows 'solid': the next line is lost (C45_header_wrong, C45_lost_triangle_wrong). Proved: the header line with any other character behind 'solid', reading of complete text files, termination on every text."
  },
  {
   "property": "C46",
   "status": "proved",
   "theorems": [
    "Hob3l.Syn.C46_tokens",
    "Hob3l.Syn.C46_reads",
    "Hob3l.Syn.C46_strings"
   ],
   "note": ""
  },
  {
   "property": "C47",
   "status": "partial",
   "theorems": [
    "Hob3l.Loc.C47_partial",
    "Hob3l.Loc.C47_inside_partial",
    "Hob3l.Loc.C47_wrong",
    "Hob3l.Loc.C47_wrong_everywhere",
    "Hob3l.Loc.C47_file"
   ],
   "note": "line numbers are wrong at line starts (C47_wrong, C47_wrong_everywhere) and may be one too large at an unterminated end of file; proved: exact range of deviation for all files and positions, right inside of lines, the quoted text, the file lookup"
  },
  {
   "property": "C48",
   "status": "partial",
   "theorems": [
    "Hob3l.Color.C48_hex",
    "Hob3l.Color.C48_names_partial",
    "Hob3l.Color.C48_unique",
    "Hob3l.Color.C48_wrong"
   ],
   "note": "unknown names crash with a NULL access instead of being reported (C48_wrong); everything else proved exactly for all strings (C48_hex, C48_names_partial)"
  },
  {
   "property": "C49",
   "status": "proved",
   "theorems": [
    "Hob3l.Layer.C49_layers",
    "Hob3l.Layer.C49_any_order",
    "Hob3l.Layer.C49_out_of_range",
    "Hob3l.Layer.C49_skips"
   ],
   "note": ""
  },
  {
   "property": "C50",
   "status": "proved",
   "theorems": [
    "Hob3l.Export.C50_binary",
    "Hob3l.Export.C50_count",
    "Hob3l.Export.C50_read_back",
    "Hob3l.Export.C50_text_read_back",
    "Hob3l.Export.C50_closed",
    "Hob3l.Export.C50_file_closed",
    "Hob3l.Export.C50_outwards"
   ],
   "note": ""
  },
  {
   "property": "C51",
   "status": "partial",
   "theorems": [
    "Hob3l.Xform.C51_det",
    "Hob3l.Xform.C51_inv_partial",
    "Hob3l.Xform.C51_affine_partial",
    "Hob3l.Xform.C51_small_wrong",
    "Hob3l.Xform.C51_swap_partial",
    "Hob3l.Xform.C51_into_z_wrong"
   ],
   "note": "Proved when |det| >= the tolerance; smaller determinants are treated as singular (C51_small_wrong), inversion into another variable records a wrong determinant (C51_swap_partial), and the rotation of the downward direction into Z is a reflection with recorded determinant 1 (C51_into_z_wrong)."
  },
  {
   "property": "C52",
   "status": "partial",
   "theorems": [
    "Hob3l.Rect.C52_rejects_wrong",
    "Hob3l.Rect.C52_accepts_wrong",
    "Hob3l.Rect.C52_accepts_iff_partial"
   ],
   "note": "Refuted: the test rejects every axis permutation (C52_rejects_wrong) and accepts others (C52_accepts_wrong); what it accepts is characterised exactly. It is not called by the program."
  },
  {
   "property": "C53",
   "status": "partial",
   "theorems": [
    "Hob3l.Hull.C53_hull_partial",
    "Hob3l.Hull.C53_grid_partial",
    "Hob3l.Hull.C53_wrong"
   ],
   "note": "Proved for all point lists whose coordinates, squared distances and areas are told apart by the epsilons (in particular for coordinates on a grid of 1/128 mm), for every order qsort may choose for equal elements. C53_wrong: squared distances are compared with the epsilon for distances, so a hull corner can be lost for finer coordinates."
  },
  {
   "property": "C54",
   "status": "partial",
   "theorems": [
    "Hob3l.Bbox.C54_plane",
    "Hob3l.Bbox.C54_sweep",
    "Hob3l.Bbox.C54_space",
    "Hob3l.Bbox.C54_init",
    "Hob3l.Bbox.C54_init_space",
    "Hob3l.Bbox.C54_projection_wrong",
    "Hob3l.Bbox.C54_projection_partial",
    "Hob3l.Bbox.C54_point",
    "Hob3l.Bbox.C54_or",
    "Hob3l.Bbox.C54_or_empty",
    "Hob3l.Bbox.C54_and",
    "Hob3l.Bbox.C54_valid"
   ],
   "note": "all box operations proved exact except the projection of a 3D box, which uses only the lower corner (C54_projection_wrong)"
  },
  {
   "property": "C55",
   "status": "proved",
   "theorems": [
    "Hob3l.Poly.C55_conserved"
   ],
   "note": ""
  },
  {
   "property": "C56",
   "status": "partial",
   "theorems": [
    "Hob3l.Stream.C56_wrong",
    "Hob3l.Stream.C56_wrong_everywhere",
    "Hob3l.Stream.C56_empty_wrong",
    "Hob3l.Stream.C56_call_partial",
    "Hob3l.Stream.C56_run_partial"
   ],
   "note": "short writes are not detected and empty writes stop the program (C56_wrong, C56_empty_wrong); proved for environments that accept all or nothing"
  },
  {
   "property": "C57",
   "status": "partial",
   "theorems": [
    "Hob3l.Dedup.C57_dedup_partial",
    "Hob3l.Dedup.C57_grid_partial",
    "Hob3l.Dedup.C57_epsilon_wrong"
   ],
   "note": "Proved for every consistent comparison and for coordinates on a grid. The comparison with an epsilon is not transitive: C57_epsilon_wrong."
  },
  {
   "property": "C58",
   "status": "proved",
   "theorems": [
    "Hob3l.Slice.C58_face_even_odd"
   ],
   "note": ""
  },
  {
   "property": "C59",
   "status": "proved",
   "theorems": [
    "Hob3l.Sieve.C59_find"
   ],
   "note": ""
  },
  {
   "property": "C60",
   "status": "partial",
   "theorems": [
    "Hob3l.Bbox.C60_encloses_partial",
    "Hob3l.Bbox.C60_max_partial",
    "Hob3l.Bbox.C60_cut_tight_partial",
    "Hob3l.Bbox.C60_first_wrong",
    "Hob3l.Bbox.C60_sphere_partial",
    "Hob3l.Bbox.C60_wrong"
   ],
   "note": "fails with spheres (C60_wrong: the maximum is compared with the minimum and may shrink); proved for all trees of polyhedra and for single spheres"
  },
  {
   "property": "C61",
   "status": "partial",
   "theorems": [
    "Hob3l.Scad.C61_meaning_partial",
    "Hob3l.Scad.C61_subtree_partial",
    "Hob3l.Scad.C61_fails_iff_partial",
    "Hob3l.Scad.C61_difference_first_partial",
    "Hob3l.Scad.C61_lone_wrong",
    "Hob3l.Scad.C61_hollow_wrong"
   ],
   "note": "Meaning preserved and failures characterised exactly for trees without zero-extent objects; code disagrees for intersections with a disabled/empty last child (assertion) and with zero-extent children (C61_lone_wrong, C61_hollow_wrong)."
  },
  {
   "property": "C62",
   "status": "partial",
   "theorems": [
    "Hob3l.Whole.C62_scad_to_layers_partial",
    "Hob3l.Whole.C62_lone_wrong"
   ],
   "note": "Holds for trees without zero-extent objects and without intersections with one enabled child and a disabled/empty last child; for the latter the run aborts (C62_lone_wrong)."
  },
  {
   "property": "C63",
   "status": "partial",
   "theorems": [
    "Hob3l.Range.C63_inside_partial",
    "Hob3l.Range.C63_height_partial",
    "Hob3l.Range.C63_cover_partial",
    "Hob3l.Range.C63_thin_partial",
    "Hob3l.Range.C63_thin_wrong",
    "Hob3l.Range.C63_single"
   ],
   "note": "Proved for models at least half a layer high, in exact arithmetic; thinner models are cut at height 0 wherever they are (C63_thin_partial, C63_thin_wrong)."
  },
  {
   "property": "C64",
   "status": "partial",
   "theorems": [
    "Hob3l.Xform.C64_chain_partial",
    "Hob3l.Xform.C64_tiny_wrong",
    "Hob3l.Xform.C64_axis_wrong"
   ],
   "note": "Proved for chains without tiny translations and without tiny rotation axes; both are handled wrongly by the code (C64_tiny_wrong, C64_axis_wrong)."
  },
  {
   "property": "C65",
   "status": "partial",
   "theorems": [
    "Hob3l.Xform.C65_sphere_partial",
    "Hob3l.Xform.C65_wrong"
   ],
   "note": "Proved if the plane is not stretched by more than 1/epsilon (Steady); large tilted ellipsoids are sliced wrongly (C65_wrong)."
  },
  {
   "property": "C66",
   "status": "proved",
   "theorems": [
    "Hob3l.Poly.C66_holes"
   ],
   "note": ""
  },
  {
   "property": "C67",
   "status": "proved",
   "theorems": [
    "Hob3l.Poly.C67_alternate"
   ],
   "note": ""
  },
  {
   "property": "C68",
   "status": "proved",
   "theorems": [
    "Hob3l.Poly.C68_points"
   ],
   "note": ""
  },
  {
   "property": "C69",
   "status": "proved",
   "theorems": [
    "Hob3l.Poly.C69_total",
    "Hob3l.Poly.C69_search"
   ],
   "note": ""
  },
  {
   "property": "C70",
   "status": "proved",
   "theorems": [
    "Hob3l.Poly.C70_inside"
   ],
   "note": ""
  },
  {
   "property": "C71",
   "status": "proved",
   "theorems": [
    "Hob3l.Syn.C71_sound",
    "Hob3l.Syn.C71_complete",
    "Hob3l.Syn.C71_unique",
    "Hob3l.Syn.C71_total"
   ],
   "note": ""
  },
  {
   "property": "C72",
   "status": "partial",
   "theorems": [
    "Hob3l.Syn.C72_include_partial",
    "Hob3l.Syn.C72_int_partial",
    "Hob3l.Syn.C72_number_wrong",
    "Hob3l.Syn.C72_int_wrong",
    "Hob3l.Syn.C72_nul_wrong",
    "Hob3l.Syn.C72_include_wrong",
    "Hob3l.Syn.C72_cycle_wrong",
    "Hob3l.Syn.C72_bare_wrong"
   ],
   "note": "False for the code: C72_number_wrong (a sign or point alone is the number 0), C72_int_wrong (integers are clamped to 64 bits silently), C72_nul_wrong (everything behind a NUL is ignored), C72_include_wrong (include at top level is always rejected), C72_cycle_wrong (self-including file: the parser runs forever), C72_bare_wrong (include without <path> reads the file named by the next token). Proved parts: C72_include_partial, C72_int_partial."
  },
  {
   "property": "C73",
   "status": "proved",
   "theorems": [
    "Hob3l.Solid.C73_solid",
    "Hob3l.Solid.C73_numbers",
    "Hob3l.Solid.C73_mirror",
    "Hob3l.Solid.C73_slice_closed",
    "Hob3l.Solid.C73_max_fn_wrong"
   ],
   "note": ""
  },
  {
   "property": "C74",
   "status": "proved",
   "theorems": [
    "Hob3l.Solid.C74_rotate_extrude",
    "Hob3l.Solid.C74_slice_closed",
    "Hob3l.Solid.C74_both_sides",
    "Hob3l.Solid.C74_max_fn_wrong"
   ],
   "note": ""
  },
  {
   "property": "C75",
   "status": "proved",
   "theorems": [
    "Hob3l.Solid.C75_section",
    "Hob3l.Solid.C75_section_twisted",
    "Hob3l.Solid.C75_section_tip",
    "Hob3l.Solid.C75_outside",
    "Hob3l.Solid.C75_prism"
   ],
   "note": ""
  },
  {
   "property": "C76",
   "status": "proved",
   "theorems": [
    "Hob3l.Solid.C76_each_once",
    "Hob3l.Solid.C76_symmetric",
    "Hob3l.Solid.C76_regular"
   ],
   "note": ""
  },
  {
   "property": "C77",
   "status": "proved",
   "theorems": [
    "Hob3l.Solid.C77_cube",
    "Hob3l.Solid.C77_cylinder",
    "Hob3l.Solid.C77_cylinder_clockwise",
    "Hob3l.Solid.C77_sphere",
    "Hob3l.Solid.C77_linear_extrude"
   ],
   "note": ""
  },
  {
   "property": "C78",
   "status": "proved",
   "theorems": [
    "Hob3l.Args.C78_accepted",
    "Hob3l.Args.C78_value",
    "Hob3l.Args.C78_vector",
    "Hob3l.Args.C78_order"
   ],
   "note": ""
  },
  {
   "property": "C79",
   "status": "partial",
   "theorems": [
    "Hob3l.Args.C79_strict_partial",
    "Hob3l.Args.C79_ignored_partial",
    "Hob3l.Args.C79_wrong"
   ],
   "note": "The claim is false for the code (C79_wrong): get_arg returns at an unknown parameter, so that what follows is ignored and mandatory parameters are not checked. Proved: it is an error if the option says so; otherwise the exact effect."
  },
  {
   "property": "C80",
   "status": "proved",
   "theorems": [
    "Hob3l.Args.C80_cylinder",
    "Hob3l.Args.C80_cylinder_accepted",
    "Hob3l.Args.C80_sphere",
    "Hob3l.Args.C80_circle",
    "Hob3l.Args.C80_round_accepted"
   ],
   "note": ""
  },
  {
   "property": "C81",
   "status": "proved",
   "theorems": [
    "Hob3l.Args.C81_polyhedron",
    "Hob3l.Args.C81_polygon"
   ],
   "note": ""
  },
  {
   "property": "C82",
   "status": "partial",
   "theorems": [
    "Hob3l.Args.C82_no_crash_partial",
    "Hob3l.Args.C82_program_partial",
    "Hob3l.Args.C82_wrong"
   ],
   "note": "The claim is false for the code (C82_wrong): multmatrix with a value that is no array, unknown parameters with the default option, use. Proved for everything else."
  },
  {
   "property": "C83",
   "status": "proved",
   "theorems": [
    "Hob3l.Args.C83_root",
    "Hob3l.Args.C83_accepted"
   ],
   "note": ""
  },
  {
   "property": "C84",
   "status": "proved",
   "theorems": [
    "Hob3l.Args.C84_unquote",
    "Hob3l.Args.C84_every_text"
   ],
   "note": ""
  },
  {
   "property": "C85",
   "status": "proved",
   "theorems": [
    "Hob3l.Args.C85_shape",
    "Hob3l.Args.C85_unknown_functor"
   ],
   "note": ""
  },
  {
   "property": "C86",
   "status": "proved",
   "theorems": [
    "Hob3l.Tri.C86_total"
   ],
   "note": ""
  },
  {
   "property": "C87",
   "status": "proved",
   "theorems": [
    "Hob3l.Tri.C87_triangles",
    "Hob3l.Tri.C87_points"
   ],
   "note": ""
  },
  {
   "property": "C88",
   "status": "proved",
   "theorems": [
    "Hob3l.Tri.C88_cover",
    "Hob3l.Tri.C88_disjoint",
    "Hob3l.Tri.C88_only",
    "Hob3l.Tri.C88_all"
   ],
   "note": ""
  },
  {
   "property": "C89",
   "status": "proved",
   "theorems": [
    "Hob3l.Tri.C89_area"
   ],
   "note": ""
  },
  {
   "property": "C90",
   "status": "partial",
   "theorems": [
    "Hob3l.Tri.C90_flag_is_edge",
    "Hob3l.Tri.C90_side_once",
    "Hob3l.Tri.C90_matched",
    "Hob3l.Tri.C90_edge_side",
    "Hob3l.Tri.C90_outline_partial",
    "Hob3l.Tri.C90_not"
   ],
   "note": "C90_not: where two contours touch at a vertex, the mark of an edge is lost; with contours that have no common vertex, C90_outline_partial is the full statement; the other parts of the statement hold without this condition"
  },
  {
   "property": "C91",
   "status": "partial",
   "theorems": [
    "Hob3l.Tri.C91_closed_partial",
    "Hob3l.Tri.C91_not"
   ],
   "note": "C91_not: two triangles that touch at a corner give an open surface; C91_closed_partial holds if no two contours have a common vertex"
  },
  {
   "property": "C92",
   "status": "proved",
   "theorems": [
    "Hob3l.Args.C92_names",
    "Hob3l.Args.C92_values",
    "Hob3l.Args.C92_fields",
    "Hob3l.Args.C92_color",
    "Hob3l.Args.C92_rotate",
    "Hob3l.Args.C92_made"
   ],
   "note": ""
  },
  {
   "property": "C93",
   "status": "proved",
   "theorems": [
    "Hob3l.Args.C93_names",
    "Hob3l.Args.C93_children"
   ],
   "note": ""
  },
  {
   "property": "C94",
   "status": "partial",
   "theorems": [
    "Hob3l.Ctx.C94_context",
    "Hob3l.Ctx.C94_complete",
    "Hob3l.Ctx.C94_hull_wrong"
   ],
   "note": "context proved for all trees; transformations around hull() and projection() are dropped by the code (C94_hull_wrong), and the theorem states this with 'within the innermost extrusion, hull or projection'"
  },
  {
   "property": "C95",
   "status": "partial",
   "theorems": [
    "Hob3l.Ctx.C95_alone",
    "Hob3l.Ctx.C95_keep",
    "Hob3l.Ctx.C95_same",
    "Hob3l.Ctx.C95_disabled_wrong"
   ],
   "note": "proved; without kept context an object inside a disabled one is converted (C95_disabled_wrong)"
  },
  {
   "property": "C96",
   "status": "proved",
   "theorems": [
    "Hob3l.Ctx.C96_place",
    "Hob3l.Ctx.C96_accepted"
   ],
   "note": ""
  },
  {
   "property": "C97",
   "status": "partial",
   "theorems": [
    "Hob3l.Xml.C97_documents_partial",
    "Hob3l.Xml.C97_one_root",
    "Hob3l.Xml.C97_comment_wrong",
    "Hob3l.Xml.C97_xml_prefix_wrong",
    "Hob3l.Xml.C97_nonascii_wrong",
    "Hob3l.Xml.C97_lenient_wrong"
   ],
   "note": "proved for all well-formed ASCII documents without comments directly before end tags; those, the prefix xml and characters outside of ASCII are wrong in the code (C97_comment_wrong, C97_xml_prefix_wrong, C97_nonascii_wrong); not-well-formed input is accepted (C97_lenient_wrong)"
  },
  {
   "property": "C98",
   "status": "proved",
   "theorems": [
    "Hob3l.Xml.C98_text_in_place"
   ],
   "note": ""
  },
  {
   "property": "C99",
   "status": "partial",
   "theorems": [
    "Hob3l.Xml.C99_wrong",
    "Hob3l.Xml.C99_ends_partial"
   ],
   "note": "false: C99_wrong has files on which the reader does not end or crashes; proved: all other loops end (C99_ends_partial), and on well-formed documents there is always a tree or a message (C97)"
  },
  {
   "property": "C100",
   "status": "partial",
   "theorems": [
    "Hob3l.Svg.C100_path_data_partial",
    "Hob3l.Svg.C100_accepted",
    "Hob3l.Svg.C100_double_comma",
    "Hob3l.Svg.C100_exponent_wrong",
    "Hob3l.Svg.C100_close_wrong",
    "Hob3l.Svg.C100_zero_line_wrong"
   ],
   "note": "proved for all well-formed path data without a sign in exponents, without closing an empty subpath, without lines of length 0 after a curve, and with lines not shorter than epsilon; negations: C100_exponent_wrong, C100_close_wrong, C100_zero_line_wrong; arithmetic is exact"
  },
  {
   "property": "C101",
   "status": "partial",
   "theorems": [
    "Hob3l.Svg.C101_polygon",
    "Hob3l.Svg.C101_distinct_partial"
   ],
   "note": "references proved for any transformation and any permutation; that points are distinct needs a transitive comparison, which the epsilon comparison of the code is not; arithmetic is exact"
  },
  {
   "property": "C102",
   "status": "partial",
   "theorems": [
    "Hob3l.Svg.C102_arc_partial",
    "Hob3l.Svg.C102_flat_wrong",
    "Hob3l.Svg.C102_small_wrong"
   ],
   "note": "proved over the real numbers for arcs that are not flat and not small; negations: C102_flat_wrong, C102_small_wrong"
  },
  {
   "property": "C103",
   "status": "partial",
   "theorems": [
    "Hob3l.Svg.C103_abort_partial",
    "Hob3l.Svg.C103_abort_wrong"
   ],
   "note": "characterised: it aborts iff nothing is drawn; negation: C103_abort_wrong"
  },
  {
   "property": "C104",
   "status": "partial",
   "theorems": [
    "Hob3l.Svg.C104_transform_partial",
    "Hob3l.Svg.C104_prefix_wrong",
    "Hob3l.Svg.C104_count_wrong",
    "Hob3l.Svg.C104_error_wrong"
   ],
   "note": "well-formed values: full; other values may be accepted or have an effect: C104_prefix_wrong, C104_count_wrong, C104_error_wrong"
  },
  {
   "property": "C105",
   "status": "partial",
   "theorems": [
    "Hob3l.Svg.C105_rect_partial",
    "Hob3l.Svg.C105_rect_empty",
    "Hob3l.Svg.C105_poly_partial",
    "Hob3l.Svg.C105_line_partial",
    "Hob3l.Svg.C105_circle_partial",
    "Hob3l.Svg.C105_ellipse_partial",
    "Hob3l.Svg.C105_y_wrong",
    "Hob3l.Svg.C105_line_wrong",
    "Hob3l.Svg.C105_circle_wrong",
    "Hob3l.Svg.C105_abort_wrong"
   ],
   "note": "y, cy need x, cx (C105_y_wrong); lines not shorter than the epsilon; crashes: C105_circle_wrong, C105_abort_wrong"
  },
  {
   "property": "C106",
   "status": "partial",
   "theorems": [
    "Hob3l.Svg.C106_tree_partial",
    "Hob3l.Svg.C106_layer_wrong"
   ],
   "note": "the layer element needs a transform attribute: C106_layer_wrong; nested svg elements are a parameter"
  },
  {
   "property": "C107",
   "status": "partial",
   "theorems": [
    "Hob3l.Svg.C107_view_partial",
    "Hob3l.Svg.C107_image_partial",
    "Hob3l.Svg.C107_default_wrong",
    "Hob3l.Svg.C107_align_wrong",
    "Hob3l.Svg.C107_center_wrong"
   ],
   "note": "for equal aspect ratios; otherwise wrong: C107_default_wrong, C107_align_wrong; C107_center_wrong: uninitialised values"
  },
  {
   "property": "C108",
   "status": "proved",
   "theorems": [
    "Hob3l.Sweep.C108_find_intersections"
   ],
   "note": ""
  },
  {
   "property": "C109",
   "status": "proved",
   "theorems": [
    "Hob3l.Sweep.C109_ends",
    "Hob3l.Sweep.C109_polygons"
   ],
   "note": ""
  },
  {
   "property": "C110",
   "status": "partial",
   "theorems": [
    "Hob3l.Sweep.C110_vertices",
    "Hob3l.Sweep.C110_edges_partial"
   ],
   "note": "C110_vertices holds for every run. C110_edges_partial assumes that the trees of bundles are sorted when they are searched, so that the edges selected for a pixel are those that compare equal to it."
  },
  {
   "property": "C111",
   "status": "partial",
   "theorems": [
    "Hob3l.Isect.C111_sound",
    "Hob3l.Isect.C111_exact",
    "Hob3l.Isect.C111_complete_partial",
    "Hob3l.Isect.C111_junction_wrong",
    "Hob3l.Isect.C111_point_wrong"
   ],
   "note": "Reports are right (C111_sound) and exactly crossings and partial overlaps are found (C111_exact). Junctions, documented, are not found (C111_junction_wrong); for a partial overlap the point reported need not be common (C111_point_wrong)."
  },
  {
   "property": "C112",
   "status": "proved",
   "theorems": [
    "Hob3l.Sweep.C112_inside",
    "Hob3l.Sweep.C112_boolean"
   ],
   "note": ""
  },
  {
   "property": "C113",
   "status": "partial",
   "theorems": [
    "Hob3l.Syn.C113_print_partial",
    "Hob3l.Syn.C113_same_partial",
    "Hob3l.Syn.C113_modifier_wrong",
    "Hob3l.Syn.C113_block_wrong",
    "Hob3l.Syn.C113_float_wrong"
   ],
   "note": "holds for trees without modifiers and bare blocks whose floating point numbers are printed as read; false otherwise: modifiers are dropped (C113_modifier_wrong), a block is printed as '{()' which is rejected (C113_block_wrong), 2.0 is printed as 2 and read as integer (C113_float_wrong); printf of floating point is a parameter"
  },
  {
   "property": "C114",
   "status": "proved",
   "theorems": [
    "Hob3l.Poly.C114_polygons"
   ],
   "note": ""
  },
  {
   "property": "C115",
   "status": "proved",
   "theorems": [
    "Hob3l.Tri.C115_triangles"
   ],
   "note": ""
  },
  {
   "property": "C116",
   "status": "partial",
   "theorems": [
    "Hob3l.Args.C116_dump_partial",
    "Hob3l.Args.C116_parse_partial",
    "Hob3l.Args.C116_import_wrong",
    "Hob3l.Args.C116_surface_wrong",
    "Hob3l.Args.C116_text_wrong",
    "Hob3l.Args.C116_color_wrong",
    "Hob3l.Args.C116_polygon_wrong",
    "Hob3l.Args.C116_digits_wrong"
   ],
   "note": "Proved for all trees whose objects are dumped properly and whose numbers are printed so that they are read back. The code is wrong for import and surface (wrong parameter name), text (parameters that do not exist, tracking lost), color(undef) (no colour), polygons of fewer than three points without paths, and angles or $fa, $fs with more than six digits: theorems _wrong."
  },
  {
   "property": "C117",
   "status": "partial",
   "theorems": [
    "Hob3l.Deg.C117_int",
    "Hob3l.Deg.C117_sound",
    "Hob3l.Deg.C117_sin_partial",
    "Hob3l.Deg.C117_cos_partial",
    "Hob3l.Deg.C117_quarter",
    "Hob3l.Deg.C117_angle_wrong"
   ],
   "note": "Proved for all doubles except 0 and those of absolute value 2^53 and more (C117_sin_partial, C117_cos_partial); for those, the table is never used and the C library decides (C117_angle_wrong)."
  },
  {
   "property": "C118",
   "status": "proved",
   "theorems": [
    "Hob3l.Export.Js.C118_triangles",
    "Hob3l.Export.Js.C118_limits",
    "Hob3l.Export.Js.C118_same_as_stl",
    "Hob3l.Export.Js.C118_closed"
   ],
   "note": ""
  },
  {
   "property": "C119",
   "status": "partial",
   "theorems": [
    "Hob3l.Ps.C119_fit_partial",
    "Hob3l.Ps.C119_fit_wrong",
    "Hob3l.Ps.C119_scale",
    "Hob3l.Ps.C119_position",
    "Hob3l.Ps.C119_view",
    "Hob3l.Ps.C119_pages",
    "Hob3l.Ps.C119_bbox",
    "Hob3l.Ps.C119_dots_wrong"
   ],
   "note": "Pages, shapes, page count proved in full; the bounding box is proved for all corners and vertices, but the discs drawn for vertices are not in it (C119_dots_wrong); fitting is proved for boxes with y_max > x_min, the condition the code tests, and fails otherwise (C119_fit_wrong)."
  },
  {
   "property": "C120",
   "status": "partial",
   "theorems": [
    "Hob3l.Grid.C120_fits_partial",
    "Hob3l.Grid.C120_float_partial",
    "Hob3l.Grid.C120_reimport",
    "Hob3l.Grid.C120_finest",
    "Hob3l.Grid.C120_bits_wrong",
    "Hob3l.Grid.C120_down_wrong",
    "Hob3l.Grid.C120_subtracted_wrong"
   ],
   "note": "False for settings that are no power of two (C120_bits_wrong), for settings below epsilon (C120_down_wrong), and for bodies that are only subtracted (C120_subtracted_wrong: the box ignores them, and the conversion overflows). For powers of two and the points of the bounding box everything is proved."
  },
  {
   "property": "C121",
   "status": "partial",
   "theorems": [
    "Hob3l.Opt.C121_parse",
    "Hob3l.Opt.C121_equals",
    "Hob3l.Opt.C121_negation_partial",
    "Hob3l.Opt.C121_negation_wrong",
    "Hob3l.Opt.C121_ignored_wrong",
    "Hob3l.Opt.C121_last",
    "Hob3l.Opt.C121_values",
    "Hob3l.Opt.C121_switches",
    "Hob3l.Opt.C121_dump"
   ],
   "note": "False for --opt-skip-empty and --opt-drop-collinear, generated opposites without effect (C121_negation_wrong), and the value of an option without argument is ignored, e.g. --stl-bin=no (C121_ignored_wrong). The rest is proved for all options."
  },
  {
   "property": "C122",
   "status": "partial",
   "theorems": [
    "Hob3l.Opt.C122_number_partial",
    "Hob3l.Opt.C122_number_wrong",
    "Hob3l.Opt.C122_number_syntax",
    "Hob3l.Opt.C122_rgb_partial",
    "Hob3l.Opt.C122_rgb_wrong",
    "Hob3l.Opt.C122_format"
   ],
   "note": "False: -1 is a number and a colour, numbers of 2^64 and more become 2^64-1, seven hexadecimal digits are a colour (C122_number_wrong, C122_rgb_wrong). What is accepted is characterised."
  },
  {
   "property": "C123",
   "status": "partial",
   "theorems": [
    "Hob3l.Dump3.C123_shape",
    "Hob3l.Dump3.C123_dump_partial",
    "Hob3l.Dump3.C123_parse_partial",
    "Hob3l.Dump3.C123_ball_wrong",
    "Hob3l.Dump3.C123_xor_wrong",
    "Hob3l.Dump3.C123_root_wrong"
   ],
   "note": "C123_dump_partial: for every tree of balls and solids whose form is that of trees made from programs (C123_shape: all of them have it), the dump is a program and gives the same tree if unknown parameters are accepted. The rest is false: C123_ball_wrong (sphere is printed with the unknown parameter center), C123_xor_wrong (hob3l_xor is not a functor), C123_root_wrong (several !)."
  },
  {
   "property": "C124",
   "status": "proved",
   "theorems": [
    "Hob3l.ScadOut.C124_scad_output"
   ],
   "note": "layers as the boolean operations make them (polygons only)"
  },
  {
   "property": "C125",
   "status": "partial",
   "theorems": [
    "Hob3l.Aug.C125_insert_at",
    "Hob3l.Aug.C125_insert_end",
    "Hob3l.Aug.C125_insert_first_wrong",
    "Hob3l.Aug.C125_remove",
    "Hob3l.Aug.C125_extract",
    "Hob3l.Aug.C125_join3",
    "Hob3l.Aug.C125_join2",
    "Hob3l.Aug.C125_split",
    "Hob3l.Aug.C125_bundle"
   ],
   "note": "The callback is not called for the first node inserted into an empty tree; its value must be stored by the caller (C125_insert_end has this as a hypothesis, C125_insert_first_wrong shows the failure). All other operations are proved without restriction."
  },
  {
   "property": "C126",
   "status": "proved",
   "theorems": [
    "Hob3l.Swap.C126_swap",
    "Hob3l.Swap.C126_sequence",
    "Hob3l.Swap.C126_root",
    "Hob3l.Swap.C126_root2",
    "Hob3l.Swap.C126_replace",
    "Hob3l.Swap.C126_bundle"
   ],
   "note": ""
  },
  {
   "property": "C127",
   "status": "partial",
   "theorems": [
    "Hob3l.Rev.C127_phase2_partial",
    "Hob3l.Rev.C127_phase2_wrong",
    "Hob3l.Rev.C127_phase1_partial",
    "Hob3l.Rev.C127_phase1_wrong"
   ],
   "note": "Proved for less than 100 edges on each side of the edge known to the crossing; with 100 or more the code fails an assertion (C127_phase1_wrong, C127_phase2_wrong). Which pairs intersect in the crossing is a parameter."
  },
  {
   "property": "C128",
   "status": "partial",
   "theorems": [
    "Hob3l.Linext.C128_points",
    "Hob3l.Linext.C128_index",
    "Hob3l.Linext.C128_ends",
    "Hob3l.Linext.C128_outcome",
    "Hob3l.Linext.C128_sides_planar_partial",
    "Hob3l.Linext.C128_sides_planar_wrong",
    "Hob3l.Linext.C128_negative_wrong"
   ],
   "note": "Points and outcome are proved for all parameters that are not within epsilon of a special value (height 1, twist 0, scale 0) without being equal to it. Sides are flat without twist and with equal scales (C128_sides_planar_partial); with twist they are triangles; with different scales and no twist they are not flat (C128_sides_planar_wrong). A negative scale is not taken as 0 in the levels (C128_negative_wrong)."
  },
  {
   "property": "C129",
   "status": "partial",
   "theorems": [
    "Hob3l.Prim.C129_cube",
    "Hob3l.Prim.C129_cylinder_partial",
    "Hob3l.Prim.C129_cylinder_cone_wrong",
    "Hob3l.Prim.C129_cylinder_negative_wrong",
    "Hob3l.Prim.C129_sphere",
    "Hob3l.Prim.C129_circle",
    "Hob3l.Prim.C129_square",
    "Hob3l.Prim.C129_refused"
   ],
   "note": "Proved for all parameters that are not within epsilon of a special value (size 1, smaller radius 0 compared to the larger one) without being equal to it. A frustum with a small top compared to its bottom becomes a cone (C129_cylinder_cone_wrong); a cylinder with one negative radius is accepted (C129_cylinder_negative_wrong)."
  },
  {
   "property": "C130",
   "status": "partial",
   "theorems": [
    "Hob3l.Rotext.C130_arc",
    "Hob3l.Rotext.C130_full",
    "Hob3l.Rotext.C130_refused",
    "Hob3l.Rotext.C130_axis_wrong"
   ],
   "note": "Proved for outlines of different points on one side of the axis, with the limit for $fn at least 3; an assertion fails if all points are within epsilon of the axis (C130_axis_wrong)."
  },
  {
   "property": "C131",
   "status": "partial",
   "theorems": [
    "Hob3l.Main.C131_stdout",
    "Hob3l.Main.C131_file_partial",
    "Hob3l.Main.C131_others",
    "Hob3l.Main.C131_failure_wrong",
    "Hob3l.Main.C131_self_wrong",
    "Hob3l.Main.C131_input_wrong",
    "Hob3l.Main.C131_gran_partial",
    "Hob3l.Main.C131_gran_wrong"
   ],
   "note": "The code is wrong where a failing run empties the output file, where input and output are the same file, where there is no input file, and for small values of --gran (the _wrong theorems); the other parts are proved."
  },
  {
   "property": "C132",
   "status": "partial",
   "theorems": [
    "Hob3l.Mesh.C132_polyhedron_partial",
    "Hob3l.Mesh.C132_polygon_partial",
    "Hob3l.Mesh.C132_duplicate",
    "Hob3l.Mesh.C132_refused",
    "Hob3l.Mesh.C132_sort_wrong"
   ],
   "note": "Proved for points with coordinates that are equal or at least epsilon apart; otherwise the comparison used for sorting contradicts itself (C132_sort_wrong)."
  },
  {
   "property": "C133",
   "status": "partial",
   "theorems": [
    "Hob3l.Import.C133_name",
    "Hob3l.Import.C133_stl",
    "Hob3l.Import.C133_binary",
    "Hob3l.Import.C133_svg_partial",
    "Hob3l.Import.C133_svg_wrong"
   ],
   "note": "SVG files that begin with white space or with a prefixed element are taken for STL files (C133_svg_wrong); the other parts are proved. The readers of XML and SVG are abstract here (see C97-C107)."
  },
  {
   "property": "C134",
   "status": "partial",
   "theorems": [
    "Hob3l.Alloc.C134_new_partial",
    "Hob3l.Alloc.C134_grow",
    "Hob3l.Alloc.C134_shrink",
    "Hob3l.Alloc.C134_zero_wrong"
   ],
   "note": "Proved for requests of at least one element. For 0 elements the code divides by zero in malloc, and stops with 'Out of memory' when an empty array without memory keeps size 0 (C134_zero_wrong). Addresses and freeing are not modelled."
  },
  {
   "property": "C135",
   "status": "partial",
   "theorems": [
    "Hob3l.Msg.C135_mark_partial",
    "Hob3l.Msg.C135_second",
    "Hob3l.Msg.C135_nowhere",
    "Hob3l.Msg.C135_binary_wrong",
    "Hob3l.Msg.C135_end_wrong"
   ],
   "note": "Proved for places inside of lines of ASCII (C135_mark_partial), with two places (C135_second). Wrong: no column and no mark after a byte that is not ASCII (C135_binary_wrong) nor at the end of a file (C135_end_wrong); wrong lines at line starts are C47. Lines of 512 MB and more are excluded (the column is cast to int)."
  },
  {
   "property": "C136",
   "status": "partial",
   "theorems": [
    "Hob3l.Text.C136_style_partial",
    "Hob3l.Text.C136_style_wrong",
    "Hob3l.Text.C136_place_partial",
    "Hob3l.Text.C136_swapped",
    "Hob3l.Text.C136_valign_wrong",
    "Hob3l.Text.C136_errors",
    "Hob3l.Text.C136_silent_wrong",
    "Hob3l.Text.C136_surface_wrong"
   ],
   "note": "halign, and keywords after :style=, proved for all texts and names. The code is wrong for valign (it is ignored; halign is tested instead), for keywords that are not after :style= (the manual says they count), for programs without fonts (text is dropped silently), and for surface (the program panics instead of reporting an error with its place): C136_valign_wrong, C136_style_wrong, C136_silent_wrong, C136_surface_wrong."
  },
  {
   "property": "C137",
   "status": "partial",
   "theorems": [
    "Hob3l.Ns.C137_drawn",
    "Hob3l.Ns.C137_parsed",
    "Hob3l.Ns.C137_svg_partial",
    "Hob3l.Ns.C137_none_wrong"
   ],
   "note": "Complete characterisation for all files that the XML reader accepts (C137_drawn, C137_parsed); as claimed if all elements have a namespace. The code is wrong for elements that have no namespace inside of an svg element that has one by a prefix: they are drawn (C137_none_wrong)."
  }
 ]
}