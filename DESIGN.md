# Design of the hob3l verification

Source under study: `/repo` (hob3l, C), read as text only; nothing is compiled or run.
Properties: `properties.jsonl` (C01 ...).  Status per property: `MANIFEST.json`.
Lean project: `lean/` (Lean 4.33.0, Mathlib modules imported one by one).

## Layout

Each area has a directory `lean/Verif/<Area>/` with

* `Model.lean`  - the C code transcribed function by function (each definition cites file and lines),
* `Spec.lean` (where the specification is not a one-liner) - vocabulary that does not mention the model,
* `Lemmas*.lean` - helper lemmas,
* `Props.lean` - the property theorems, each followed by an `example` that exercises its hypotheses.

## General modelling rules

* Fixed-width integers: signed values are `Int` with an explicit range test; each overflow-checked C operation
  (`cq_dim_add` ...) is a function into `Option`, `none` being the process abort.  Unsigned wrap-around
  operations are `Nat` with explicit `% 2^w`.  C's undefined behaviour and failed `assert` are distinct outcomes
  (`none` or a constructor of an outcome type), never a default value.
* Loops are structural recursion or fuelled/well-founded recursion with a measure; no `partial`.
* Heap structures: index- or id-addressed memory where the property is about pointers (lists, pool, heap
  indices); inductive trees with a zipper (path of parents) where the code walks parent pointers (dict).
* `double`/`float` arithmetic is not modelled.  Where a formula is over `double` (matrix inverse, hull) the model
  is over an arbitrary field / ordered field: rounding is out of scope and said so.

## Plan per property

| id | what is modelled | how proved |
|----|------------------|------------|
| C01 | `cq_divmod`, `cq_divmodw` on ranged `Int`, C truncating `/`,`%` | omega / Int.tdiv lemmas |
| C02 | `cq_udimw_mul_aux` with explicit 64-bit checks | nonlinear arithmetic by splitting into 32-bit halves |
| C03 | `cq_dimif_cmp_frac_aux`, both compile-time variants | case analysis + C02 |
| C04 | `cq_dimif_cmp`, `cq_vec2if_cmp`, `cq_dim_dimif_cmp`, `cq_vec2_vec2if_cmp` | sign of rational difference |
| C05 | `cq_dim_div_ew` (GNUC variant) with the correction loop | Knuth's theorem on the trial digit |
| C06 | `cq_dimif_mul_div_nww` | from C05 |
| C07, C08, C09 | `cq_vec2if_intersect` with all overflow checks | Cramer's rule over Q; interval bounds |
| C10 | `cq_round` | floor characterisation |
| C11 | `cq_divw_rnd` | C01; counterexample for negative divisor |
| C12 | `cq_divmodx` | counterexample + exact characterisation |
| C13 | `cq_cmp_edge_rnd` | corner analysis of an affine function on a half-open square |
| C14-C16 | bitmap as array of 128 bytes with byte/short/int/word views | loop invariants on bits |
| C17-C19 | lazy evaluation state machine; `flatten_eager` is an oracle with a contract (sweep result = Boolean combination) | induction over the CSG tree |
| C20 | `ev_overlap`, `ev_split` on a line | XOR coverage function conserved |
| C21 | `cq_sweep_add_edge` | direct |
| C22 | `cq_sweep_reduce` per scan line | induction over the state list |
| C23 | comparators | lexicographic orders |
| C24-C27 | `op-slice.c` | cyclic sign changes are even; C11 |
| C28-C33 | red-black tree with zipper | invariant + in-order list |
| C34, C35 | `heap.c`, vector heap | invariant "heap except at i"; counterexample for `make` |
| C36 | `vec.c` | lists; counterexample for overlapping self-insert |
| C37 | `cp_bsearch` | loop invariant |
| C38 | `list.c` on a next/prev map | permutation composition with a transposition |
| C39, C40 | `pool.c`, `base-def.h` | history invariant |
| C41 | `vchar.c` | list refinement |
| C42, C43 | `utf8.c` | round trip; counterexamples found while reading |
| C44, C45 | `stl-parse.c` | list decoding, counterexample for nameless solid |
| C46 | `syn.c` lexer | induction on remaining input |
| C47 | `syn-msg.c` + `cp_bsearch` | counterexample + corrected range |
| C48 | `gc.c` | direct |
| C49 | `csg2-layer.c` + C17 | induction over tree |
| C50 | `csg2-2stl.c` | count by induction; boundary chain cancels |
| C51 | `algo.c` inverses over a field | `field_simp`, `ring` |
| C52 | `mat_is_rot.c` | finite case analysis on zero pattern |
| C53 | `csg2-hull.c` over ordered field | Graham scan invariant |
| C54 | `gon.c`, `hedron.c` | lattice |
| C55 | `op-poly.c` append | stack invariant |
| C56 | `stream.c` with nondeterministic partial write | counterexample + characterisation |
| C57 | `vec3-dict.c` over C28-C30 | history invariant |
| C58 | `cq_slice_trans`, `op-slice.c` pairs of cut points of one face | even-odd rule on a line, sorting |
| C59 | generated `switch` lookups (sieve tables) | finite tables checked against the list of keywords, for all strings |
| C60 | `csg3.c` bounding boxes of polyhedra, spheres, trees | lattice; counterexamples for spheres and cut-outs |
| C61 | `csg3_from_scad` for Boolean functors, modifiers, `cut` lists | induction over the SCAD tree; counterexamples |
| C62 | composition of C61, C49, C17 (`main.c` process) | composition |
| C63 | `get_opt_range`, `cp_csg2_tree_from_csg3` heights | exact arithmetic; counterexample for thin models |
| C64, C65 | transformations of `csg3.c`, slices of ellipsoids (`algo.c`, `mat_gen_ext.c`) over ordered fields with epsilon | algebra; counterexamples |
| C66-C70 | `op-poly.c`: all of the tracing loop over sorted end points, path building | loop invariant on open paths; planar geometry of non-crossing edges |
| C86-C89 | `op-trianglify.c`: all; steps along rings of `op-sweep-internal.h` | loop invariant on monotone open paths; sums over sides of triangles; even-odd rule by crossings of a ray |
| C92, C93 | `scad.c`: the same definitions as C78-C85 | independent tables of parameters, defaults and meanings of values; one relation per object |
| C90, C91 | the same, with the flags `CP_CSG2_TRI_OUTLINE_..`; C91 composes with C50 | each directed side at most once by disjointness of the triangles; flags carried through the loop invariant; counterexample where contours touch |
| C94-C96 | `csg3.c` 97-408, 1144-2272, 2475-2500: `csg3_from_scad` with matrix, colour, modifiers, dimension, search for `!`; shapes, extrusions and hulls by an environment that says whether they are empty or rejected | specification by paths from the top; mutual induction over trees: sound (sublist of what is wanted), exact if all errors are reported, found by the search, equal up to colours |
| C97-C99 | `xml-parse.c` 114-743: the XML reader on decoded characters; the buffer is a list of bytes; a decoding error is found at once instead of when the parser gets there; locations and message texts left out | C97: documents as concrete syntax trees with layout, their text and their meaning (namespaces by scoping, own UTF-8 encoding); mutual induction over trees; C98: bytes read are at least bytes written, via C42; C99: bound on the number of steps by length; witnesses computed by the kernel |
| C100-C103 | `svg-parse.c` 66-78, 156-166, 261-746 (drawing of paths, making of the polygon), 760-776, 853-1014, 1160-1302 (reading of path data); `arith.c` `cp_interpol2`, `cp_interpol3`; `algo.c` `cp_vec2_angle`. Arithmetic is exact (ordered field; real numbers for arcs), `strtod` ideal, number of lines per curve is a parameter, locations left out | C100: concrete syntax of path data with all separators, numbers, repetitions, and drawing with de Casteljau's construction as specification; the reader is proved to accept the text of every document and to execute its commands, the drawing by a simulation. C101: any permutation as sort. C102: arcs characterised by end points, radii, sweep range and flags (`IsArc`), without the formulas of the implementation notes. C103: characterisation and witness |
| C104-C107 | `svg-parse.c` 748-758, 808-850, 1016-1158, 1304-1475, 1496-1593 (attributes, transformations, view boxes), 1595-1852 (shapes, recursion), `svg-elem.sieve`. Exact arithmetic (real numbers for circles); of a matrix with its inverse only the matrix; trigonometric functions and `sqrt` are parameters; attributes are a list of names and values | C104: concrete syntax of the functions; the matrix product is the composition of the maps of the plane that SVG defines for the functions. C105: concrete syntax of lengths with units; outline of a rectangle = the path that SVG gives for it, drawn by the specification of C100 (relative and absolute commands are compared); circles and ellipses over the reals. C106: mutual induction over trees: `Forall₂` between the shapes of the specification with their chains of elements, and the calls of the workers. C107: the map of the view box, and the placing of the whole image. Partial, see the table of disagreements |
| C108-C110 | `op-sweep.c` 505-763, 890-941 (phase 1), 948-1393 (phase 2), `op-sweep-internal.h` 869-938, 1075-1119, 1296-1379: the loops as transition relations. What a search in a tree finds (neighbours of an edge, bundles and edges met by a pixel, the place of a new edge) is left open, so the theorems hold for every outcome of the searches; failed assertions are runs without a final state | C108: invariant of phase 1 (coverage, ends, parts of input edges) preserved by each event, using the theorems for overlap (C20) and intersection (C07). C109: XOR of edge ends of result, bundles and agendas is constant; bundles are empty at the end by counting. C110: invariant on the places of bundles, C10 for rounding; the claim for edges is partial: it assumes that searches in the trees select edges that compare equal to the pixel |
| C111 | `op-sweep.c` 1457-1528 `cq_has_intersect`: all | induction over both loops; the interval tests for collinear lines against points of segments. Partial, see the table of disagreements |
| C112 | `op-sweep-reduce.c` 37-86 `cq_sweep_reduce`: whole runs, with the balanced tree of `dict.c` (C28-C32) searched by `cq_sweep_tree_vertex_edge_cmp`, over the sorted vertices of the result | the order "somewhere directly below" of planar edges is asymmetric and is kept by the tree; at each vertex the edges that end there are replaced by those that start there, with equal XOR of members as every polygon is closed; the claim for a point is read off the state of the run at its x-coordinate. That the edges are planar is a hypothesis: see C108-C110 for what is known of the preceding phase |
| C114 | `cq_sweep_reduce` (C112) followed by `cq_sweep_poly` (C55, C66-C70), with edges given by numbers (their addresses) | the two models of the comparison of vertices agree; the edges kept are an arrangement as C69 needs it, so tracing succeeds; by C55 the sides of the paths are the edges kept, and the parity of sides below a point is that of edges |
| C115 | `cq_sweep_reduce` (C112) followed by `cq_sweep_trianglify` (C86-C89) | the edges kept have even degree everywhere (C112), so the triangulation succeeds (C86); a point is moved to the right by less than any gap, away from the verticals through vertices, where C88 applies; inside of the triangles iff an odd number of kept edges is below iff the function says so |
| C71, C72 | `syn.c` parser, files via an oracle for file contents | grammar as inductive relation, both directions; counterexamples |
| C113 | `syn-2scad.c`: all; what `printf` prints for a floating point number is a parameter | the printed text is tokenised by the specification of C46 (each token is followed by a character that cannot continue it) and derived by the grammar of C71; C71/C72 relate both to the parser. Partial, see the table of disagreements |
| C116 | `scad-2scad.c`: all; `gc.c:cp_gc_modifier_put_scad`; what `printf` prints for a floating point number is a parameter | the dump is a program with one item per object (specifications of C46 and C71); the arguments printed make the same object again (`fromArgs_dump`, per object type, using the model of `scad.c` of C78-C85); what is known about objects made from arguments is an invariant of the reader (`build_wf`). Objects that cannot be dumped are excluded; the theorems `C116_*_wrong` show that each exclusion is needed |
| C117 | `algo.c` 1144-1287: `split_float`, `cp_f_get_int`, `exact_sin`, `cp_sin_deg`, `cp_cos_deg` on the 64 bits of a double | the bits against the IEEE 754 value; Niven's theorem (Mathlib) for completeness of the table. Results of `sin` and `cos` of the C library are not modelled |
| C118 | `csg2-2js.c`: all but the text (group names, scales, transformation); `diff_above`/`diff_below` are NULL, as they are never set | the buffer holds a list of triangles (`Holds`), writing it makes a scene (`sceneOf`), which is read back (`scene_triangles`); the traversal is that of the STL export (C50) |
| C119 | `ps.c`, `csg2-2ps.c`, `ps_tam.h` over an ordered field with floor (no rounding; lists of drawing commands instead of text) | each function appends what the specification says and makes the box larger by the corners (`Does`, `Ext`); arithmetic for the fitting |
| C120 | `auto_dim_scale` with its call (`main.c`), `cq_import_dim`, `cq_export_dim`; rationals, rounding of the conversion as a parameter with three properties | binary logarithm; monotonic rounding; counterexamples |
| C121 | `parse_opt`, `opt_cmp`, `bsearch`, the argument loop (`main.c`), all of `opt.switch` and the table made from it by `mkswitch` | the sorted table is found completely by binary search (sortedness evaluated by the kernel, the search for any sorted table); per-entry check of independence of fields |
| C122 | `get_arg_...`, `has_suffix`, the choice of the format (`main.c`); `strtoull` as in the C standard | induction on digits; counterexamples |
| C123 | `csg3-2scad.c`: all; reading: models of C46, C71 (text), C116 (arguments), C61 (CSG); what `printf` prints for a floating point number, the matrix of `multmatrix` and the check for duplicate points are parameters | the dump is derived by the grammar, block by block; each item is converted to the object it was printed for; the CSG conversion of the result is the tree, given the form of trees made from programs, which is an invariant of the conversion (`C123_shape`) |
| C124 | `csg2-2scad.c` for stacks of layers with polygons (which is what the boolean operations make); reading: models of C46, C71 (text), C116 (arguments); numbers are an ordered field, `printf` is a parameter | the output is derived by the grammar, layer by layer; each item is converted, the space described by the result (`spaces`, with the inside of paths as a parameter) is the union of the slabs |
| C125 | `dict.c` with augmentation: insert, remove, extract, join, split with the calls of `augment`; `cq_sweep_bundle_aug_ev` | the tree of C28-C31 with a value in each node; forgetting the values gives the operations of C28-C31 (order, balance, root); a local invariant (each value is made from those of the children) is restored bottom-up on the path of the operation |
| C126 | `dict.c` 951-1099 `cp_dict_swap`, `cp_dict_swap_update_root`, `cp_dict_swap_update_root2`; `op-sweep-internal.h` 1097-1139 `bundle_edge_swap` | memory cell by cell; for pointers that fit (which those of disjoint trees do), the result is the memory with the two names exchanged. Sums: the set of nodes with a wrong sum is contained in the ancestors of the two nodes, and each loop removes one of the two chains |
| C127 | `op-sweep.c` 647-755 `ev_clear_and_reverse`, `ev_cross` up to the search for new crossings, 1038-1123 `sweep_phase2_edge_reverse`; `op-sweep-internal.h` 1384-1396 `xing_split`; trees and steps of `dict.c`, exchange of nodes by C126 | induction over the rounds of the searches and of the reversal, on the sequence of edges. Partial: more than 100 edges through one point fail an assertion, see the table of disagreements |
| C128 | `csg3.c` 1560-1746 `csg3_from_linext` (checks, matrix, levels), 624-632 (transformation of the points in `faces_n_edges_from_tower`); faces from area Solid | computation of each level over the reals, with the epsilons of the comparisons; case split over the checks. Partial: sides with different scales in x and y are neither flat nor split; a negative scale is only partly taken as 0 |
| C129 | `csg3.c` 311-326, 746-794, 1262-1558 `csg3_from_cube`, `csg3_from_sphere`, `csg3_from_cylinder`, `csg3_from_circle`, `csg3_from_square`; 1131-1142 `xform_2d`; points and faces from area Solid, matrices from area Xform | the matrix of each shape is computed over the reals (with the epsilons of the comparisons), then membership in the list of points. Partial: the ratio of the radii decides whether a cylinder is a cone; one negative radius is accepted |
| C130 | `csg3.c` 1863-2110 `rotext_arc`, `csg3_from_rotext`; numbers of the points in the faces from area Solid (C74), sines and cosines from C76 | the loops that store the points are shown to fill the array with the turned points; the faces are those of the specification, and the volume is computed with determinants. Partial: all points within epsilon of the axis make an assertion fail |
| C131 | `main.c` 187-377 `do_file` (order of the stages), 708-806 `main` behind the loop over the arguments; the format is that of C122 | the stages are abstract; case distinction on the results of the stages. Partial: the output file is emptied before anything is checked; no test for a missing input file; small values of `--gran` are ignored |
| C132 | `csg3.c` 810-893, 1131-1142, 1203-1260 `csg3_from_polyhedron`, `csg3_from_polygon`; `qsort` by what the C standard promises for a consistent comparison, otherwise undefined | in a sorted list, equal elements are neighbours; volume of plane faces as a sum over their sides. Partial: the comparison with epsilon is not consistent |
| C133 | `csg3.c` 895-981 `csg3_from_import`, `syn.c` 931-1000 (file names); STL reader of C44, C45; readers of XML and SVG abstract | case distinction; composed with C44. Partial: SVG files are recognised by their first bytes only |
| C134 | `alloc.c` 6-73, `alloc.h` 120-158: allocator of arrays; blocks are lists of bytes, the C library's `malloc` is arbitrary | overflow check by division; case distinction. Partial: requests for no elements |
| C135 | `syn-msg.c` 26-113, 187-208: quoting of the line, column, mark, second place; lookup of the line from area Loc (C47) | invariant of the loop over the line (text shown so far, column); composed with C47. Partial: bytes that are not ASCII, end of file |
| C136 | `csg3.c` 980-1130: `csg3_from_text`, `csg3_from_surface`; the renderer of fonts is a parameter | `strstr` characterised by suffixes, bounding box by least and greatest elements, product with the shift computed. Partial: `valign` is ignored, keywords count only after `:style=` |
| C137 | `csg3.c` 921-942, `xml-parse.c` 753-830 (`cp_xml_set_ns`, `cp_xml_find`, `cp_xml_skip_attr`), `svg-parse.c` 1058-1065, 1827-1847; trees from area Xml (C97) | induction over the tree; the parser puts attributes first (induction over its fuel). Partial: elements without a namespace count as SVG |
| C73-C75, C77 | `csg3.c` cube, cylinder, sphere, tower, linear_extrude, rotate_extrude: points, faces, edges | counting directed edges; sections at a height; divergence theorem as polynomial identity |
| C76 | `cp_circle_iter_step` with abstract sine and cosine | induction on n |
| C78-C85 | all of `scad.c` with abstract `double` | loop invariant on parameters; mutual induction on the syntax tree; counterexamples |

## Trusted base

* Lean 4 kernel (4.33.0).
* The standard axioms `propext`, `Classical.choice`, `Quot.sound`; no others.  `AXIOMS.md` lists the axioms of every property
  theorem (generated by `tools/axioms.sh` with `#print axioms`).
* That the definitions in `Model*.lean` are faithful to the C lines that they cite (by inspection; mutations of these definitions
  in `seeded/LOG.jsonl` show which theorems depend on which line).
* The C compiler, the hardware, and the C library (`malloc` succeeds or the program stops, `qsort` sorts, `strtod`, `sin`, `cos`
  are functions; nothing else about them is used unless a theorem says so).

## What is modelled

| area (`lean/Verif/`) | code |
|------|------|
| Matq | `src/hob3lop/matq.c`, `include/hob3lop/matq.h`: integer and fraction arithmetic, intersection of segments, rounding, pixels |
| Bitmap | `src/hob3lbase/bool-bitmap.c` |
| Flatten | `src/hob3l/csg2-bool.c`: lazy combination (`cp_csg2_flatten`); the sweep itself is an oracle with a contract there |
| Sweep | `src/hob3lop/op-sweep.c`: adding edges, overlapping edges, comparison functions, both phases of `cq_sweep_intersect`; `op-sweep-reduce.c` |
| Isect | `src/hob3lop/op-sweep.c`: `cq_has_intersect` |
| Slice | `src/hob3lop/op-slice.c`, `csg2-layer.c` (cut of faces) |
| Dict | `src/hob3lbase/dict.c`: insert, remove, find, step, join, split (without augmentation, for which see Aug, and `cp_dict_swap`, for which see Swap) |
| Aug | `src/hob3lbase/dict.c`: the same operations with the augmentation callback |
| Swap | `src/hob3lbase/dict.c`: exchange of nodes; `op-sweep-internal.h`: `bundle_edge_swap` |
| Rev | `src/hob3lop/op-sweep.c`: reversal of the edges at a crossing, both phases |
| Linext | `src/hob3l/csg3.c`: checks and points of `linear_extrude`, over the reals |
| Prim | `src/hob3l/csg3.c`: checks, matrices and points of `cube`, `sphere`, `cylinder`, `circle`, `square`, over the reals |
| Rotext | `src/hob3l/csg3.c`: `rotate_extrude` with coordinates, over the reals |
| Mesh | `src/hob3l/csg3.c`: `polyhedron` and `polygon` with coordinates, over the reals |
| Import | `src/hob3l/csg3.c`: `import`; `syn.c`: names of files |
| Alloc | `src/hob3lbase/alloc.c`, `include/hob3lbase/alloc.h`: allocation of arrays; not: freeing, addresses |
| Msg | `src/hob3l/syn-msg.c`: text of places in messages |
| Heap, Vec, Ring, Align, Pool, VChar, Utf8, Stream | `src/hob3lbase/heap.c`, `vec.c`, `list.c`, `base-def.h`, `pool.c`, `vchar.c`, `utf8.c`, `stream.c` |
| Stl | `src/hob3l/stl-parse.c` |
| Export | `src/hob3l/csg2-2stl.c`, `src/hob3l/csg2-2js.c` |
| Loc, Sieve, Color | `syn-msg.c` (locations), generated keyword tables, `gc.c` |
| Bbox | `gon.c`, `hedron.c`, bounding boxes of `csg3.c` |
| Scad, Layer, Whole, Range | `csg3.c` (tree), `csg2-layer.c`, `csg2-tree.c`, `main.c` (process, range of heights) |
| Dedup | `vec3-dict.c` |
| Xform, Rect, Hull | `algo.c`, `mat_gen_ext.c`, `mat_gen_inl.h`, `mat_is_rot.c`, `csg2-hull.c` over ordered fields with an epsilon |
| Deg | `algo.c` sine and cosine of degrees, on bit patterns |
| Ps | `ps.c`, `csg2-2ps.c` |
| Grid | `main.c` (`auto_dim_scale`), `gon.c` (`cq_import_dim`), `gon.h` (`cq_export_dim`) |
| Opt | `main.c` (options, output format), `opt.switch`, `script/mkswitch` (cases) |
| Main | `main.c`: adjustment of options, output file, order of the stages (the stages are abstract) |
| Dump3 | `csg3-2scad.c` |
| ScadOut | `csg2-2scad.c` (stacks of polygons), `csg2-layer.c` (`cp_csg2_layer_thickness`) |
| Text, Ns | `csg3.c` (`text`, `surface`, namespaces of SVG files), `xml-parse.c` (`cp_xml_set_ns`, `cp_xml_find`) |
| Poly, Tri | `op-poly.c`, `op-trianglify.c`, parts of `op-sweep-internal.h` |
| Syn | `syn.c`: lexer and parser; `syn-2scad.c` |
| Args | `scad.c`, `scad-2scad.c`, `gc.c` (modifiers) |
| Solid | `csg3.c`: construction of solids |
| Ctx | `csg3.c`: context of objects |
| Xml | `xml-parse.c` |
| Svg | `svg-parse.c` (without `cp_svg_parse`, locations, numbers of lines) |

## What is not modelled

* Of the main loop of the plane sweep `cq_sweep_intersect` (C108-C110): the searches in the balanced trees (their results are left open), the links between crossings and edges, the augmentation `sum_member` (taken to be the XOR of the edges of a tree; C125 and C126 show that the tree operations keep it so). C127 covers the reversal of the edges at a crossing. Not shown: that all crossings are found, termination, absence of failed assertions.
* Rounding of `double` arithmetic: matrices, hull, solids and heights are over exact (ordered) fields, with the epsilon of the code
  where the code compares with one.
* the rendering of fonts (`text()` only as in C136), the printing of 2D trees as SCAD with `--no-csg` (`csg2-2scad.c`: everything but stacks of polygons), messages (only that there is one, and how places are shown, C135).
* Memory exhaustion (the program stops).

## Where the code disagrees with a property

Each has a theorem with a concrete witness (suffix `_wrong`, or as named) and a theorem for what does hold.

| id | theorem | what happens |
|----|---------|--------------|
| C11, C28, C39, C41 | `C11_negative_divisor_wrong`, `C28_insert_update_at_null_wrong`, `C39_align0_wrong`, `C41_append_self_wrong` | outside of the documented use: negative divisor, insertion at NULL, alignment 0, appending a string to itself |
| C12 | `C12_spurious_overflow` | `cq_divmodx` reports overflow for representable quotients |
| C19 | `C19_wrong` | switching the skip-empty optimisation off changes the result |
| C35 | `C35_vec_make_wrong` | heap size one too large after making a heap of an array |
| C36 | `C36_insert_self_wrong`, `C36_adjacent_wrong` | inserting a part of a vector into itself |
| C42, C43 | `C42_wrong`, `C43_wrong` | UTF-8 decoder keeps tag bits; last broken hex digit is accepted |
| C44, C45 | `C44_solid_header_wrong`, `C45_header_wrong` | binary STL with header `solid`; nameless `solid` eats a line |
| C47 | `C47_wrong` | line numbers at line starts |
| C48 | `C48_wrong` | unknown colour name: NULL access |
| C51 | `C51_small_wrong`, `C51_swap_partial` | small determinants; determinant recorded by non-aliased inversion |
| C52 | `C52_rejects_wrong`, `C52_accepts_wrong` | axis-permutation test is inverted (unused) |
| C53 | `C53_wrong` | squared distances compared with the epsilon for lengths |
| C54, C60 | `C54_projection_wrong`, `C60_wrong`, `C60_first_wrong` | boxes: projection uses one corner; spheres compared with the minimum; first cut element skipped |
| C56 | `C56_wrong`, `C56_empty_wrong` | short writes undetected; empty writes stop the program |
| C57 | `C57_epsilon_wrong` | equality with epsilon is not transitive |
| C61, C62 | `C61_lone_wrong`, `C61_hollow_wrong`, `C62_lone_wrong` | assertion for intersections; zero-extent children ignored |
| C63 | `C63_thin_wrong` | thin models are cut at height 0 |
| C64, C65 | `C64_tiny_wrong`, `C64_axis_wrong`, `C65_wrong` | tiny translations ignored; zero axis; large tilted ellipsoids |
| C72 | `C72_number_wrong`, `C72_int_wrong`, `C72_nul_wrong`, `C72_include_wrong`, `C72_cycle_wrong`, `C72_bare_wrong` | parser |
| C73, C74 | `C73_max_fn_wrong`, `C74_max_fn_wrong` | `--max-fn` has no lower limit (stated beside the proved claims) |
| C79 | `C79_wrong` | arguments behind an unknown parameter are ignored, mandatory ones not checked |
| C82 | `C82_wrong` | `multmatrix(5)`, `polygon(foo=1)`, `rotate(foo=1)`, `import(foo=1)`, `use <x>`: no error message |
| C90, C91 | `C90_not`, `C91_not` | outline mark lost where two contours touch at a vertex: STL with a missing wall |
| C94, C95 | `C94_hull_wrong`, `C95_disabled_wrong` | transformations around hull() and projection() are ignored; `!` inside a disabled object |
| C97 | `C97_comment_wrong`, `C97_xml_prefix_wrong`, `C97_nonascii_wrong`, `C97_lenient_wrong` | comment before an end tag rejected; prefix `xml` unknown; end tags and texts outside of ASCII; empty names and too large character numbers accepted |
| C99 | `C99_wrong` | XML reader: endless loops on truncated files, NULL access for `xmlns` without value, assertion for U+100000 and above |
| C100 | `C100_exponent_wrong`, `C100_close_wrong`, `C100_zero_line_wrong` | `1e-3` is rejected; `M5 5zL6 6` starts at a stale position; smooth curve after a line of length 0 |
| C102 | `C102_flat_wrong`, `C102_small_wrong` | start point of a flat arc is lost; small arcs are drawn around the middle of the chord |
| C103 | `C103_abort_wrong` | `<path d=""/>` and `<path d="M0 0"/>` fail an assertion |
| C104 | `C104_prefix_wrong`, `C104_count_wrong`, `C104_error_wrong` | `t(5)` is accepted as `translate(5)`, `matrix(2)` as a matrix of zeros; functions before an error have an effect |
| C105 | `C105_y_wrong`, `C105_line_wrong`, `C105_circle_wrong`, `C105_abort_wrong` | `y` without `x` is ignored; a line with a missing coordinate is not drawn; `<circle/>` accesses a null pointer; a line of length 0 and a polygon with one point fail an assertion |
| C106 | `C106_layer_wrong` | a layer without the attribute `transform` is never found |
| C107 | `C107_default_wrong`, `C107_align_wrong`, `C107_center_wrong` | alignment is used iff none is given, with the value -1; centring without view box uses uninitialised variables |
| C111 | `C111_junction_wrong`, `C111_point_wrong` | a line ending in the middle of another one is not reported, although the documentation includes junctions; for a partial overlap an end is returned that may be outside of the other line; -1 is never returned |
| C113 | `C113_modifier_wrong`, `C113_block_wrong`, `C113_float_wrong` | printed trees lose the modifiers `* ! # %`; a block is printed as `{() {`, which is rejected; `2.0` is printed as `2` |
| C116 | `C116_import_wrong`, `C116_surface_wrong`, `C116_text_wrong`, `C116_color_wrong`, `C116_polygon_wrong`, `C116_digits_wrong` | `import` and `surface` are dumped with parameter `s` instead of `file`: rejected, or a NULL pointer is used if unknown parameters are accepted; `text` is dumped with `$fn`, `$fa`, `$fs`, which it does not have, and without `tracking`; `color(undef)` is dumped without the mandatory colour; a polygon of one or two points is dumped with a path that is rejected; the angle of `rotate_extrude` and `$fa`, `$fs` are printed with six digits |
| C117 | `C117_angle_wrong` | 0 and angles of 2^53 degrees and more are not recognised as integers (`exp < 0` for the double 0), so the C library is used; harmless for 0 if `sin(0)` is 0 and `cos(0)` is 1 in the library, but not exact for large multiples of 90 |
| C119 | `C119_fit_wrong`, `C119_dots_wrong` | `cp_ps_xform_from_minmax` (`ps.c:20`) tests `y_max > x_min` instead of `y_max > y_min`: an object whose top is below its left edge (for example x 500..600, y 0..10) is not fitted and can be off the paper; the discs of radius 0.4 drawn for vertices (and marks) are not in `%%BoundingBox` |
| C120 | `C120_bits_wrong`, `C120_down_wrong`, `C120_subtracted_wrong` | `auto_dim_scale` compares exponents, which is too late for settings that are no power of two (grid 16383, model of size 2047: 25 bits are needed, two grid points become the same `float`); a setting below epsilon, e.g. `--grid=2^-16`, counts as zero and becomes 2^23; the bounding box does not include subtracted bodies, so that `difference(){cube(1);cube(1000000);}` fails with an overflow error although the grid is automatic |
| C121 | `C121_negation_wrong`, `C121_ignored_wrong` | `mkswitch` makes the opposite of an option without its statements: `--opt-skip-empty` and `--opt-drop-collinear` have no effect; a value of an option without argument is ignored: `--stl-bin=no` selects binary |
| C122 | `C122_number_wrong`, `C122_rgb_wrong` | `strtoul` accepts a minus sign (`--max-simultaneous=-1` is 2^64-1, `--js-color-rand=-18446744073709551615` is 1) and saturates without error; a colour with more than six digits loses its first ones, `-1` is white |
| C123 | `C123_ball_wrong`, `C123_xor_wrong`, `C123_root_wrong` | a ball is printed as `sphere(r=1,center=true,$fn=N)`, but `sphere` has no parameter `center`: rejected with `--unknown-param=fail`; otherwise reading stops there, so that `$fn` is not read, which is lucky: with it, the ball would become a polyhedron; `hob3l_xor` (extrusion of polygons with several paths) is not a functor: rejected, or dropped silently; each object of a group marked by `!` is printed with `!`, and two are an error |
| C125 | `C125_insert_first_wrong` | inserting the first node into an empty tree does not call the augmentation callback (all other insertions do), so that what was stored in the node remains. The sweep is not affected: it stores the value itself before (op-sweep.c:1210) |
| C127 | `C127_phase1_wrong`, `C127_phase2_wrong` | the searches for the first and last edge through a crossing assert that they end within 100 rounds: drawings in which more than 100 edges lie above (or below) the known one in a common point that is not on the grid abort |
| C128 | `C128_sides_planar_wrong` | `linear_extrude` with different scales in x and y and without twist makes sides with four corners that are not in one plane (the comment at `faces_n_edges_from_tower` asks for splitting them) |
| C128 | `C128_negative_wrong` | where the message about a negative scale is not an error, the scale is set to 0 for the check only; the levels still use the negative scale, so the solid turns inside out below its tip |
| C129 | `C129_cylinder_cone_wrong` | whether a cylinder has a tip is decided by comparing the ratio of its radii with epsilon: `cylinder(h=1, r1=100000, r2=2)` becomes a cone |
| C129 | `C129_cylinder_negative_wrong` | a cylinder is refused only if both radii are not positive: `cylinder(h=1, r1=1, r2=-1)` is accepted, and all of its sides meet in one point in the middle |
| C130 | `C130_axis_wrong` | `rotate_extrude` of an outline with all points within epsilon of the axis: an assertion fails; needs `--grid` finer than `--eps` |
| C131 | `C131_failure_wrong` | the output file is opened before the ending of its name is checked and before the input is read: if the run fails, the old contents are lost |
| C131 | `C131_self_wrong` | an input file that is also the output file is emptied before it is read |
| C131 | `C131_input_wrong` | without an input file on the command line, a null pointer is printed with `%s` and opened: undefined |
| C131 | `C131_gran_wrong` | `--gran=2^-20`, the example of the documentation, is ignored, since it is compared with 0 using the epsilon `2^-15`; with `--eps=0` and no `--gran` the scale is infinite |
| C132 | `C132_sort_wrong` | points of polyhedron() and polygon() are sorted with a comparison that uses an epsilon: it contradicts itself if coordinates are closer than epsilon (undefined behaviour), although no two points are |
| C133 | `C133_svg_wrong` | an SVG file that begins with white space, or whose element has a prefix, is taken for an STL file |
| C134 | `C134_zero_wrong` | `malloc` of 0 elements divides by zero; keeping an empty array at size 0 stops with "Out of memory" |
| C135 | `C135_binary_wrong`, `C135_end_wrong` | messages have neither column nor mark after a byte that is not ASCII on the line, and at the end of a file |
| C136 | `C136_valign_wrong`, `C136_style_wrong`, `C136_silent_wrong`, `C136_surface_wrong` | `valign` is ignored (`halign` is compared with its values); `Sans Bold` is not bold; without fonts, `text` gives nothing and no message; `surface` ends the program by `cp_panic`, without a place in the file |
| C137 | `C137_none_wrong` | elements without a namespace inside of `<s:svg xmlns:s=…>` are drawn |

Found while reading, without a theorem: the macro `cp_circle_each` is defined twice; polyhedron() is not checked for closedness; the point array of a
polyhedron is copied twice; linear_extrude with negative scale; `cp_min`/`cp_max` map `int` to `size_t`; `xmlns=""` does not remove the default namespace; `arc_get_fn` (svg-parse.c:245-259) divides by the fraction of the circle instead of multiplying; `svg_xform` has the wrong sign in the translation of its inverse; a polyline that fails half-way leaves a polygon with points but no paths; `cq_sweep_get_v_line2` also returns edges whose members have cancelled out; `--no-tri` and `--no-diff` are stored but never read; the help says that the default of `--max-fn` is 50, but it is 100 (`csg_tam.h:120`); `--debug-ps...` are accepted and ignored, with any value, in builds without `PSTRACE`; with `--eps=0` the setting `--grid=0` is not recognised as zero; a negative grid is accepted; with a gap that is not smaller than the layers, the SCAD output has `height=0`, which is rejected when it is read; with `--no-csg`, a `difference` whose first operand is empty is printed as `difference(){group(){} ...}`, which is read as if the second operand was the first; the SCAD output of nested unions is flat, of exclusive-or is `hob3l_xor`, which no program knows.
