# Axioms of the property theorems

Generated by tools/axioms.sh.

| theorem | axioms |
|---|---|
| `Hob3l.Align.C40_accept` | propext, Classical.choice, Quot.sound |
| `Hob3l.Align.C40_align_down` | propext, Classical.choice, Quot.sound |
| `Hob3l.Align.C40_align_up` | propext, Classical.choice, Quot.sound |
| `Hob3l.Align.C40_align_up_overflow` | propext, Classical.choice, Quot.sound |
| `Hob3l.Align.C40_size_align` | propext, Classical.choice, Quot.sound |
| `Hob3l.Align.C40_idx0` | propext, Classical.choice, Quot.sound |
| `Hob3l.Alloc.C134_new_partial` | propext, Quot.sound |
| `Hob3l.Alloc.C134_grow` | propext, Quot.sound |
| `Hob3l.Alloc.C134_shrink` | propext |
| `Hob3l.Alloc.C134_zero_wrong` | propext |
| `Hob3l.Args.C78_accepted` | propext, Classical.choice, Quot.sound |
| `Hob3l.Args.C78_value` | propext, Classical.choice, Quot.sound |
| `Hob3l.Args.C78_vector` | propext, Classical.choice, Quot.sound |
| `Hob3l.Args.C78_order` | propext, Classical.choice, Quot.sound |
| `Hob3l.Args.C79_strict_partial` | propext, Classical.choice, Quot.sound |
| `Hob3l.Args.C79_ignored_partial` | propext, Classical.choice, Quot.sound |
| `Hob3l.Args.C79_wrong` | propext, Classical.choice, Quot.sound |
| `Hob3l.Args.C80_cylinder` | propext, Classical.choice, Quot.sound |
| `Hob3l.Args.C80_cylinder_accepted` | propext, Classical.choice, Quot.sound |
| `Hob3l.Args.C80_sphere` | propext, Classical.choice, Quot.sound |
| `Hob3l.Args.C80_circle` | propext, Classical.choice, Quot.sound |
| `Hob3l.Args.C80_round_accepted` | propext, Classical.choice, Quot.sound |
| `Hob3l.Args.C81_polyhedron` | propext, Classical.choice, Quot.sound |
| `Hob3l.Args.C81_polygon` | propext, Classical.choice, Quot.sound |
| `Hob3l.Args.C82_no_crash_partial` | propext, Classical.choice, Quot.sound |
| `Hob3l.Args.C82_program_partial` | propext, Classical.choice, Quot.sound |
| `Hob3l.Args.C82_wrong` | propext, Classical.choice, Quot.sound |
| `Hob3l.Args.C83_root` | propext, Classical.choice, Quot.sound |
| `Hob3l.Args.C83_accepted` | propext, Classical.choice, Quot.sound |
| `Hob3l.Args.C84_unquote` | propext, Classical.choice, Quot.sound |
| `Hob3l.Args.C84_every_text` | propext, Quot.sound |
| `Hob3l.Args.C85_shape` | propext, Classical.choice, Quot.sound |
| `Hob3l.Args.C85_unknown_functor` | propext, Classical.choice, Quot.sound |
| `Hob3l.Args.C116_dump_partial` | propext, Classical.choice, Quot.sound |
| `Hob3l.Args.C116_parse_partial` | propext, Classical.choice, Quot.sound |
| `Hob3l.Args.C116_import_wrong` | propext, Classical.choice, Quot.sound |
| `Hob3l.Args.C116_surface_wrong` | propext, Classical.choice, Quot.sound |
| `Hob3l.Args.C116_text_wrong` | propext, Classical.choice, Quot.sound |
| `Hob3l.Args.C116_color_wrong` | propext, Classical.choice, Quot.sound |
| `Hob3l.Args.C116_polygon_wrong` | propext, Classical.choice, Quot.sound |
| `Hob3l.Args.C116_digits_wrong` | propext, Classical.choice, Quot.sound |
| `Hob3l.Args.C92_names` | propext, Classical.choice, Quot.sound |
| `Hob3l.Args.C92_values` | propext, Classical.choice, Quot.sound |
| `Hob3l.Args.C92_fields` | propext, Classical.choice, Quot.sound |
| `Hob3l.Args.C92_color` | propext, Classical.choice, Quot.sound |
| `Hob3l.Args.C92_rotate` | propext, Classical.choice, Quot.sound |
| `Hob3l.Args.C92_made` | propext, Classical.choice, Quot.sound |
| `Hob3l.Args.C93_names` | propext, Classical.choice, Quot.sound |
| `Hob3l.Args.C93_children` | propext |
| `Hob3l.Aug.C125_insert_at` | propext, Classical.choice, Quot.sound |
| `Hob3l.Aug.C125_insert_end` | propext, Classical.choice, Quot.sound |
| `Hob3l.Aug.C125_insert_first_wrong` | propext |
| `Hob3l.Aug.C125_remove` | propext, Classical.choice, Quot.sound |
| `Hob3l.Aug.C125_extract` | propext, Classical.choice, Quot.sound |
| `Hob3l.Aug.C125_join3` | propext, Classical.choice, Quot.sound |
| `Hob3l.Aug.C125_join2` | propext, Classical.choice, Quot.sound |
| `Hob3l.Aug.C125_split` | propext, Classical.choice, Quot.sound |
| `Hob3l.Aug.C125_bundle` | propext, Quot.sound |
| `Hob3l.Bbox.C54_plane` | propext, Classical.choice, Quot.sound |
| `Hob3l.Bbox.C54_sweep` | propext, Classical.choice, Quot.sound |
| `Hob3l.Bbox.C54_space` | propext, Classical.choice, Quot.sound |
| `Hob3l.Bbox.C54_init` | propext, Classical.choice, Quot.sound |
| `Hob3l.Bbox.C54_init_space` | propext, Classical.choice, Quot.sound |
| `Hob3l.Bbox.C54_projection_wrong` | propext, Classical.choice, Quot.sound |
| `Hob3l.Bbox.C54_projection_partial` | propext, Classical.choice, Quot.sound |
| `Hob3l.Bbox.C54_point` | propext, Classical.choice, Quot.sound |
| `Hob3l.Bbox.C54_or` | propext, Classical.choice, Quot.sound |
| `Hob3l.Bbox.C54_or_empty` | propext, Classical.choice, Quot.sound |
| `Hob3l.Bbox.C54_and` | propext, Classical.choice, Quot.sound |
| `Hob3l.Bbox.C54_valid` | propext, Classical.choice, Quot.sound |
| `Hob3l.Bbox.C60_encloses_partial` | propext, Classical.choice, Quot.sound |
| `Hob3l.Bbox.C60_max_partial` | propext, Classical.choice, Quot.sound |
| `Hob3l.Bbox.C60_cut_tight_partial` | propext, Classical.choice, Quot.sound |
| `Hob3l.Bbox.C60_first_wrong` | propext, Classical.choice, Quot.sound |
| `Hob3l.Bbox.C60_sphere_partial` | propext, Classical.choice, Quot.sound |
| `Hob3l.Bbox.C60_wrong` | propext, Classical.choice, Quot.sound |
| `Hob3l.Bitmap.C14_spread` | propext, Classical.choice, Quot.sound |
| `Hob3l.Bitmap.C14_domain` | propext, Classical.choice, Quot.sound |
| `Hob3l.Bitmap.C15_repeat` | propext, Classical.choice, Quot.sound |
| `Hob3l.Bitmap.C15_domain` | propext, Classical.choice, Quot.sound |
| `Hob3l.Bitmap.C16_combine` | propext, Classical.choice, Quot.sound |
| `Hob3l.Bitmap.C16_get_set` | propext, Classical.choice, Quot.sound |
| `Hob3l.Bitmap.C16_joint_table` | propext, Classical.choice, Quot.sound |
| `Hob3l.Color.C48_hex` | propext, Classical.choice, Quot.sound |
| `Hob3l.Color.C48_names_partial` | propext, Classical.choice, Quot.sound |
| `Hob3l.Color.C48_unique` | propext, Classical.choice, Quot.sound |
| `Hob3l.Color.C48_wrong` | propext, Classical.choice, Quot.sound |
| `Hob3l.Ctx.C94_context` | propext, Quot.sound |
| `Hob3l.Ctx.C94_complete` | propext, Classical.choice, Quot.sound |
| `Hob3l.Ctx.C94_hull_wrong` | propext, Quot.sound |
| `Hob3l.Ctx.C95_alone` | propext |
| `Hob3l.Ctx.C95_keep` | propext, Classical.choice, Quot.sound |
| `Hob3l.Ctx.C95_same` | propext, Classical.choice, Quot.sound |
| `Hob3l.Ctx.C95_disabled_wrong` | propext |
| `Hob3l.Ctx.C96_place` | propext, Classical.choice, Quot.sound |
| `Hob3l.Ctx.C96_accepted` | propext, Classical.choice, Quot.sound |
| `Hob3l.Dedup.C57_dedup_partial` | propext, Classical.choice, Quot.sound |
| `Hob3l.Dedup.C57_grid_partial` | propext, Classical.choice, Quot.sound |
| `Hob3l.Dedup.C57_epsilon_wrong` | propext, Classical.choice, Quot.sound |
| `Hob3l.Deg.C117_int` | propext, Classical.choice, Quot.sound |
| `Hob3l.Deg.C117_sound` | propext, Classical.choice, Quot.sound |
| `Hob3l.Deg.C117_sin_partial` | propext, Classical.choice, Quot.sound |
| `Hob3l.Deg.C117_cos_partial` | propext, Classical.choice, Quot.sound |
| `Hob3l.Deg.C117_quarter` | propext, Classical.choice, Quot.sound |
| `Hob3l.Deg.C117_angle_wrong` | propext, Classical.choice, Quot.sound |
| `Hob3l.Dict.C28_insert_at` | propext, Classical.choice, Quot.sound |
| `Hob3l.Dict.C28_insert_end` | propext, Classical.choice, Quot.sound |
| `Hob3l.Dict.C29_remove` | propext, Classical.choice, Quot.sound |
| `Hob3l.Dict.C29_extract` | propext, Classical.choice, Quot.sound |
| `Hob3l.Dict.C29_extract_update` | propext, Classical.choice, Quot.sound |
| `Hob3l.Dict.C30_lookup` | propext, Classical.choice, Quot.sound |
| `Hob3l.Dict.C30_first_last` | propext, Classical.choice, Quot.sound |
| `Hob3l.Dict.C30_always_insert` | propext, Classical.choice, Quot.sound |
| `Hob3l.Dict.C30_insert_by` | propext, Classical.choice, Quot.sound |
| `Hob3l.Dict.C28_insert_update_at` | propext, Classical.choice, Quot.sound |
| `Hob3l.Dict.C28_insert_update_at_null_wrong` | none |
| `Hob3l.Dict.C31_join3` | propext, Classical.choice, Quot.sound |
| `Hob3l.Dict.C31_join2` | propext, Classical.choice, Quot.sound |
| `Hob3l.Dict.C31_split` | propext, Classical.choice, Quot.sound |
| `Hob3l.Dict.C32_walk` | propext, Classical.choice, Quot.sound |
| `Hob3l.Dict.C32_step` | propext, Quot.sound |
| `Hob3l.Dict.C33_height` | propext, Classical.choice, Quot.sound |
| `Hob3l.Dict.C33_reachable` | propext, Classical.choice, Quot.sound |
| `Hob3l.Dump3.C123_shape` | propext, Quot.sound |
| `Hob3l.Dump3.C123_dump_partial` | propext, Classical.choice, Quot.sound |
| `Hob3l.Dump3.C123_parse_partial` | propext, Classical.choice, Quot.sound |
| `Hob3l.Dump3.C123_ball_wrong` | propext, Classical.choice, Quot.sound |
| `Hob3l.Dump3.C123_xor_wrong` | propext, Classical.choice, Quot.sound |
| `Hob3l.Dump3.C123_root_wrong` | propext, Classical.choice, Quot.sound |
| `Hob3l.Export.C50_binary` | propext, Classical.choice, Quot.sound |
| `Hob3l.Export.C50_count` | propext, Classical.choice, Quot.sound |
| `Hob3l.Export.C50_read_back` | propext, Classical.choice, Quot.sound |
| `Hob3l.Export.C50_text_read_back` | propext, Classical.choice, Quot.sound |
| `Hob3l.Export.C50_closed` | propext, Classical.choice, Quot.sound |
| `Hob3l.Export.C50_file_closed` | propext, Classical.choice, Quot.sound |
| `Hob3l.Export.C50_outwards` | propext, Classical.choice, Quot.sound |
| `Hob3l.Export.Js.C118_triangles` | propext, Classical.choice, Quot.sound |
| `Hob3l.Export.Js.C118_limits` | propext, Classical.choice, Quot.sound |
| `Hob3l.Export.Js.C118_same_as_stl` | propext, Classical.choice, Quot.sound |
| `Hob3l.Export.Js.C118_closed` | propext, Classical.choice, Quot.sound |
| `Hob3l.Flatten.C17_flatten_layer` | propext, Classical.choice, Quot.sound |
| `Hob3l.Flatten.C17_flatten` | propext, Classical.choice, Quot.sound |
| `Hob3l.Flatten.C18_capacity` | propext, Classical.choice, Quot.sound |
| `Hob3l.Flatten.C18_combine` | propext, Classical.choice, Quot.sound |
| `Hob3l.Flatten.C18_limit_needed` | propext, Quot.sound |
| `Hob3l.Flatten.C19_skip_empty_off_partial` | propext, Classical.choice, Quot.sound |
| `Hob3l.Flatten.C19_list_ok` | propext, Classical.choice, Quot.sound |
| `Hob3l.Flatten.C19_wrong` | propext, Quot.sound |
| `Hob3l.Grid.C120_fits_partial` | propext, Classical.choice, Quot.sound |
| `Hob3l.Grid.C120_float_partial` | propext, Classical.choice, Quot.sound |
| `Hob3l.Grid.C120_reimport` | propext, Classical.choice, Quot.sound |
| `Hob3l.Grid.C120_finest` | propext, Classical.choice, Quot.sound |
| `Hob3l.Grid.C120_bits_wrong` | propext, Classical.choice, Quot.sound |
| `Hob3l.Grid.C120_down_wrong` | propext, Classical.choice, Quot.sound |
| `Hob3l.Grid.C120_subtracted_wrong` | propext, Classical.choice, Quot.sound |
| `Hob3l.Heap.C34_vec_insert` | propext, Classical.choice, Quot.sound |
| `Hob3l.Heap.C34_vec_extract` | propext, Classical.choice, Quot.sound |
| `Hob3l.Heap.C34_vec_update` | propext, Classical.choice, Quot.sound |
| `Hob3l.Heap.C34_vec_min` | propext, Classical.choice, Quot.sound |
| `Hob3l.Heap.C34_insert` | propext, Classical.choice, Quot.sound |
| `Hob3l.Heap.C34_remove` | propext, Classical.choice, Quot.sound |
| `Hob3l.Heap.C34_extract` | propext, Classical.choice, Quot.sound |
| `Hob3l.Heap.C34_min` | propext, Classical.choice, Quot.sound |
| `Hob3l.Heap.C34_update` | propext, Classical.choice, Quot.sound |
| `Hob3l.Heap.C34_replace` | propext, Classical.choice, Quot.sound |
| `Hob3l.Heap.C34_replace_modes` | propext, Classical.choice, Quot.sound |
| `Hob3l.Heap.C34_history` | propext, Classical.choice, Quot.sound |
| `Hob3l.Heap.C35_vec_make_partial` | propext, Quot.sound |
| `Hob3l.Heap.C35_vec_make_wrong` | propext, Quot.sound |
| `Hob3l.Heap.C35_make_partial` | propext, Quot.sound |
| `Hob3l.Hull.C53_hull_partial` | propext, Classical.choice, Quot.sound |
| `Hob3l.Hull.C53_grid_partial` | propext, Classical.choice, Quot.sound |
| `Hob3l.Hull.C53_wrong` | propext, Classical.choice, Quot.sound |
| `Hob3l.Import.C133_name` | propext, Classical.choice, Quot.sound |
| `Hob3l.Import.C133_stl` | propext, Classical.choice, Quot.sound |
| `Hob3l.Import.C133_binary` | propext, Classical.choice, Quot.sound |
| `Hob3l.Import.C133_svg_partial` | propext, Classical.choice, Quot.sound |
| `Hob3l.Import.C133_svg_wrong` | propext, Classical.choice, Quot.sound |
| `Hob3l.Isect.C111_sound` | propext, Classical.choice, Quot.sound |
| `Hob3l.Isect.C111_exact` | propext, Classical.choice, Quot.sound |
| `Hob3l.Isect.C111_complete_partial` | propext, Classical.choice, Quot.sound |
| `Hob3l.Isect.C111_junction_wrong` | propext, Classical.choice, Quot.sound |
| `Hob3l.Isect.C111_point_wrong` | propext, Classical.choice, Quot.sound |
| `Hob3l.Layer.C49_layers` | propext, Classical.choice, Quot.sound |
| `Hob3l.Layer.C49_any_order` | propext, Classical.choice, Quot.sound |
| `Hob3l.Layer.C49_out_of_range` | propext, Quot.sound |
| `Hob3l.Layer.C49_skips` | propext |
| `Hob3l.Linext.C128_points` | propext, Classical.choice, Quot.sound |
| `Hob3l.Linext.C128_index` | propext, Classical.choice, Quot.sound |
| `Hob3l.Linext.C128_ends` | propext, Classical.choice, Quot.sound |
| `Hob3l.Linext.C128_outcome` | propext, Classical.choice, Quot.sound |
| `Hob3l.Linext.C128_sides_planar_partial` | propext, Classical.choice, Quot.sound |
| `Hob3l.Linext.C128_sides_planar_wrong` | propext, Classical.choice, Quot.sound |
| `Hob3l.Linext.C128_negative_wrong` | propext, Classical.choice, Quot.sound |
| `Hob3l.Loc.C47_partial` | propext, Classical.choice, Quot.sound |
| `Hob3l.Loc.C47_inside_partial` | propext, Classical.choice, Quot.sound |
| `Hob3l.Loc.C47_wrong` | propext |
| `Hob3l.Loc.C47_wrong_everywhere` | propext, Classical.choice, Quot.sound |
| `Hob3l.Loc.C47_file` | propext, Classical.choice, Quot.sound |
| `Hob3l.Main.C131_stdout` | propext, Classical.choice, Quot.sound |
| `Hob3l.Main.C131_file_partial` | propext, Classical.choice, Quot.sound |
| `Hob3l.Main.C131_others` | propext, Classical.choice, Quot.sound |
| `Hob3l.Main.C131_failure_wrong` | propext, Classical.choice, Quot.sound |
| `Hob3l.Main.C131_self_wrong` | propext, Classical.choice, Quot.sound |
| `Hob3l.Main.C131_input_wrong` | propext, Classical.choice, Quot.sound |
| `Hob3l.Main.C131_gran_partial` | propext, Classical.choice, Quot.sound |
| `Hob3l.Main.C131_gran_wrong` | propext, Classical.choice, Quot.sound |
| `Hob3l.Matq.C01_divmod` | propext, Classical.choice, Quot.sound |
| `Hob3l.Matq.C01_divmodw` | propext, Classical.choice, Quot.sound |
| `Hob3l.Matq.C02_mul_exact` | propext, Classical.choice, Quot.sound |
| `Hob3l.Matq.C03_frac_cmp` | propext, Classical.choice, Quot.sound |
| `Hob3l.Matq.C03_mixed_cmp` | propext, Classical.choice, Quot.sound |
| `Hob3l.Matq.C04_cmp_values` | propext, Classical.choice, Quot.sound |
| `Hob3l.Matq.C04_total_order` | propext, Classical.choice, Quot.sound |
| `Hob3l.Matq.C04_grid_cmp` | propext, Classical.choice, Quot.sound |
| `Hob3l.Matq.C05_div_exact` | propext, Classical.choice, Quot.sound |
| `Hob3l.Matq.C05_domain` | propext, Classical.choice, Quot.sound |
| `Hob3l.Matq.C06_mul_div` | propext, Classical.choice, Quot.sound |
| `Hob3l.Matq.C07_classification` | propext, Classical.choice, Quot.sound |
| `Hob3l.Matq.C08_exact_point` | propext, Classical.choice, Quot.sound |
| `Hob3l.Matq.C09_no_overflow` | propext, Classical.choice, Quot.sound |
| `Hob3l.Matq.C09_range_is_tight` | propext |
| `Hob3l.Matq.C10_round` | propext, Classical.choice, Quot.sound |
| `Hob3l.Matq.C10_round_props` | propext, Classical.choice, Quot.sound |
| `Hob3l.Matq.C11_divw_rnd` | propext, Classical.choice, Quot.sound |
| `Hob3l.Matq.C11_negative_divisor_wrong` | none |
| `Hob3l.Matq.C12_spurious_overflow` | none |
| `Hob3l.Matq.C12_divmodx_partial` | propext, Classical.choice, Quot.sound |
| `Hob3l.Matq.C13_pixel_edge` | propext, Classical.choice, Quot.sound |
| `Hob3l.Matq.C13_orientation_needed` | none |
| `Hob3l.Mesh.C132_polyhedron_partial` | propext, Classical.choice, Quot.sound |
| `Hob3l.Mesh.C132_polygon_partial` | propext, Classical.choice, Quot.sound |
| `Hob3l.Mesh.C132_duplicate` | propext, Classical.choice, Quot.sound |
| `Hob3l.Mesh.C132_refused` | propext, Classical.choice, Quot.sound |
| `Hob3l.Mesh.C132_sort_wrong` | propext, Classical.choice, Quot.sound |
| `Hob3l.Msg.C135_mark_partial` | propext, Classical.choice, Quot.sound |
| `Hob3l.Msg.C135_second` | propext, Classical.choice, Quot.sound |
| `Hob3l.Msg.C135_nowhere` | propext, Classical.choice, Quot.sound |
| `Hob3l.Msg.C135_binary_wrong` | propext, Classical.choice, Quot.sound |
| `Hob3l.Msg.C135_end_wrong` | propext, Classical.choice, Quot.sound |
| `Hob3l.Ns.C137_drawn` | propext, Classical.choice, Quot.sound |
| `Hob3l.Ns.C137_parsed` | propext, Classical.choice, Quot.sound |
| `Hob3l.Ns.C137_svg_partial` | propext, Classical.choice, Quot.sound |
| `Hob3l.Ns.C137_none_wrong` | propext, Classical.choice, Quot.sound |
| `Hob3l.Opt.C121_parse` | propext, Classical.choice, Quot.sound |
| `Hob3l.Opt.C121_equals` | propext, Classical.choice, Quot.sound |
| `Hob3l.Opt.C121_negation_partial` | propext, Classical.choice, Quot.sound |
| `Hob3l.Opt.C121_negation_wrong` | propext, Classical.choice, Quot.sound |
| `Hob3l.Opt.C121_ignored_wrong` | propext, Classical.choice, Quot.sound |
| `Hob3l.Opt.C121_last` | propext, Classical.choice, Quot.sound |
| `Hob3l.Opt.C121_values` | propext, Classical.choice, Quot.sound |
| `Hob3l.Opt.C121_switches` | propext, Classical.choice, Quot.sound |
| `Hob3l.Opt.C121_dump` | propext, Classical.choice, Quot.sound |
| `Hob3l.Opt.C122_number_partial` | propext, Classical.choice, Quot.sound |
| `Hob3l.Opt.C122_number_wrong` | propext, Classical.choice, Quot.sound |
| `Hob3l.Opt.C122_number_syntax` | propext, Classical.choice, Quot.sound |
| `Hob3l.Opt.C122_rgb_partial` | propext, Quot.sound |
| `Hob3l.Opt.C122_rgb_wrong` | propext, Classical.choice, Quot.sound |
| `Hob3l.Opt.C122_format` | propext, Classical.choice, Quot.sound |
| `Hob3l.Poly.C55_conserved` | propext, Classical.choice, Quot.sound |
| `Hob3l.Poly.C66_holes` | propext, Classical.choice, Quot.sound |
| `Hob3l.Poly.C67_alternate` | propext, Classical.choice, Quot.sound |
| `Hob3l.Poly.C68_points` | propext, Classical.choice, Quot.sound |
| `Hob3l.Poly.C114_polygons` | propext, Classical.choice, Quot.sound |
| `Hob3l.Poly.C69_total` | propext, Classical.choice, Quot.sound |
| `Hob3l.Poly.C69_search` | propext, Classical.choice, Quot.sound |
| `Hob3l.Poly.C70_inside` | propext, Classical.choice, Quot.sound |
| `Hob3l.Pool.C39_calloc` | propext, Classical.choice, Quot.sound |
| `Hob3l.Pool.C39_disjoint` | propext, Classical.choice, Quot.sound |
| `Hob3l.Pool.C39_never_dies` | propext, Classical.choice, Quot.sound |
| `Hob3l.Pool.C39_succeeds` | propext, Classical.choice, Quot.sound |
| `Hob3l.Pool.C39_pool_calloc` | propext, Classical.choice, Quot.sound |
| `Hob3l.Pool.C39_realloc` | propext, Classical.choice, Quot.sound |
| `Hob3l.Pool.C39_clear` | propext, Classical.choice, Quot.sound |
| `Hob3l.Pool.C39_align0_wrong` | propext, Quot.sound |
| `Hob3l.Prim.C129_cube` | propext, Classical.choice, Quot.sound |
| `Hob3l.Prim.C129_cylinder_partial` | propext, Classical.choice, Quot.sound |
| `Hob3l.Prim.C129_cylinder_cone_wrong` | propext, Classical.choice, Quot.sound |
| `Hob3l.Prim.C129_cylinder_negative_wrong` | propext, Classical.choice, Quot.sound |
| `Hob3l.Prim.C129_sphere` | propext, Classical.choice, Quot.sound |
| `Hob3l.Prim.C129_circle` | propext, Classical.choice, Quot.sound |
| `Hob3l.Prim.C129_square` | propext, Classical.choice, Quot.sound |
| `Hob3l.Prim.C129_refused` | propext, Classical.choice, Quot.sound |
| `Hob3l.Ps.C119_fit_partial` | propext, Classical.choice, Quot.sound |
| `Hob3l.Ps.C119_fit_wrong` | propext, Classical.choice, Quot.sound |
| `Hob3l.Ps.C119_scale` | propext, Classical.choice, Quot.sound |
| `Hob3l.Ps.C119_position` | propext, Classical.choice, Quot.sound |
| `Hob3l.Ps.C119_view` | propext, Classical.choice, Quot.sound |
| `Hob3l.Ps.C119_pages` | propext, Classical.choice, Quot.sound |
| `Hob3l.Ps.C119_bbox` | propext, Classical.choice, Quot.sound |
| `Hob3l.Ps.C119_dots_wrong` | propext, Classical.choice, Quot.sound |
| `Hob3l.Range.C63_inside_partial` | propext, Classical.choice, Quot.sound |
| `Hob3l.Range.C63_height_partial` | propext, Classical.choice, Quot.sound |
| `Hob3l.Range.C63_cover_partial` | propext, Classical.choice, Quot.sound |
| `Hob3l.Range.C63_thin_partial` | propext, Classical.choice, Quot.sound |
| `Hob3l.Range.C63_thin_wrong` | propext, Classical.choice, Quot.sound |
| `Hob3l.Range.C63_single` | propext, Classical.choice, Quot.sound |
| `Hob3l.Rect.C52_rejects_wrong` | propext, Classical.choice, Quot.sound |
| `Hob3l.Rect.C52_accepts_wrong` | propext, Classical.choice, Quot.sound |
| `Hob3l.Rect.C52_accepts_iff_partial` | propext, Classical.choice, Quot.sound |
| `Hob3l.Rev.C127_phase2_partial` | propext, Classical.choice, Quot.sound |
| `Hob3l.Rev.C127_phase2_wrong` | propext, Classical.choice, Quot.sound |
| `Hob3l.Rev.C127_phase1_partial` | propext, Classical.choice, Quot.sound |
| `Hob3l.Rev.C127_phase1_wrong` | propext, Classical.choice, Quot.sound |
| `Hob3l.Ring.C38_rotate` | propext, Classical.choice, Quot.sound |
| `Hob3l.Ring.C38_init` | propext, Classical.choice, Quot.sound |
| `Hob3l.Ring.C38_frame` | propext, Classical.choice, Quot.sound |
| `Hob3l.Ring.C38_inverse` | propext |
| `Hob3l.Ring.C38_join` | propext, Classical.choice, Quot.sound |
| `Hob3l.Ring.C38_split` | propext, Classical.choice, Quot.sound |
| `Hob3l.Ring.C38_remove` | propext, Classical.choice, Quot.sound |
| `Hob3l.Ring.C38_is_member` | propext, Quot.sound |
| `Hob3l.Ring.C38_each` | propext, Classical.choice, Quot.sound |
| `Hob3l.Ring.C38_each_rev` | propext, Classical.choice, Quot.sound |
| `Hob3l.Rotext.C130_arc` | propext, Classical.choice, Quot.sound |
| `Hob3l.Rotext.C130_full` | propext, Classical.choice, Quot.sound |
| `Hob3l.Rotext.C130_refused` | propext, Classical.choice, Quot.sound |
| `Hob3l.Rotext.C130_axis_wrong` | propext, Classical.choice, Quot.sound |
| `Hob3l.Scad.C61_meaning_partial` | propext, Classical.choice, Quot.sound |
| `Hob3l.Scad.C61_subtree_partial` | propext, Classical.choice, Quot.sound |
| `Hob3l.Scad.C61_fails_iff_partial` | propext, Classical.choice, Quot.sound |
| `Hob3l.Scad.C61_difference_first_partial` | propext, Classical.choice, Quot.sound |
| `Hob3l.Scad.C61_lone_wrong` | propext, Quot.sound |
| `Hob3l.Scad.C61_hollow_wrong` | propext, Quot.sound |
| `Hob3l.ScadOut.C124_scad_output` | propext, Classical.choice, Quot.sound |
| `Hob3l.Sieve.C59_find` | propext, Classical.choice, Quot.sound |
| `Hob3l.Slice.C24_even_cut_points` | propext, Classical.choice, Quot.sound |
| `Hob3l.Slice.C25_cut_point` | propext, Classical.choice, Quot.sound |
| `Hob3l.Slice.C25_no_cut` | propext, Classical.choice, Quot.sound |
| `Hob3l.Slice.C25_exact_on_side` | propext, Classical.choice, Quot.sound |
| `Hob3l.Slice.C26_watertight` | propext, Classical.choice, Quot.sound |
| `Hob3l.Slice.C26_degree` | propext, Classical.choice, Quot.sound |
| `Hob3l.Slice.C27_fini` | propext, Quot.sound |
| `Hob3l.Slice.C58_face_even_odd` | propext, Classical.choice, Quot.sound |
| `Hob3l.Solid.C73_solid` | propext, Classical.choice, Quot.sound |
| `Hob3l.Solid.C73_numbers` | propext, Classical.choice, Quot.sound |
| `Hob3l.Solid.C73_mirror` | propext, Classical.choice, Quot.sound |
| `Hob3l.Solid.C73_slice_closed` | propext, Classical.choice, Quot.sound |
| `Hob3l.Solid.C73_max_fn_wrong` | none |
| `Hob3l.Solid.C74_rotate_extrude` | propext, Classical.choice, Quot.sound |
| `Hob3l.Solid.C74_slice_closed` | propext, Classical.choice, Quot.sound |
| `Hob3l.Solid.C74_both_sides` | propext, Quot.sound |
| `Hob3l.Solid.C74_max_fn_wrong` | propext |
| `Hob3l.Solid.C75_section` | propext, Classical.choice, Quot.sound |
| `Hob3l.Solid.C75_section_twisted` | propext, Classical.choice, Quot.sound |
| `Hob3l.Solid.C75_section_tip` | propext, Classical.choice, Quot.sound |
| `Hob3l.Solid.C75_outside` | propext, Classical.choice, Quot.sound |
| `Hob3l.Solid.C75_prism` | propext, Classical.choice, Quot.sound |
| `Hob3l.Solid.C76_each_once` | propext, Classical.choice, Quot.sound |
| `Hob3l.Solid.C76_symmetric` | propext, Classical.choice, Quot.sound |
| `Hob3l.Solid.C76_regular` | propext, Classical.choice, Quot.sound |
| `Hob3l.Solid.C77_cube` | propext, Classical.choice, Quot.sound |
| `Hob3l.Solid.C77_cylinder` | propext, Classical.choice, Quot.sound |
| `Hob3l.Solid.C77_cylinder_clockwise` | propext, Classical.choice, Quot.sound |
| `Hob3l.Solid.C77_sphere` | propext, Classical.choice, Quot.sound |
| `Hob3l.Solid.C77_linear_extrude` | propext, Classical.choice, Quot.sound |
| `Hob3l.Stl.C44_binary` | propext, Classical.choice, Quot.sound |
| `Hob3l.Stl.C44_roundtrip` | propext, Classical.choice, Quot.sound |
| `Hob3l.Stl.C44_solid_header_wrong` | propext |
| `Hob3l.Stl.C45_header_partial` | propext, Quot.sound |
| `Hob3l.Stl.C45_header_wrong` | propext, Quot.sound |
| `Hob3l.Stl.C45_text_partial` | propext, Classical.choice, Quot.sound |
| `Hob3l.Stl.C45_total` | propext, Classical.choice, Quot.sound |
| `Hob3l.Stl.C45_lost_triangle_wrong` | propext, Classical.choice, Quot.sound |
| `Hob3l.Stl.C45_more_wrong` | propext, Classical.choice, Quot.sound |
| `Hob3l.Stream.C56_wrong` | none |
| `Hob3l.Stream.C56_wrong_everywhere` | propext |
| `Hob3l.Stream.C56_empty_wrong` | propext |
| `Hob3l.Stream.C56_call_partial` | propext, Classical.choice, Quot.sound |
| `Hob3l.Stream.C56_run_partial` | propext, Classical.choice, Quot.sound |
| `Hob3l.Svg.C100_path_data_partial` | propext, Classical.choice, Quot.sound |
| `Hob3l.Svg.C100_accepted` | propext, Classical.choice, Quot.sound |
| `Hob3l.Svg.C100_double_comma` | propext, Classical.choice, Quot.sound |
| `Hob3l.Svg.C100_exponent_wrong` | propext, Classical.choice, Quot.sound |
| `Hob3l.Svg.C100_close_wrong` | propext, Classical.choice, Quot.sound |
| `Hob3l.Svg.C100_zero_line_wrong` | propext, Classical.choice, Quot.sound |
| `Hob3l.Svg.C101_polygon` | propext, Classical.choice, Quot.sound |
| `Hob3l.Svg.C101_distinct_partial` | propext, Classical.choice, Quot.sound |
| `Hob3l.Svg.C103_abort_partial` | propext, Classical.choice, Quot.sound |
| `Hob3l.Svg.C103_abort_wrong` | propext, Classical.choice, Quot.sound |
| `Hob3l.Svg.C102_arc_partial` | propext, Classical.choice, Quot.sound |
| `Hob3l.Svg.C102_flat_wrong` | propext, Classical.choice, Quot.sound |
| `Hob3l.Svg.C102_small_wrong` | propext, Classical.choice, Quot.sound |
| `Hob3l.Svg.C104_transform_partial` | propext, Classical.choice, Quot.sound |
| `Hob3l.Svg.C104_prefix_wrong` | propext, Classical.choice, Quot.sound |
| `Hob3l.Svg.C104_count_wrong` | propext, Classical.choice, Quot.sound |
| `Hob3l.Svg.C104_error_wrong` | propext, Classical.choice, Quot.sound |
| `Hob3l.Svg.C105_rect_partial` | propext, Classical.choice, Quot.sound |
| `Hob3l.Svg.C105_rect_empty` | propext, Classical.choice, Quot.sound |
| `Hob3l.Svg.C105_poly_partial` | propext, Classical.choice, Quot.sound |
| `Hob3l.Svg.C105_line_partial` | propext, Classical.choice, Quot.sound |
| `Hob3l.Svg.C105_circle_partial` | propext, Classical.choice, Quot.sound |
| `Hob3l.Svg.C105_ellipse_partial` | propext, Classical.choice, Quot.sound |
| `Hob3l.Svg.C105_y_wrong` | propext, Classical.choice, Quot.sound |
| `Hob3l.Svg.C105_line_wrong` | propext, Classical.choice, Quot.sound |
| `Hob3l.Svg.C105_circle_wrong` | propext, Classical.choice, Quot.sound |
| `Hob3l.Svg.C105_abort_wrong` | propext, Classical.choice, Quot.sound |
| `Hob3l.Svg.C106_tree_partial` | propext, Classical.choice, Quot.sound |
| `Hob3l.Svg.C106_layer_wrong` | propext, Classical.choice, Quot.sound |
| `Hob3l.Svg.C107_view_partial` | propext, Classical.choice, Quot.sound |
| `Hob3l.Svg.C107_image_partial` | propext, Classical.choice, Quot.sound |
| `Hob3l.Svg.C107_default_wrong` | propext, Classical.choice, Quot.sound |
| `Hob3l.Svg.C107_align_wrong` | propext, Classical.choice, Quot.sound |
| `Hob3l.Svg.C107_center_wrong` | propext, Classical.choice, Quot.sound |
| `Hob3l.Swap.C126_swap` | propext, Quot.sound |
| `Hob3l.Swap.C126_sequence` | propext, Quot.sound |
| `Hob3l.Swap.C126_root` | propext, Quot.sound |
| `Hob3l.Swap.C126_root2` | propext, Quot.sound |
| `Hob3l.Swap.C126_replace` | propext, Quot.sound |
| `Hob3l.Swap.C126_bundle` | propext, Quot.sound |
| `Hob3l.Sweep.C20_overlap` | propext, Classical.choice, Quot.sound |
| `Hob3l.Sweep.C20_split` | propext, Classical.choice, Quot.sound |
| `Hob3l.Sweep.C20_pair` | propext, Classical.choice, Quot.sound |
| `Hob3l.Sweep.C21_add_edge` | propext, Classical.choice, Quot.sound |
| `Hob3l.Sweep.C21_add_path` | propext, Classical.choice, Quot.sound |
| `Hob3l.Sweep.C21_add_tri` | propext, Classical.choice, Quot.sound |
| `Hob3l.Sweep.C21_add_lines` | propext, Classical.choice, Quot.sound |
| `Hob3l.Sweep.C22_containment_bits` | propext, Quot.sound |
| `Hob3l.Sweep.C22_reduce` | propext, Classical.choice, Quot.sound |
| `Hob3l.Sweep.C23_vec2_cmp` | propext, Classical.choice, Quot.sound |
| `Hob3l.Sweep.C23_phase1` | propext, Classical.choice, Quot.sound |
| `Hob3l.Sweep.C23_phase2` | propext, Classical.choice, Quot.sound |
| `Hob3l.Sweep.C23_xing_phase1` | propext, Classical.choice, Quot.sound |
| `Hob3l.Sweep.C23_xing_phase2` | propext, Classical.choice, Quot.sound |
| `Hob3l.Sweep.C23_result` | propext, Classical.choice, Quot.sound |
| `Hob3l.Sweep.C23_tree` | propext, Classical.choice, Quot.sound |
| `Hob3l.Sweep.C23_tree_end` | propext, Classical.choice, Quot.sound |
| `Hob3l.Sweep.C23_tree_monotone` | propext, Classical.choice, Quot.sound |
| `Hob3l.Sweep.C108_find_intersections` | propext, Classical.choice, Quot.sound |
| `Hob3l.Sweep.C109_ends` | propext, Classical.choice, Quot.sound |
| `Hob3l.Sweep.C109_polygons` | propext, Classical.choice, Quot.sound |
| `Hob3l.Sweep.C110_vertices` | propext, Classical.choice, Quot.sound |
| `Hob3l.Sweep.C110_edges_partial` | propext, Classical.choice, Quot.sound |
| `Hob3l.Sweep.C112_inside` | propext, Classical.choice, Quot.sound |
| `Hob3l.Sweep.C112_boolean` | propext, Classical.choice, Quot.sound |
| `Hob3l.Syn.C46_tokens` | propext, Classical.choice, Quot.sound |
| `Hob3l.Syn.C46_reads` | propext, Classical.choice, Quot.sound |
| `Hob3l.Syn.C46_strings` | propext, Classical.choice, Quot.sound |
| `Hob3l.Syn.C71_sound` | propext, Classical.choice, Quot.sound |
| `Hob3l.Syn.C71_complete` | propext, Classical.choice, Quot.sound |
| `Hob3l.Syn.C71_unique` | propext, Classical.choice, Quot.sound |
| `Hob3l.Syn.C71_total` | propext, Classical.choice, Quot.sound |
| `Hob3l.Syn.C72_include_partial` | propext, Classical.choice, Quot.sound |
| `Hob3l.Syn.C72_int_partial` | propext, Quot.sound |
| `Hob3l.Syn.C72_number_wrong` | propext, Classical.choice, Quot.sound |
| `Hob3l.Syn.C72_int_wrong` | propext, Classical.choice, Quot.sound |
| `Hob3l.Syn.C72_nul_wrong` | propext, Classical.choice, Quot.sound |
| `Hob3l.Syn.C72_include_wrong` | propext, Classical.choice, Quot.sound |
| `Hob3l.Syn.C72_cycle_wrong` | propext, Classical.choice, Quot.sound |
| `Hob3l.Syn.C72_bare_wrong` | propext, Classical.choice, Quot.sound |
| `Hob3l.Syn.C113_print_partial` | propext, Classical.choice, Quot.sound |
| `Hob3l.Syn.C113_same_partial` | propext, Classical.choice, Quot.sound |
| `Hob3l.Syn.C113_modifier_wrong` | propext, Classical.choice, Quot.sound |
| `Hob3l.Syn.C113_block_wrong` | propext, Classical.choice, Quot.sound |
| `Hob3l.Syn.C113_float_wrong` | propext, Classical.choice, Quot.sound |
| `Hob3l.Text.C136_style_partial` | propext, Quot.sound |
| `Hob3l.Text.C136_style_wrong` | none |
| `Hob3l.Text.C136_place_partial` | propext, Classical.choice, Quot.sound |
| `Hob3l.Text.C136_swapped` | propext, Classical.choice, Quot.sound |
| `Hob3l.Text.C136_valign_wrong` | propext, Classical.choice, Quot.sound |
| `Hob3l.Text.C136_errors` | propext, Classical.choice, Quot.sound |
| `Hob3l.Text.C136_silent_wrong` | propext, Classical.choice, Quot.sound |
| `Hob3l.Text.C136_surface_wrong` | none |
| `Hob3l.Tri.C86_total` | propext, Classical.choice, Quot.sound |
| `Hob3l.Tri.C87_triangles` | propext, Classical.choice, Quot.sound |
| `Hob3l.Tri.C87_points` | propext, Classical.choice, Quot.sound |
| `Hob3l.Tri.C88_cover` | propext, Classical.choice, Quot.sound |
| `Hob3l.Tri.C88_disjoint` | propext, Classical.choice, Quot.sound |
| `Hob3l.Tri.C88_only` | propext, Classical.choice, Quot.sound |
| `Hob3l.Tri.C88_all` | propext, Classical.choice, Quot.sound |
| `Hob3l.Tri.C89_area` | propext, Classical.choice, Quot.sound |
| `Hob3l.Tri.C115_triangles` | propext, Classical.choice, Quot.sound |
| `Hob3l.Tri.C90_flag_is_edge` | propext, Classical.choice, Quot.sound |
| `Hob3l.Tri.C90_side_once` | propext, Classical.choice, Quot.sound |
| `Hob3l.Tri.C90_matched` | propext, Classical.choice, Quot.sound |
| `Hob3l.Tri.C90_edge_side` | propext, Classical.choice, Quot.sound |
| `Hob3l.Tri.C90_outline_partial` | propext, Classical.choice, Quot.sound |
| `Hob3l.Tri.C91_closed_partial` | propext, Classical.choice, Quot.sound |
| `Hob3l.Tri.C90_not` | propext, Classical.choice, Quot.sound |
| `Hob3l.Tri.C91_not` | propext, Classical.choice, Quot.sound |
| `Hob3l.Utf8.C42_encode` | propext, Classical.choice, Quot.sound |
| `Hob3l.Utf8.C42_unique` | propext, Classical.choice, Quot.sound |
| `Hob3l.Utf8.C42_encode_assert` | propext, Classical.choice, Quot.sound |
| `Hob3l.Utf8.C42_decode_encoded_partial` | propext, Classical.choice, Quot.sound |
| `Hob3l.Utf8.C42_roundtrip_partial` | propext, Classical.choice, Quot.sound |
| `Hob3l.Utf8.C42_ascii` | propext, Classical.choice, Quot.sound |
| `Hob3l.Utf8.C42_wrong` | propext |
| `Hob3l.Utf8.C42_not_injective` | propext, Quot.sound |
| `Hob3l.Utf8.C42_accepts_exactly_partial` | propext, Classical.choice, Quot.sound |
| `Hob3l.Utf8.C42_decode_total` | propext, Quot.sound |
| `Hob3l.Utf8.C43_hex` | propext, Classical.choice, Quot.sound |
| `Hob3l.Utf8.C43_simple` | propext, Quot.sound |
| `Hob3l.Utf8.C43_unrecognised` | propext, Quot.sound |
| `Hob3l.Utf8.C43_plain` | propext, Classical.choice, Quot.sound |
| `Hob3l.Utf8.C43_premature_partial` | propext, Classical.choice, Quot.sound |
| `Hob3l.Utf8.C43_wrong_last` | propext, Classical.choice, Quot.sound |
| `Hob3l.Utf8.C43_wrong` | propext |
| `Hob3l.Utf8.C43_backslash_at_end` | propext, Quot.sound |
| `Hob3l.VChar.C41_append_arr` | propext, Classical.choice, Quot.sound |
| `Hob3l.VChar.C41_append` | propext, Classical.choice, Quot.sound |
| `Hob3l.VChar.C41_print` | propext, Classical.choice, Quot.sound |
| `Hob3l.VChar.C41_shrink` | propext, Classical.choice, Quot.sound |
| `Hob3l.VChar.C41_cstr` | propext, Classical.choice, Quot.sound |
| `Hob3l.VChar.C41_history` | propext, Classical.choice, Quot.sound |
| `Hob3l.VChar.C41_append_self_wrong` | propext, Classical.choice, Quot.sound |
| `Hob3l.Vec.C36_inflate` | propext, Classical.choice, Quot.sound |
| `Hob3l.Vec.C36_set_size` | propext, Quot.sound |
| `Hob3l.Vec.C36_ensure_size` | propext, Quot.sound |
| `Hob3l.Vec.C36_clear` | propext, Quot.sound |
| `Hob3l.Vec.C36_copy_arr` | propext, Classical.choice, Quot.sound |
| `Hob3l.Vec.C36_copy` | propext, Classical.choice, Quot.sound |
| `Hob3l.Vec.C36_copy_self` | propext, Classical.choice, Quot.sound |
| `Hob3l.Vec.C36_insert_partial` | propext, Classical.choice, Quot.sound |
| `Hob3l.Vec.C36_insert_self_partial` | propext, Classical.choice, Quot.sound |
| `Hob3l.Vec.C36_insert_self_wrong` | propext, Classical.choice, Quot.sound |
| `Hob3l.Vec.C36_adjacent_wrong` | propext, Quot.sound |
| `Hob3l.Vec.C36_push` | propext, Classical.choice, Quot.sound |
| `Hob3l.Vec.C36_append` | propext, Classical.choice, Quot.sound |
| `Hob3l.Vec.C36_append_self` | propext, Classical.choice, Quot.sound |
| `Hob3l.Vec.C36_remove` | propext, Classical.choice, Quot.sound |
| `Hob3l.Vec.C36_extract` | propext, Classical.choice, Quot.sound |
| `Hob3l.Vec.C36_pop` | propext, Classical.choice, Quot.sound |
| `Hob3l.Vec.C36_reverse` | propext, Classical.choice, Quot.sound |
| `Hob3l.Vec.C37_bsearch` | propext, Quot.sound |
| `Hob3l.Vec.C37_sorted` | propext, Quot.sound |
| `Hob3l.Vec.C37_steps` | propext, Quot.sound |
| `Hob3l.Whole.C62_scad_to_layers_partial` | propext, Classical.choice, Quot.sound |
| `Hob3l.Whole.C62_lone_wrong` | propext, Classical.choice, Quot.sound |
| `Hob3l.Xform.C51_det` | propext, Classical.choice, Quot.sound |
| `Hob3l.Xform.C51_inv_partial` | propext, Classical.choice, Quot.sound |
| `Hob3l.Xform.C51_affine_partial` | propext, Classical.choice, Quot.sound |
| `Hob3l.Xform.C51_small_wrong` | propext, Classical.choice, Quot.sound |
| `Hob3l.Xform.C51_swap_partial` | propext, Classical.choice, Quot.sound |
| `Hob3l.Xform.C51_into_z_wrong` | propext, Classical.choice, Quot.sound |
| `Hob3l.Xform.C64_chain_partial` | propext, Classical.choice, Quot.sound |
| `Hob3l.Xform.C64_tiny_wrong` | propext, Classical.choice, Quot.sound |
| `Hob3l.Xform.C64_axis_wrong` | propext, Classical.choice, Quot.sound |
| `Hob3l.Xform.C65_sphere_partial` | propext, Classical.choice, Quot.sound |
| `Hob3l.Xform.C65_wrong` | propext, Classical.choice, Quot.sound |
| `Hob3l.Xml.C97_documents_partial` | propext, Classical.choice, Quot.sound |
| `Hob3l.Xml.C97_one_root` | propext, Classical.choice, Quot.sound |
| `Hob3l.Xml.C97_comment_wrong` | propext, Classical.choice, Quot.sound |
| `Hob3l.Xml.C97_xml_prefix_wrong` | propext, Classical.choice, Quot.sound |
| `Hob3l.Xml.C97_nonascii_wrong` | propext, Classical.choice, Quot.sound |
| `Hob3l.Xml.C97_lenient_wrong` | propext, Classical.choice, Quot.sound |
| `Hob3l.Xml.C98_text_in_place` | propext, Classical.choice, Quot.sound |
| `Hob3l.Xml.C99_wrong` | propext, Classical.choice, Quot.sound |
| `Hob3l.Xml.C99_ends_partial` | propext, Classical.choice, Quot.sound |
