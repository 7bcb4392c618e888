'Verif.VisRow.pvs_row_roundtrip' depends on axioms: [propext, Classical.choice, Quot.sound]
'Verif.VisRow.pvs_row_consumed' depends on axioms: [propext, Classical.choice, Quot.sound]
'Verif.VisRow.pvs_decompress_memory_safe' depends on axioms: [propext, Classical.choice, Quot.sound]
'Verif.VisRow.pvs_decompress_positions' depends on axioms: [propext, Classical.choice, Quot.sound]
'Verif.VisState.bitmap_roundtrip' depends on axioms: [propext, Classical.choice, Quot.sound]
'Verif.VisState.getBit_defined' depends on axioms: [propext, Quot.sound]
'Verif.VisState.compressBits_fits' depends on axioms: [propext, Quot.sound]
'Verif.VisState.state_roundtrip' depends on axioms: [propext, Classical.choice, Quot.sound]
'Verif.VisState.state_mismatch_rejected' depends on axioms: [propext, Classical.choice, Quot.sound]
'Verif.VisState.crash_safe_partial' depends on axioms: [propext]
'Verif.VisState.save_then_resume' does not depend on any axioms
'Verif.VisState.crash_unsafe_first_save' depends on axioms: [propext, Classical.choice, Quot.sound]
'Verif.Vis.every_portal_flowed_once' depends on axioms: [propext, Classical.choice, Quot.sound]
'Verif.Vis.one_worker_per_portal' depends on axioms: [propext, Classical.choice, Quot.sound]
'Verif.Vis.completion_leaves_others_alone' depends on axioms: [propext, Quot.sound]
'Verif.Vis.some_worker_can_step' depends on axioms: [propext, Classical.choice, Quot.sound]
'Verif.Vis.schedule_terminates' depends on axioms: [propext, Quot.sound]
'Verif.Vis.every_run_can_finish' depends on axioms: [propext, Classical.choice, Quot.sound]
'Verif.Vis.next_portal_is_cheapest' depends on axioms: [propext, Quot.sound]
'Verif.Vis.next_portal_is_first' depends on axioms: [propext, Quot.sound]
'Verif.Vis.next_portal_none' depends on axioms: [propext, Quot.sound]
'Verif.Vis.full_vis_conservative' depends on axioms: [propext, Classical.choice, Quot.sound]
'Verif.Vis.fast_vis_conservative' depends on axioms: [propext, Classical.choice, Quot.sound]
'Verif.Vis.full_vis_within_fast_vis' depends on axioms: [propext, Classical.choice, Quot.sound]
'Verif.Vis.base_flood_is_reachability' depends on axioms: [propext, Classical.choice, Quot.sound]
'Verif.Vis.Rows.cluster_rows_are_unions' depends on axioms: [propext, Classical.choice, Quot.sound]
'Verif.Vis.Rows.unfinished_portal_is_an_error' depends on axioms: [propext, Quot.sound]
'Verif.Vis.Rows.phs_rows_partial' depends on axioms: [propext, Classical.choice, Quot.sound]
'Verif.Vis.Rows.phs_complete_on_whole_words_partial' depends on axioms: [propext, Classical.choice, Quot.sound]
'Verif.Vis.Rows.phs_misses_last_bytes' depends on axioms: [propext, Quot.sound]
'Verif.Prt.numbering' depends on axioms: [propext, Quot.sound]
'Verif.Prt.detail_shares_cluster' depends on axioms: [propext, Quot.sound]
'Verif.Prt.every_cluster_used_partial' depends on axioms: [propext, Quot.sound]
'Verif.Prt.empty_cluster' does not depend on any axioms
'Verif.Prt.prt2_roundtrip_partial' depends on axioms: [propext, Classical.choice, Quot.sound]
'Verif.Prt.prt1_roundtrip' depends on axioms: [propext, Classical.choice, Quot.sound]
'Verif.Prt.q2_roundtrip' depends on axioms: [propext, Classical.choice, Quot.sound]
'Verif.Prt.write_succeeds' depends on axioms: [propext, Classical.choice, Quot.sound]
'Verif.Prt.mapping_lost' depends on axioms: [propext, Classical.choice, Quot.sound]
'Verif.Prt.empty_cluster_is_an_error' depends on axioms: [propext, Classical.choice, Quot.sound]
'Verif.Prt.portals_in_range_partial' depends on axioms: [propext, Classical.choice, Quot.sound]
'Verif.Prt.points_refused' depends on axioms: [propext, Classical.choice, Quot.sound]
'Verif.Prt.cluster_map_in_range' depends on axioms: [propext, Classical.choice, Quot.sound]
'Verif.Prt.vis_safe_iff' depends on axioms: [propext, Classical.choice, Quot.sound]
'Verif.Prt.written_file_safe' depends on axioms: [propext, Classical.choice, Quot.sound]
'Verif.Prt.leaf_beyond_table' depends on axioms: [propext, Classical.choice, Quot.sound]
'Verif.Prt.truncated_hangs' depends on axioms: [propext, Classical.choice, Quot.sound]
'Verif.Prt.short_header_undefined' depends on axioms: [propext, Classical.choice, Quot.sound]
'Verif.Prt.am_map_outside' depends on axioms: [propext, Classical.choice, Quot.sound]
'Verif.Prt.foreign_prt_outside' depends on axioms: [propext, Classical.choice, Quot.sound]
'Verif.Prt.am_never_loads_more_leafs' depends on axioms: [propext, Quot.sound]
'Verif.EntData.dict_is_a_map_partial' depends on axioms: [propext, Classical.choice, Quot.sound]
'Verif.EntData.get_has_spec' depends on axioms: [propext, Quot.sound]
'Verif.EntData.order_of_keys' depends on axioms: [propext, Quot.sound]
'Verif.EntData.rename_leaves_duplicate' does not depend on any axioms
'Verif.EntData.entities_roundtrip' depends on axioms: [propext, Quot.sound]
'Verif.EntData.empty_entity_string_undefined' depends on axioms: [propext, Quot.sound]
'Verif.EntData.key_ending_in_backslash_breaks' depends on axioms: [propext, Quot.sound]
'Verif.EntData.bare_quote_breaks' depends on axioms: [propext, Quot.sound]
'Verif.EntData.key_trimmed_partial' depends on axioms: [propext, Quot.sound]
'Verif.EntData.trailing_space_undefined' depends on axioms: [propext, Quot.sound]
'Verif.Parser.tokenizer_in_bounds' depends on axioms: [propext, Quot.sound]
'Verif.Parser.string_histories_in_bounds' depends on axioms: [propext, Quot.sound]
'Verif.Parser.successful_read_progresses' depends on axioms: [propext, Quot.sound]
'Verif.Parser.peek_shows_next_read' depends on axioms: [propext, Quot.sound]
'Verif.Parser.peek_fails_with_next_read' depends on axioms: [propext, Quot.sound]
'Verif.Parser.save_restore' depends on axioms: [propext, Quot.sound]
'Verif.BspFile.write_layout' depends on axioms: [propext, Classical.choice, Quot.sound]
'Verif.BspFile.write_load_partial' depends on axioms: [propext, Classical.choice, Quot.sound]
'Verif.BspFile.quake_loaded_as_hexen2' depends on axioms: [propext, Quot.sound]
'Verif.BspFile.bspx_inside_partial' depends on axioms: [propext, Quot.sound]
'Verif.BspFile.bspx_entry_partial' depends on axioms: [propext, Classical.choice, Quot.sound]
'Verif.BspFile.bspx_wraps' depends on axioms: [propext, Quot.sound]
'Verif.BspFile.bspx_before_file' depends on axioms: [propext, Quot.sound]
'Verif.BspFile.numeric_cast_exact' depends on axioms: [propext, Classical.choice, Quot.sound]
'Verif.BspFile.limits' does not depend on any axioms
'Verif.BspFile.convert_all_or_nothing' depends on axioms: [propext, Classical.choice, Quot.sound]
'Verif.BspFile.convert_there_and_back' depends on axioms: [propext, Classical.choice, Quot.sound]
'Verif.BspFile.convert_and_load_back' depends on axioms: [propext, Classical.choice, Quot.sound]
'Verif.BspFile.convert_unsupported' depends on axioms: [propext, Classical.choice, Quot.sound]
'Verif.BspFile.box_nan_undefined' depends on axioms: [propext, Classical.choice, Quot.sound]
'Verif.BspFile.clipnode_child_roundtrip' depends on axioms: [propext, Classical.choice, Quot.sound]
'Verif.BspFile.file_box_contains_partial' depends on axioms: [propext, Classical.choice, Quot.sound]
'Verif.BspFile.q2_leaf_box_shrinks' depends on axioms: [propext, Classical.choice, Quot.sound]
'Verif.BspFile.q2_leaf_box_partial' depends on axioms: [propext, Classical.choice, Quot.sound]
'Verif.BspFile.vis_roundtrip' depends on axioms: [propext, Classical.choice, Quot.sound]
'Verif.BspFile.vis_offsets' depends on axioms: [propext, Classical.choice, Quot.sound]
'Verif.BspFile.tex_roundtrip' depends on axioms: [propext, Classical.choice, Quot.sound]
'Verif.BspFile.tex_loaded' depends on axioms: [propext, Classical.choice, Quot.sound]
'Verif.BspFile.tex_size' depends on axioms: [propext, Quot.sound]
'Verif.BspFile.tex_short_ub' depends on axioms: [propext, Quot.sound]
'Verif.BspFile.tex_name_ub' depends on axioms: [propext, Quot.sound]
'Verif.Stream.little_endian_layout' depends on axioms: [propext, Quot.sound]
'Verif.Stream.little_endian_roundtrip' depends on axioms: [propext, Classical.choice, Quot.sound]
'Verif.Stream.scalar_roundtrip' depends on axioms: [propext, Classical.choice, Quot.sound]
'Verif.Stream.record_roundtrip' depends on axioms: [propext, Classical.choice, Quot.sound]
'Verif.BspFile.lit_payload_partial' depends on axioms: [propext, Classical.choice, Quot.sound]
'Verif.BspFile.lit_not_exact' depends on axioms: [propext, Classical.choice, Quot.sound]
'Verif.BspFile.lit_refused' depends on axioms: [propext, Classical.choice, Quot.sound]
'Verif.BspFile.brushlist_roundtrip_partial' depends on axioms: [propext, Classical.choice, Quot.sound]
'Verif.BspFile.brush_faces_lost' depends on axioms: [propext, Classical.choice, Quot.sound]
'Verif.Contents.q1_native_roundtrip' depends on axioms: [propext, Quot.sound]
'Verif.Contents.q2_native_roundtrip' depends on axioms: [propext, Classical.choice, Quot.sound]
'Verif.Contents.q2_native_rejects' depends on axioms: [propext, Classical.choice, Quot.sound]
'Verif.Contents.visible_contents_is_strongest' depends on axioms: [propext, Quot.sound]
'Verif.Contents.visible_contents_iff' depends on axioms: [propext, Classical.choice, Quot.sound]
'Verif.Contents.leaf_contents_order_independent' depends on axioms: [propext, Classical.choice, Quot.sound]
'Verif.Contents.leaf_contents_repeat' depends on axioms: [propext, Classical.choice, Quot.sound]
'Verif.Contents.q1_leaf_contents_meaning' depends on axioms: [propext, Classical.choice, Quot.sound]
'Verif.Contents.q2_leaf_contents_meaning' depends on axioms: [propext, Classical.choice, Quot.sound]
'Verif.Contents.cluster_contents_meaning' depends on axioms: [propext, Classical.choice, Quot.sound]
'Verif.Contents.cluster_contents_order_independent' depends on axioms: [propext, Classical.choice, Quot.sound]
'Verif.Contents.see_through_symmetric' depends on axioms: [propext, Quot.sound]
'Verif.Contents.see_through_solid_blocks' depends on axioms: [propext, Quot.sound]
'Verif.Contents.see_through_same_visible' depends on axioms: [propext, Classical.choice, Quot.sound]
'Verif.Contents.q1_opaque_liquids_block' depends on axioms: [propext, Classical.choice, Quot.sound]
'Verif.Contents.q2_opaque_water_does_not_block' depends on axioms: [propext, Quot.sound]
'Verif.Contents.q2_see_through_volumes_block' depends on axioms: [propext, Quot.sound]
'Verif.Contents.q2_see_through_partial' depends on axioms: [propext, Classical.choice, Quot.sound]
'Verif.Contents.mirror_tristate' depends on axioms: [propext, Classical.choice, Quot.sound]
'Verif.Contents.clips_same_type_sticky' depends on axioms: [propext, Classical.choice, Quot.sound]
'Verif.Contents.Q1.q1_leaf_export_representable' depends on axioms: [propext, Classical.choice, Quot.sound]
'Verif.Contents.Q1.q1_clip_leaf_export' depends on axioms: [propext, Classical.choice, Quot.sound]
'Verif.Settings.latest_of_highest_source' depends on axioms: [propext, Quot.sound]
'Verif.Settings.latest_unique' depends on axioms: [propext, Quot.sound]
'Verif.Settings.reset_restarts' depends on axioms: [propext, Quot.sound]
'Verif.Settings.higher_source_prevails' depends on axioms: [propext, Classical.choice, Quot.sound]
'Verif.Settings.key_changes_only_its_option' depends on axioms: [propext, Classical.choice, Quot.sound]
'Verif.Settings.int_options_in_range' depends on axioms: [propext, Classical.choice, Quot.sound]
'Verif.Settings.scalar_options_in_range_partial' depends on axioms: [propext, Classical.choice, Quot.sound]
'Verif.Settings.nan_escapes_the_range' depends on axioms: [propext, Quot.sound]
'Verif.Settings.int_key_is_clamped_partial' depends on axioms: [propext, Quot.sound]
'Verif.Settings.int_arg_is_clamped_partial' depends on axioms: [propext, Quot.sound]
'Verif.Settings.big_number_not_clamped' depends on axioms: [propext, Quot.sound]
'Verif.Settings.bool_on_command_line' depends on axioms: [propext, Quot.sound]
'Verif.Settings.invertible_on_command_line' depends on axioms: [propext, Quot.sound]
'Verif.Settings.bool_as_map_key' depends on axioms: [propext, Quot.sound]
'Verif.Settings.invertible_as_map_key_partial' depends on axioms: [propext, Quot.sound]
'Verif.Settings.underscore_no_is_not_inverted' depends on axioms: [propext, Quot.sound]
'Verif.Geom.clip_stays_on_side' depends on axioms: [propext, Classical.choice, Quot.sound]
'Verif.Geom.clip_vertices' depends on axioms: [propext, Classical.choice, Quot.sound]
'Verif.Geom.clip_keeps_vertices' depends on axioms: [propext, Classical.choice, Quot.sound]
'Verif.Geom.clip_keeps_boundary' depends on axioms: [propext, Classical.choice, Quot.sound]
'Verif.Geom.clip_edges' depends on axioms: [propext, Classical.choice, Quot.sound]
'Verif.Geom.clip_front_back_agree' depends on axioms: [propext, Quot.sound]
'Verif.Geom.Storage.storage_is_array_partial' depends on axioms: [propext, Classical.choice, Quot.sound]
'Verif.Geom.Storage.storage_stale' depends on axioms: [propext, Classical.choice, Quot.sound]
'Verif.Geom.Box.containsPoint_iff' depends on axioms: [propext, Quot.sound]
'Verif.Geom.Box.contains_iff' depends on axioms: [propext, Quot.sound]
'Verif.Geom.Box.union_in_place' depends on axioms: [propext, Quot.sound]
'Verif.Geom.Box.union_contains' depends on axioms: [propext, Quot.sound]
'Verif.Geom.Box.union_least' depends on axioms: [propext, Quot.sound]
'Verif.Geom.Box.expand_least' depends on axioms: [propext, Quot.sound]
'Verif.Geom.Box.intersect_iff' depends on axioms: [propext, Classical.choice, Quot.sound]
'Verif.Geom.Box.disjoint_iff' depends on axioms: [propext, Classical.choice, Quot.sound]
'Verif.Geom.Box.disjoint_or_touching_iff' depends on axioms: [propext, Classical.choice, Quot.sound]
'Verif.Geom.Box.union_empty_left_partial' depends on axioms: [propext, Classical.choice, Quot.sound]
'Verif.Geom.Box.union_empty_right' depends on axioms: [propext, Quot.sound]
'Verif.Geom.Box.bounds_least' depends on axioms: [propext, Quot.sound]
'Verif.Geom.Box.grow_translate_inside' depends on axioms: [propext, Classical.choice, Quot.sound]
'Verif.Tree.clip_lookup_parent' depends on axioms: [propext, Classical.choice, Quot.sound]
'Verif.Tree.point_lookup' depends on axioms: [propext, Classical.choice, Quot.sound]
'Verif.Tree.point_in_solid' depends on axioms: [propext, Classical.choice, Quot.sound]
'Verif.Tree.visit_leafs' depends on axioms: [propext, Classical.choice, Quot.sound]
'Verif.Tree.point_in_leaf' depends on axioms: [propext, Quot.sound]
'Verif.Flood.flood_occupied' depends on axioms: [propext, Classical.choice, Quot.sound]
'Verif.Flood.flood_void' depends on axioms: [propext, Classical.choice, Quot.sound]
'Verif.Flood.leak_iff' depends on axioms: [propext, Classical.choice, Quot.sound]
'Verif.Flood.leak_no_entity' depends on axioms: [propext, Classical.choice, Quot.sound]
'Verif.Flood.fill_ends' depends on axioms: [propext, Classical.choice, Quot.sound]
'Verif.Flood.leak_iff_rim' depends on axioms: [propext, Classical.choice, Quot.sound]
'Verif.Flood.leak_missed' depends on axioms: [propext, Classical.choice, Quot.sound]
'Verif.Flood.leak_line' depends on axioms: [propext, Classical.choice, Quot.sound]
'Verif.Flood.fill_contents' depends on axioms: [propext, Classical.choice, Quot.sound]
'Verif.Flood.areas_partition' depends on axioms: [propext, Classical.choice, Quot.sound]
'Verif.Flood.areas_none' depends on axioms: [propext, Classical.choice, Quot.sound]
'Verif.Flood.areaWellFormed_of_tree' depends on axioms: [propext, Quot.sound]
'Verif.Tree.prune_solid' depends on axioms: [propext, Classical.choice, Quot.sound]
'Verif.Tree.prune_keeps_leafs' depends on axioms: [propext, Classical.choice, Quot.sound]
'Verif.Tree.prune_no_two_solid' depends on axioms: [propext, Classical.choice, Quot.sound]
'Verif.Tree.prune_count' depends on axioms: [propext, Classical.choice, Quot.sound]
'Verif.Tree.prune_exported_contents' depends on axioms: [propext, Classical.choice, Quot.sound]
'Verif.Tree.prune_brushes_kept' depends on axioms: [propext, Classical.choice, Quot.sound]
'Verif.Tree.prune_brushes_only' depends on axioms: [propext, Classical.choice, Quot.sound]
'Verif.Tree.clip_export' depends on axioms: [propext, Classical.choice, Quot.sound]
'Verif.Tree.clip_export_appends' depends on axioms: [propext, Classical.choice, Quot.sound]
'Verif.Tree.clip_export_total' depends on axioms: [propext, Classical.choice, Quot.sound]
'Verif.Tree.start_exported' depends on axioms: [propext, Classical.choice, Quot.sound]
'Verif.Tree.leaf_zero' depends on axioms: [propext, Quot.sound]
'Verif.Tree.draw_export_partial' depends on axioms: [propext, Classical.choice, Quot.sound]
'Verif.Tree.draw_visleafs' depends on axioms: [propext, Classical.choice, Quot.sound]
'Verif.Tree.draw_appends' depends on axioms: [propext, Classical.choice, Quot.sound]
'Verif.Tree.draw_export_total' depends on axioms: [propext, Classical.choice, Quot.sound]
'Verif.Tree.draw_export_leaf_head' depends on axioms: [propext, Quot.sound]
'Verif.Tree.draw_export_leaf_head_next' depends on axioms: [propext, Quot.sound]
'Verif.Faces.split_limit' depends on axioms: [propext, Classical.choice, Quot.sound]
'Verif.Faces.limit_first' depends on axioms: [propext, Classical.choice, Quot.sound]
'Verif.Faces.limit_not_applied' depends on axioms: [propext, Classical.choice, Quot.sound]
'Verif.Faces.merge_list' depends on axioms: [propext, Quot.sound]
'Verif.Faces.merge_list_measure' depends on axioms: [propext, Quot.sound]
'Verif.Faces.edge_vertices' depends on axioms: [propext, Classical.choice, Quot.sound]
'Verif.Faces.edge_vertices_exact' depends on axioms: [propext, Classical.choice, Quot.sound]
'Verif.Faces.edge_degenerate' depends on axioms: [propext, Quot.sound]
'Verif.Cmdlib.crcBlock_correct' depends on axioms: [propext, Quot.sound]
'Verif.Cmdlib.crc_detects_one_byte' depends on axioms: [propext, Classical.choice, Quot.sound]
'Verif.Cmdlib.crcBlock_negative' depends on axioms: [propext, Quot.sound]
'Verif.Cmdlib.iequals_spec' depends on axioms: [propext, Classical.choice, Quot.sound]
'Verif.Cmdlib.iequals_equivalence' depends on axioms: [propext, Classical.choice, Quot.sound]
'Verif.Cmdlib.iequals_hash' depends on axioms: [propext, Classical.choice, Quot.sound]
'Verif.Cmdlib.container_equal_hash_partial' depends on axioms: [propext, Classical.choice, Quot.sound]
'Verif.Cmdlib.container_equal_hash_nul' depends on axioms: [propext, Quot.sound]
'Verif.Cmdlib.container_equal_equivalence' depends on axioms: [propext, Classical.choice, Quot.sound]
'Verif.Cmdlib.replaceAll_correct' depends on axioms: [propext, Classical.choice, Quot.sound]
'Verif.Cmdlib.replace_split_unique' depends on axioms: [propext]
'Verif.Cmdlib.replaceAll_empty' does not depend on any axioms
'Verif.Cmdlib.natural_asymm_partial' depends on axioms: [propext, Classical.choice, Quot.sound]
'Verif.Cmdlib.natural_key_partial' depends on axioms: [propext, Classical.choice, Quot.sound]
'Verif.Cmdlib.natural_strict_weak_partial' depends on axioms: [propext, Classical.choice, Quot.sound]
'Verif.Cmdlib.natural_diverging_partial' depends on axioms: [propext, Classical.choice, Quot.sound]
'Verif.Cmdlib.natural_not_transitive' depends on axioms: [propext, Quot.sound]
'Verif.Cmdlib.natural_unordered_not_transitive' depends on axioms: [propext, Quot.sound]
'Verif.Parser.file_read_past_end' depends on axioms: [propext, Quot.sound]
'Verif.Parser.file_in_bounds_partial' depends on axioms: [propext, Quot.sound]
'Verif.Parser.token_is_verbatim' depends on axioms: [propext, Quot.sound]
'Verif.Parser.no_token_means_nothing_left' depends on axioms: [propext, Quot.sound]
'Verif.Parser.comment_is_verbatim' depends on axioms: [propext, Quot.sound]
'Verif.Parser.line_counts_newlines_partial' depends on axioms: [propext, Quot.sound]
'Verif.Parser.newlines_in_quotes_not_counted' depends on axioms: [propext, Quot.sound]
'Verif.Settings.remainder_is_suffix' depends on axioms: [propext, Quot.sound]
'Verif.Settings.aliases_agree' depends on axioms: [propext, Classical.choice, Quot.sound]
'Verif.Settings.redirect_sets_all_targets' depends on axioms: [propext, Classical.choice, Quot.sound]
'Verif.Settings.enum_value_is_named_partial' depends on axioms: [propext, Classical.choice, Quot.sound]
'Verif.Settings.enum_takes_undeclared_value' depends on axioms: [propext, Quot.sound]
'Verif.Settings.command_line_diagnosed_partial' depends on axioms: [propext, Classical.choice, Quot.sound]
'Verif.Settings.stray_hyphen_undefined' depends on axioms: [propext, Quot.sound]
'Verif.Settings.map_key_diagnosed_partial' depends on axioms: [propext, Classical.choice, Quot.sound]
'Verif.Settings.empty_key_undefined' depends on axioms: [propext, Quot.sound]
'Verif.Cmdlib.iless_strict_weak' depends on axioms: [propext, Classical.choice, Quot.sound]
'Verif.Stream.memory_stream_read_partial' depends on axioms: [propext, Classical.choice, Quot.sound]
'Verif.Stream.memory_stream_write_partial' depends on axioms: [propext, Classical.choice, Quot.sound]
'Verif.Stream.memory_stream_failed' does not depend on any axioms
'Verif.Stream.size_stream_counts' depends on axioms: [propext]
'Verif.Stream.memory_stream_overread' does not depend on any axioms
'Verif.Stream.memory_stream_overwrite' does not depend on any axioms
'Verif.BspFile.facenormals_roundtrip' depends on axioms: [propext, Classical.choice, Quot.sound]
'Verif.BspFile.decoupled_roundtrip' depends on axioms: [propext, Classical.choice, Quot.sound]
'Verif.BspFile.lit_write_load' depends on axioms: [propext, Classical.choice, Quot.sound]
'Verif.Tree.planes_pairs' depends on axioms: [propext, Classical.choice, Quot.sound]
'Verif.Tree.plane_numbers' depends on axioms: [propext, Classical.choice, Quot.sound]
'Verif.Tree.plane_added_only_if_new' depends on axioms: [propext, Classical.choice, Quot.sound]
'Verif.Tree.fast_distance' depends on axioms: [propext, Classical.choice, Quot.sound]
'Verif.Tree.fast_distance_odd_wrong' depends on axioms: [propext, Classical.choice, Quot.sound]
'Verif.Flood.tree_portals' depends on axioms: [propext, Quot.sound]
'Verif.Flood.vis_portals' depends on axioms: [propext, Quot.sound]
'Verif.Flood.joins_ne' depends on axioms: [propext, Quot.sound]
'Verif.Flood.wellFormed_of_tree' depends on axioms: [propext, Quot.sound]
'Verif.Flood.link_lists' depends on axioms: [propext, Classical.choice, Quot.sound]
'Verif.Flood.fill_detail' depends on axioms: [propext, Classical.choice, Quot.sound]
'Verif.Flood.sides_visible' depends on axioms: [propext, Classical.choice, Quot.sound]
'Verif.Flood.sides_other' depends on axioms: [propext, Classical.choice, Quot.sound]
'Verif.Flood.leak_trail' depends on axioms: [propext, Classical.choice, Quot.sound]
'Verif.Flood.leak_file' depends on axioms: [propext, Classical.choice, Quot.sound]
'Verif.Flood.leak_corners' depends on axioms: [propext, Quot.sound]
'Verif.Flood.leak_endless' depends on axioms: [propext, Classical.choice, Quot.sound]
'Verif.Flood.areas_of_portal' depends on axioms: [propext, Classical.choice, Quot.sound]
'Verif.Flood.area_records' depends on axioms: [propext, Classical.choice, Quot.sound]
'Verif.Flood.records_symm' depends on axioms: [propext, Classical.choice, Quot.sound]
'Verif.Flood.areas_off' depends on axioms: [propext, Quot.sound]
'Verif.Flood.shortest_path' depends on axioms: [propext, Quot.sound]
'Verif.Faces.superface_free' depends on axioms: [propext, Classical.choice, Quot.sound]
'Verif.Faces.welds_symm' does not depend on any axioms
'Verif.Faces.welds_iff' depends on axioms: [propext]
'Verif.Faces.interacts_symm' depends on axioms: [propext, Quot.sound]
'Verif.Faces.interacts_refl' depends on axioms: [propext, Classical.choice, Quot.sound]
'Verif.Faces.fragments_region_partial' depends on axioms: [propext, Classical.choice, Quot.sound]
'Verif.Faces.mwt_face_region' depends on axioms: [propext, Classical.choice, Quot.sound]
'Verif.Faces.rotated_region' depends on axioms: [propext, Quot.sound]
'Verif.Faces.retopology_account' depends on axioms: [propext, Classical.choice, Quot.sound]
'Verif.Faces.retopology_hole' depends on axioms: [propext, Classical.choice, Quot.sound]
'Verif.Faces.rotation_valid' depends on axioms: [propext, Quot.sound]
'Verif.Faces.rotation_found' depends on axioms: [propext, Quot.sound]
'Verif.Faces.mwt_optimal' depends on axioms: [propext, Classical.choice, Quot.sound]
'Verif.Faces.merge_attributes' depends on axioms: [propext, Classical.choice, Quot.sound]
'Verif.Faces.merge_convex' depends on axioms: [propext, Classical.choice, Quot.sound]
'Verif.Faces.merge_convex_exact' depends on axioms: [propext, Classical.choice, Quot.sound]
'Verif.Emit.emit_faces' depends on axioms: [propext, Classical.choice, Quot.sound]
'Verif.Emit.emit_keeps' depends on axioms: [propext, Classical.choice, Quot.sound]
'Verif.Emit.emit_edge_use' depends on axioms: [propext, Classical.choice, Quot.sound]
'Verif.Emit.emit_succeeds' depends on axioms: [propext, Quot.sound]
'Verif.Emit.emitted_vertices' depends on axioms: [propext, Classical.choice, Quot.sound]
'Verif.Emit.emitted_vertices_stay' depends on axioms: [propext, Quot.sound]
'Verif.Emit.shared_point_partial' depends on axioms: [propext, Classical.choice, Quot.sound]
'Verif.Emit.shared_point_false' depends on axioms: [propext, Classical.choice, Quot.sound]
'Verif.Emit.texinfo_found' depends on axioms: [propext, Classical.choice, Quot.sound]
'Verif.Emit.texinfo_stable' depends on axioms: [propext, Classical.choice, Quot.sound]
'Verif.Emit.texinfo_animated' depends on axioms: [propext, Classical.choice, Quot.sound]
'Verif.Emit.texinfo_ends' depends on axioms: [propext, Classical.choice, Quot.sound]
'Verif.Emit.texinfos_exported' depends on axioms: [propext, Classical.choice, Quot.sound]
'Verif.Emit.texinfo_export_ends' depends on axioms: [propext, Classical.choice, Quot.sound]
'Verif.BrushBsp.brush_bsp_ends' depends on axioms: [propext, Classical.choice, Quot.sound]
'Verif.BrushBsp.leaf_keeps_brushes' depends on axioms: [propext, Classical.choice, Quot.sound]
'Verif.BrushBsp.leaf_contents' depends on axioms: [propext, Classical.choice, Quot.sound]
'Verif.BrushBsp.windings_close_partial' depends on axioms: [propext, Classical.choice, Quot.sound]
'Verif.BrushBsp.from_plane_ok' depends on axioms: [propext, Classical.choice, Quot.sound]
'Verif.BrushBsp.Ex2.windings_undefined' depends on axioms: [propext, Classical.choice, Quot.sound]
'Verif.BrushBsp.structural_first' depends on axioms: [propext, Classical.choice, Quot.sound]
'Verif.BrushBsp.leaf_done' depends on axioms: [propext, Classical.choice, Quot.sound]
'Verif.BrushBsp.leaf_done_small' depends on axioms: [propext, Classical.choice, Quot.sound]
'Verif.BrushBsp.node_marks' depends on axioms: [propext, Quot.sound]
'Verif.BrushBsp.hint_last_partial' depends on axioms: [propext, Quot.sound]
'Verif.BrushBsp.Ex.mid_unmarked' depends on axioms: [propext, Classical.choice, Quot.sound]
'Verif.BrushBsp.Ex.leaf_not_done' depends on axioms: [propext, Classical.choice, Quot.sound]
'Verif.BrushBsp.Ex.hint_split' depends on axioms: [propext, Classical.choice, Quot.sound]
'Verif.BrushBsp.check_of_split' depends on axioms: [propext, Quot.sound]
'Verif.BrushBsp.check_iff_split' depends on axioms: [propext, Classical.choice, Quot.sound]
'Verif.BrushBsp.Ex.check_not_split' depends on axioms: [propext, Classical.choice, Quot.sound]
'Verif.Vis.clip_keeps_partial' depends on axioms: [propext, Classical.choice, Quot.sound]
'Verif.Vis.clip_cuts' depends on axioms: [propext, Classical.choice, Quot.sound]
'Verif.Vis.separator_keeps_partial' depends on axioms: [propext, Classical.choice, Quot.sound]
'Verif.Vis.keeps_false' depends on axioms: [propext, Classical.choice, Quot.sound]
'Verif.Vis.full_vis_sees_partial' depends on axioms: [propext, Classical.choice, Quot.sound]
'Verif.Vis.vis_loses_leaf' depends on axioms: [propext, Classical.choice, Quot.sound]
'Verif.Vis.fast_vis_sees' depends on axioms: [propext, Classical.choice, Quot.sound]
'Verif.Vis.visdist_limit' depends on axioms: [propext, Classical.choice, Quot.sound]
'Verif.Vis.vis_loses_leaf' depends on axioms: [propext, Classical.choice, Quot.sound]
'Verif.BrushBsp.chop_ends' depends on axioms: [propext, Classical.choice, Quot.sound]
'Verif.BrushBsp.chop_keeps_points' depends on axioms: [propext, Classical.choice, Quot.sound]
'Verif.BrushBsp.Ex.chop_loses_points' depends on axioms: [propext, Classical.choice, Quot.sound]
'Verif.BrushBsp.chop_no_overlap_partial' depends on axioms: [propext, Classical.choice, Quot.sound]
'Verif.BrushBsp.Ex.chopped_brushes_overlap' depends on axioms: [propext, Classical.choice, Quot.sound]
'Verif.BrushBsp.chop_leaves_others' depends on axioms: [propext, Classical.choice, Quot.sound]
'Verif.BrushBsp.chop_no_fragments' depends on axioms: [propext, Classical.choice, Quot.sound]
'Verif.Light.lightmaps_stored' depends on axioms: [propext, Classical.choice, Quot.sound]
'Verif.Light.vanilla_stored' depends on axioms: [propext, Classical.choice, Quot.sound]
'Verif.Light.lightmaps_apart' depends on axioms: [propext, Classical.choice, Quot.sound]
'Verif.Light.size_fixed' depends on axioms: [propext, Classical.choice, Quot.sound]
'Verif.Light.Ex.layout_varies' depends on axioms: [propext, Classical.choice, Quot.sound]
'Verif.Light.save_succeeds' depends on axioms: [propext, Classical.choice, Quot.sound]
'Verif.Light.run_exists' depends on axioms: [propext, Classical.choice, Quot.sound]
'Verif.Light.Ex.offset_overflow' depends on axioms: [propext, Classical.choice, Quot.sound]
'Verif.Light.kept_brightest' depends on axioms: [propext, Classical.choice, Quot.sound]
'Verif.Light.kept_limit' depends on axioms: [propext, Classical.choice, Quot.sound]
'Verif.Light.sortable_iff' depends on axioms: [propext, Classical.choice, Quot.sound]
'Verif.Light.sortable_q2' depends on axioms: [propext, Classical.choice, Quot.sound]
'Verif.Light.Ex.style_256_dropped' depends on axioms: [propext, Classical.choice, Quot.sound]
'Verif.Light.styles_recorded_partial' depends on axioms: [propext, Classical.choice, Quot.sound]
'Verif.Light.unlit_marked' depends on axioms: [propext, Classical.choice, Quot.sound]
'Verif.Light.Ex.stale_offset' depends on axioms: [propext, Classical.choice, Quot.sound]
'Verif.Light.Ex.style_255_lost' depends on axioms: [propext, Classical.choice, Quot.sound]
'Verif.Light.lumps_readable_partial' depends on axioms: [propext, Classical.choice, Quot.sound]
'Verif.Light.sup_face_unlit' depends on axioms: [propext, Classical.choice, Quot.sound]
'Verif.Light.both_same_offset' depends on axioms: [propext, Classical.choice, Quot.sound]
'Verif.Light.Ex.vanilla_lost' depends on axioms: [propext, Classical.choice, Quot.sound]
'Verif.Light.Ex.neighbour_destroyed' depends on axioms: [propext, Classical.choice, Quot.sound]
'Verif.Light.Ex.coarse_fails' depends on axioms: [propext, Classical.choice, Quot.sound]
'Verif.Light.lightmaps_stored' depends on axioms: [propext, Classical.choice, Quot.sound]
'Verif.Light.Ex.lit2_complete_partial' depends on axioms: [propext, Quot.sound]
'Verif.Light.Ex.lit2_empty' depends on axioms: [propext]
'Verif.Light.Ex.lit2_no_directions' depends on axioms: [propext, Quot.sound]
'Verif.Light.flood_fills' depends on axioms: [propext, Classical.choice, Quot.sound]
'Verif.Light.lightmap_written' depends on axioms: [propext, Classical.choice, Quot.sound]
'Verif.Light.lightmap_local' depends on axioms: [propext, Classical.choice, Quot.sound]
'Verif.Light.scaled_in_range' depends on axioms: [propext, Classical.choice, Quot.sound]
'Verif.Light.scaled_maxlight' depends on axioms: [propext, Classical.choice, Quot.sound]
'Verif.Light.scaled_ratio' depends on axioms: [propext, Classical.choice, Quot.sound]
'Verif.Light.any_light_written' depends on axioms: [propext, Classical.choice, Quot.sound]
'Verif.Light.ImgEx.colorscale_undefined' depends on axioms: [propext, Classical.choice, Quot.sound]
'Verif.Light.ImgEx.maxlight_undefined' depends on axioms: [propext, Classical.choice, Quot.sound]
'Verif.Light.decoupled_written_partial' depends on axioms: [propext, Classical.choice, Quot.sound]
'Verif.Light.ImgEx.decoupled_undefined' depends on axioms: [propext, Classical.choice, Quot.sound]
'Verif.Light.decoupled_black' depends on axioms: [propext, Classical.choice, Quot.sound]
'Verif.Light.litonly_stored' depends on axioms: [propext, Classical.choice, Quot.sound]
'Verif.Light.litonly_succeeds' depends on axioms: [propext, Classical.choice, Quot.sound]
'Verif.Light.litRun_exists' depends on axioms: [propext, Classical.choice, Quot.sound]
'Verif.Light.litonly_after_light' depends on axioms: [propext, Classical.choice, Quot.sound]
'Verif.Light.ImgEx.litonly_undefined' depends on axioms: [propext, Classical.choice, Quot.sound]
'Verif.LightGrid.octree_lump_tells' depends on axioms: [propext, Classical.choice, Quot.sound]
'Verif.LightGrid.finds_unique' depends on axioms: [propext]
'Verif.LightGrid.octree_leafs_divide' depends on axioms: [propext, Classical.choice, Quot.sound]
'Verif.LightGrid.light_grid_tells_partial' depends on axioms: [propext, Classical.choice, Quot.sound]
'Verif.LightGrid.light_grid_schedule' depends on axioms: [propext, Classical.choice, Quot.sound]
'Verif.LightGrid.light_grid_zero_distance' depends on axioms: [propext, Classical.choice, Quot.sound]
'Verif.LightGrid.light_grid_too_large' depends on axioms: [propext, Classical.choice, Quot.sound]
'Verif.LightGrid.grid_near_partial' depends on axioms: [propext, Classical.choice, Quot.sound]
'Verif.LightGrid.grid_never_reaches_top' depends on axioms: [propext, Classical.choice, Quot.sound]
'Verif.LightGrid.styles_summed_partial' depends on axioms: [propext, Classical.choice, Quot.sound]
'Verif.LightGrid.slots_well_formed' depends on axioms: [propext, Classical.choice, Quot.sound]
'Verif.LightGrid.fifth_style' depends on axioms: [propext, Classical.choice, Quot.sound]
'Verif.LightGrid.brighter_style_lost' depends on axioms: [propext, Classical.choice, Quot.sound]
'Verif.LightGrid.scale_bounds_partial' depends on axioms: [propext, Classical.choice, Quot.sound]
'Verif.LightGrid.scale_keeps_hue' depends on axioms: [propext, Classical.choice, Quot.sound]
'Verif.LightGrid.calc_writable_partial' depends on axioms: [propext, Classical.choice, Quot.sound]
'Verif.LightGrid.scale_negative_limit' depends on axioms: [propext, Classical.choice, Quot.sound]
'Verif.Archive.pak_faithful' depends on axioms: [propext, Classical.choice, Quot.sound]
'Verif.Archive.wad_faithful' depends on axioms: [propext, Classical.choice, Quot.sound]
'Verif.Archive.open_pak_partial' depends on axioms: [propext, Classical.choice, Quot.sound]
'Verif.Archive.open_wad_partial' depends on axioms: [propext, Classical.choice, Quot.sound]
'Verif.Archive.truncated_pak_ub' depends on axioms: [propext, Classical.choice, Quot.sound]
'Verif.Archive.long_name_ub' depends on axioms: [propext, Classical.choice, Quot.sound]
'Verif.Archive.cut_file_spoils_others' depends on axioms: [propext, Classical.choice, Quot.sound]
'Verif.Archive.load_size' depends on axioms: [propext, Quot.sound]
'Verif.Archive.search_order_partial' depends on axioms: [propext, Classical.choice, Quot.sound]
'Verif.Archive.load_contents_partial' depends on axioms: [propext, Classical.choice, Quot.sound]
'Verif.Archive.search_direct' depends on axioms: [propext, Classical.choice, Quot.sound]
'Verif.Archive.default_order_differs' depends on axioms: [propext, Classical.choice, Quot.sound]
'Verif.Archive.directory_hides_file' depends on axioms: [propext, Classical.choice, Quot.sound]
'Verif.Archive.registered_once' depends on axioms: [propext, Classical.choice, Quot.sound]
'Verif.Archive.calls_extend' depends on axioms: [propext, Classical.choice, Quot.sound]
'Verif.Archive.add_again' depends on axioms: [propext, Classical.choice, Quot.sound]
'Verif.Archive.add_refused' depends on axioms: [propext, Classical.choice, Quot.sound]
'Verif.Archive.registered_faithful' depends on axioms: [propext, Classical.choice, Quot.sound]
'Verif.Archive.search_again_partial' depends on axioms: [propext, Classical.choice, Quot.sound]
'Verif.Archive.plain_search_pure' depends on axioms: [propext, Classical.choice, Quot.sound]
'Verif.Archive.load_again_partial' depends on axioms: [propext, Classical.choice, Quot.sound]
'Verif.Archive.direct_load_interferes' depends on axioms: [propext, Classical.choice, Quot.sound]
'Verif.Archive.extract_textures_partial' depends on axioms: [propext, Classical.choice, Quot.sound]
'Verif.Archive.palettes_shift_textures' depends on axioms: [propext, Classical.choice, Quot.sound]
'Verif.Styles.styles_assigned' depends on axioms: [propext, Classical.choice, Quot.sound]
'Verif.Styles.styles_enough' depends on axioms: [propext, Classical.choice, Quot.sound]
'Verif.Styles.name_of_style' depends on axioms: [propext, Classical.choice, Quot.sound]
'Verif.Styles.surface_styles_partial' depends on axioms: [propext, Quot.sound]
'Verif.Styles.one_thread_no_race' depends on axioms: [propext, Quot.sound]
'Verif.Styles.surface_lights_race' depends on axioms: [propext]
'Verif.Styles.surface_styles_depend_on_schedule' depends on axioms: [propext, Quot.sound]
'Verif.Styles.other_keys_kept' depends on axioms: [propext, Classical.choice, Quot.sound]
'Verif.Styles.escape_rendered' depends on axioms: [propext, Classical.choice, Quot.sound]
'Verif.Styles.light_again_partial' depends on axioms: [propext, Classical.choice, Quot.sound]
'Verif.Styles.lightmap_scale_undefined' depends on axioms: [propext, Quot.sound]
'Verif.Styles.escapes_change_on_relight' depends on axioms: [propext, Quot.sound]
'Verif.TexFlags.flags_arrive_partial' depends on axioms: [propext, Classical.choice, Quot.sound]
'Verif.TexFlags.flags_off' depends on axioms: [propext, Quot.sound]
'Verif.TexFlags.no_phong_lost' depends on axioms: [propext, Classical.choice, Quot.sound]
'Verif.TexFlags.infinite_stops_light' depends on axioms: [propext, Classical.choice, Quot.sound]
'Verif.TexFlags.odd_name_stops_qbsp' depends on axioms: [propext, Classical.choice, Quot.sound]
'Verif.TexFlags.mismatch_partial' depends on axioms: [propext, Quot.sound]
'Verif.TexFlags.mismatch_not_ignored' depends on axioms: [propext, Quot.sound]
'Verif.TexFlags.unreadable_stops' depends on axioms: [propext]
'Verif.TexFlags.keys_matter' depends on axioms: [propext, Classical.choice, Quot.sound]
'Verif.TexFlags.plain_entity' depends on axioms: [propext, Classical.choice, Quot.sound]
'Verif.TexFlags.inherited' depends on axioms: [propext, Quot.sound]
'Verif.TexFlags.switches' depends on axioms: [propext, Quot.sound]
'Verif.TexFlags.phong_angle' depends on axioms: [propext, Quot.sound]
'Verif.TexFlags.ranges' depends on axioms: [propext, Quot.sound]
'Verif.TexFlags.names' depends on axioms: [propext, Classical.choice, Quot.sound]
'Verif.TexFlags.optional' depends on axioms: [propext, Quot.sound]
'Verif.TexFlags.flags_defined_partial' depends on axioms: [propext, Classical.choice, Quot.sound]
'Verif.TexFlags.surflight_color_undefined' depends on axioms: [propext, Classical.choice, Quot.sound]
'Verif.Hulls.clip_hull_covers' depends on axioms: [propext, Classical.choice, Quot.sound]
'Verif.Hulls.Ex.marked_face_spreads' depends on axioms: [propext, Classical.choice, Quot.sound]
'Verif.Hulls.clip_hull_tight' depends on axioms: [propext, Classical.choice, Quot.sound]
'Verif.Hulls.Ex.redundant_face_enlarges' depends on axioms: [propext, Classical.choice, Quot.sound]
'Verif.Hulls.point_hull_unchanged' depends on axioms: [propext, Classical.choice, Quot.sound]
'Verif.World.world_extent_covers' depends on axioms: [propext, Classical.choice, Quot.sound]
'Verif.World.world_extent_attained' depends on axioms: [propext, Classical.choice, Quot.sound]
'Verif.World.threads_end' depends on axioms: [propext, Classical.choice, Quot.sound]
'Verif.World.one_face_overflows' depends on axioms: [propext, Classical.choice, Quot.sound]
'Verif.World.no_brush_no_extent' depends on axioms: [propext, Classical.choice, Quot.sound]
'Verif.Place.external_map_placed' depends on axioms: [propext, Classical.choice, Quot.sound]
'Verif.Place.mirrored_inside_out' depends on axioms: [propext, Classical.choice, Quot.sound]
'Verif.Place.scale_option_partial' depends on axioms: [propext, Classical.choice, Quot.sound]
'Verif.Place.origin_offsets' depends on axioms: [propext, Quot.sound]
'Verif.Place.scale_forgets_origin' depends on axioms: [propext, Quot.sound]
'Verif.Place.scaled_bevels_lose_brush' depends on axioms: [propext, Classical.choice, Quot.sound]
'Verif.TexDef.quakeEd_meaning' depends on axioms: [propext, Classical.choice, Quot.sound]
'Verif.TexDef.valve_meaning' depends on axioms: [propext, Classical.choice, Quot.sound]
'Verif.TexDef.quark_meaning' depends on axioms: [propext, Classical.choice, Quot.sound]
'Verif.TexDef.primitives_meaning' depends on axioms: [propext, Classical.choice, Quot.sound]
'Verif.TexDef.convert_valve' depends on axioms: [propext, Classical.choice, Quot.sound]
'Verif.TexDef.convert_primitives' depends on axioms: [propext, Classical.choice, Quot.sound]
'Verif.TexDef.convert_quake' depends on axioms: [propext, Classical.choice, Quot.sound]
'Verif.TexDef.convert_quake_wraps' depends on axioms: [propext, Classical.choice, Quot.sound]
'Verif.TexDef.negative_shift_lost' depends on axioms: [propext, Classical.choice, Quot.sound]
'Verif.TexDef.empty_texture_ub' depends on axioms: [propext, Quot.sound]
'Verif.MapText.convert_reads_back' depends on axioms: [propext, Classical.choice, Quot.sound]
'Verif.MapText.convert_reads_back_exactly' depends on axioms: [propext, Classical.choice, Quot.sound]
'Verif.MapText.missing_info_becomes_zero' depends on axioms: [propext, Classical.choice, Quot.sound]
'Verif.MapText.quoted_name_lost' depends on axioms: [propext, Classical.choice, Quot.sound]
'Verif.MapText.region_primitive_breaks' depends on axioms: [propext, Classical.choice, Quot.sound]
'Verif.MapText.omit_primitive_breaks' depends on axioms: [propext, Classical.choice, Quot.sound]
'Verif.MapText.omit_late' depends on axioms: [propext, Classical.choice, Quot.sound]
'Verif.MapText.load_in_bounds_partial' depends on axioms: [propext, Classical.choice, Quot.sound]
'Verif.MapText.load_in_bounds_but_keys_partial' depends on axioms: [propext, Classical.choice, Quot.sound]
'Verif.MapText.key_trimmed' depends on axioms: [propext, Classical.choice, Quot.sound]
'Verif.MapText.blank_key_ub' depends on axioms: [propext, Quot.sound]
'Verif.MapText.empty_key_ub' depends on axioms: [propext, Classical.choice, Quot.sound]
'Verif.MapText.no_newline_ub' depends on axioms: [propext, Classical.choice, Quot.sound]
'Verif.Textures.mip_loaded_partial' depends on axioms: [propext, Classical.choice, Quot.sound]
'Verif.Textures.wal_loaded_partial' depends on axioms: [propext, Classical.choice, Quot.sound]
'Verif.Textures.stb_loaded' depends on axioms: [propext, Quot.sound]
'Verif.Textures.pcx_palette_partial' depends on axioms: [propext, Classical.choice, Quot.sound]
'Verif.Textures.game_palette_partial' depends on axioms: [propext, Classical.choice, Quot.sound]
'Verif.Textures.short_mip_ub' depends on axioms: [propext]
'Verif.Textures.mip_wraps_ub' depends on axioms: [propext, Classical.choice, Quot.sound]
'Verif.Textures.no_palette_ub' depends on axioms: [propext]
'Verif.Textures.palette_before_ub' depends on axioms: [propext]
'Verif.Textures.wal_beyond_ub' depends on axioms: [propext, Quot.sound]
'Verif.Textures.short_wal_ub' depends on axioms: [propext, Quot.sound]
'Verif.Textures.wal_name_ub' depends on axioms: [propext, Quot.sound]
'Verif.Textures.short_pcx_ub' depends on axioms: [propext]
'Verif.Textures.sample_tiled' depends on axioms: [propext, Classical.choice, Quot.sound]
'Verif.Textures.cache_sample_partial' depends on axioms: [propext, Classical.choice, Quot.sound]
'Verif.Textures.cache_sample_q2_partial' depends on axioms: [propext, Classical.choice, Quot.sound]
'Verif.Textures.no_texture_clear' depends on axioms: [propext, Quot.sound]
'Verif.Textures.stripped_ub' depends on axioms: [propext, Classical.choice, Quot.sound]
'Verif.Textures.wrapped_ub' depends on axioms: [propext, Classical.choice, Quot.sound]
'Verif.Textures.no_height_ub' depends on axioms: [propext, Classical.choice, Quot.sound]
'Verif.Textures.projected_between_partial' depends on axioms: [propext, Classical.choice, Quot.sound]
'Verif.Textures.projected_range_partial' depends on axioms: [propext, Classical.choice, Quot.sound]
'Verif.Textures.projected_outside' depends on axioms: [propext, Quot.sound]
'Verif.Textures.projected_small_ub' depends on axioms: [propext, Classical.choice, Quot.sound]
'Verif.Textures.average_mean_partial' depends on axioms: [propext, Quot.sound]
'Verif.Textures.average_bounds_partial' depends on axioms: [propext, Quot.sound]
'Verif.Textures.saturate_vivid' depends on axioms: [propext, Classical.choice, Quot.sound]
'Verif.Textures.averageColor_ok_partial' depends on axioms: [propext, Classical.choice, Quot.sound]
'Verif.Textures.metadata_color' depends on axioms: [propext, Quot.sound]
'Verif.Textures.missing_ub' depends on axioms: [propext, Quot.sound]
'Verif.Textures.transparent_ub' depends on axioms: [propext, Classical.choice, Quot.sound]
'Verif.Illum.cull_lossless_partial' depends on axioms: [propext, Classical.choice, Quot.sound]
'Verif.Illum.other_channel' depends on axioms: [propext, Classical.choice, Quot.sound]
'Verif.Illum.bright_color_lost' depends on axioms: [propext, Classical.choice, Quot.sound]
'Verif.Illum.projected_lost' depends on axioms: [propext, Classical.choice, Quot.sound]
'Verif.Illum.outside_sphere_lost' depends on axioms: [propext, Classical.choice, Quot.sound]
'Verif.Illum.light_fades' depends on axioms: [propext, Classical.choice, Quot.sound]
'Verif.Illum.wait_fades' depends on axioms: [propext, Classical.choice, Quot.sound]
'Verif.Illum.light_defined' depends on axioms: [propext, Classical.choice, Quot.sound]
'Verif.Illum.linear_reach' depends on axioms: [propext, Classical.choice, Quot.sound]
'Verif.Illum.falloff_reach' depends on axioms: [propext, Classical.choice, Quot.sound]
'Verif.Illum.scaled_to_128' depends on axioms: [propext, Classical.choice, Quot.sound]
'Verif.Illum.doubled_distance' depends on axioms: [propext, Classical.choice, Quot.sound]
'Verif.Illum.delay5_tamer' depends on axioms: [propext, Classical.choice, Quot.sound]
'Verif.Illum.checked_ranges' depends on axioms: [propext, Classical.choice, Quot.sound]
'Verif.Illum.jitter_total' depends on axioms: [propext, Classical.choice, Quot.sound]
'Verif.Illum.jitter_whole' depends on axioms: [propext, Classical.choice, Quot.sound]
'Verif.Illum.no_scale_infinite' depends on axioms: [propext, Classical.choice, Quot.sound]
'Verif.Illum.spot_outside' depends on axioms: [propext, Classical.choice, Quot.sound]
'Verif.Illum.spot_inside' depends on axioms: [propext, Classical.choice, Quot.sound]
'Verif.Illum.spot_between' depends on axioms: [propext, Classical.choice, Quot.sound]
'Verif.Illum.spot_fades' depends on axioms: [propext, Classical.choice, Quot.sound]
'Verif.Illum.cone_default' depends on axioms: [propext, Classical.choice, Quot.sound]
'Verif.Illum.wide_cone_dark' depends on axioms: [propext, Classical.choice, Quot.sound]
'Verif.Illum.dirt_darkens_partial' depends on axioms: [propext, Classical.choice, Quot.sound]
'Verif.Illum.dirt_off' depends on axioms: [propext, Classical.choice, Quot.sound]
'Verif.Illum.dirt_monotone' depends on axioms: [propext, Classical.choice, Quot.sound]
'Verif.Illum.dirt_radii' depends on axioms: [propext, Classical.choice, Quot.sound]
'Verif.Illum.negative_scale_brightens' depends on axioms: [propext, Classical.choice, Quot.sound]
'Verif.Illum.zero_scale_ignored' depends on axioms: [propext, Classical.choice, Quot.sound]
'Verif.Illum.light_by_style_partial' depends on axioms: [propext, Classical.choice, Quot.sound]
'Verif.Illum.surface_by_style_partial' depends on axioms: [propext, Classical.choice, Quot.sound]
'Verif.Illum.addmin_by_style_partial' depends on axioms: [propext, Classical.choice, Quot.sound]
'Verif.Illum.reserved_style_leaks' depends on axioms: [propext]
'Verif.Illum.surface_behind' depends on axioms: [propext, Classical.choice, Quot.sound]
'Verif.Illum.surface_fades' depends on axioms: [propext, Classical.choice, Quot.sound]
'Verif.Illum.surface_hotspot' depends on axioms: [propext, Classical.choice, Quot.sound]
'Verif.Illum.high_quality_complete' depends on axioms: [propext, Classical.choice, Quot.sound]
'Verif.Illum.gate_lossless' depends on axioms: [propext, Classical.choice, Quot.sound]
'Verif.Illum.skipped_far_partial' depends on axioms: [propext, Classical.choice, Quot.sound]
'Verif.Illum.strength_shared' depends on axioms: [propext, Classical.choice, Quot.sound]
'Verif.Illum.near_sample_lost' depends on axioms: [propext, Classical.choice, Quot.sound]
'Verif.Illum.surface_scale_stops_bounces' depends on axioms: [propext, Classical.choice, Quot.sound]
'Verif.Illum.negative_surface_ignored' depends on axioms: [propext, Classical.choice, Quot.sound]
'Verif.Illum.min_light_floor_partial' depends on axioms: [propext, Classical.choice, Quot.sound]
'Verif.Illum.min_light_twice_partial' depends on axioms: [propext, Classical.choice, Quot.sound]
'Verif.Extents.engine_extents' depends on axioms: [propext, Classical.choice, Quot.sound]
'Verif.Extents.face_covered' depends on axioms: [propext, Classical.choice, Quot.sound]
'Verif.Extents.lightmap_on_face' depends on axioms: [propext, Classical.choice, Quot.sound]
'Verif.Extents.stored_on_face' depends on axioms: [propext, Classical.choice, Quot.sound]
'Verif.Extents.face_on_lightmap' depends on axioms: [propext, Classical.choice, Quot.sound]
'Verif.Extents.mapping_exists' depends on axioms: [propext, Quot.sound]
'Verif.Extents.face_in_sphere' depends on axioms: [propext, Classical.choice, Quot.sound]
'Verif.Extents.units_mapping_exists' depends on axioms: [propext, Classical.choice, Quot.sound]
'Verif.Extents.units_scale' depends on axioms: [propext, Classical.choice, Quot.sound]
'Verif.Extents.units_stretch' depends on axioms: [propext, Classical.choice, Quot.sound]
'Verif.Extents.units_not_mirrored' depends on axioms: [propext, Classical.choice, Quot.sound]
'Verif.Extents.stored_agrees_partial' depends on axioms: [propext, Classical.choice, Quot.sound]
'Verif.Extents.stored_size_wraps' depends on axioms: [propext, Classical.choice, Quot.sound]
'Verif.Extents.zero_units_undefined' depends on axioms: [propext, Quot.sound]
'Verif.Extents.unlit_extents_undefined' depends on axioms: [propext, Quot.sound]
'Verif.Extents.grid_inside' depends on axioms: [propext, Classical.choice, Quot.sound]
'Verif.Extents.grid_centered' depends on axioms: [propext, Classical.choice, Quot.sound]
'Verif.Extents.grid_dense' depends on axioms: [propext, Classical.choice, Quot.sound]
'Verif.Extents.sample_in_front' depends on axioms: [propext, Classical.choice, Quot.sound]
'Verif.Extents.face_sampled' depends on axioms: [propext, Classical.choice, Quot.sound]
'Verif.Atlas.packing_ends_partial' depends on axioms: [propext, Classical.choice, Quot.sound]
'Verif.Atlas.every_face_placed' depends on axioms: [propext, Classical.choice, Quot.sound]
'Verif.Atlas.places_apart_partial' depends on axioms: [propext, Classical.choice, Quot.sound]
'Verif.Atlas.image_shows_samples_partial' depends on axioms: [propext, Classical.choice, Quot.sound]
'Verif.Atlas.image_clear_elsewhere_partial' depends on axioms: [propext, Classical.choice, Quot.sound]
'Verif.Atlas.styles_with_images_partial' depends on axioms: [propext, Classical.choice, Quot.sound]
'Verif.Atlas.atlas_defined' depends on axioms: [propext, Classical.choice, Quot.sound]
'Verif.Atlas.uv_within' depends on axioms: [propext, Classical.choice, Quot.sound]
'Verif.Atlas.tall_face_hangs' depends on axioms: [propext, Classical.choice, Quot.sound]
'Verif.Atlas.wide_face_overlaps' depends on axioms: [propext, Quot.sound]
'Verif.Atlas.style_254_lost' depends on axioms: [propext, Quot.sound]
'Verif.Decompile.leafs_covered' depends on axioms: [propext, Classical.choice, Quot.sound]
'Verif.Decompile.brushes_true' depends on axioms: [propext, Classical.choice, Quot.sound]
'Verif.Decompile.brushes_apart' depends on axioms: [propext, Classical.choice, Quot.sound]
'Verif.Decompile.leafs_defined' depends on axioms: [propext, Quot.sound]
'Verif.Decompile.hull_brushes' depends on axioms: [propext, Classical.choice, Quot.sound]
'Verif.Decompile.leaf_hull_undefined' depends on axioms: [propext, Quot.sound]
'Verif.Decompile.reduced_region_partial' depends on axioms: [propext, Classical.choice, Quot.sound]
'Verif.Decompile.redundant_removed' depends on axioms: [propext, Classical.choice, Quot.sound]
'Verif.Decompile.coincident_planes_lost' depends on axioms: [propext, Classical.choice, Quot.sound]
'Verif.Decompile.brush_left_open' depends on axioms: [propext, Classical.choice, Quot.sound]
'Verif.Decompile.q2_region' depends on axioms: [propext, Classical.choice, Quot.sound]
'Verif.Decompile.q2_no_thin' depends on axioms: [propext, Quot.sound]
'Verif.Decompile.split_uniform' depends on axioms: [propext, Classical.choice, Quot.sound]
'Verif.Decompile.split_covers' depends on axioms: [propext, Classical.choice, Quot.sound]
'Verif.Decompile.split_region_partial' depends on axioms: [propext, Classical.choice, Quot.sound]
'Verif.Decompile.split_disjoint' depends on axioms: [propext, Classical.choice, Quot.sound]
'Verif.Decompile.split_sides' depends on axioms: [propext, Classical.choice, Quot.sound]
'Verif.Decompile.dropped_why' depends on axioms: [propext, Classical.choice, Quot.sound]
'Verif.Decompile.split_lost' depends on axioms: [propext, Classical.choice, Quot.sound]
'Verif.Decompile.points_give_plane' depends on axioms: [propext, Classical.choice, Quot.sound]
'Verif.Decompile.written_plane' depends on axioms: [propext, Classical.choice, Quot.sound]
'Verif.Decompile.through_unique' depends on axioms: [propext, Classical.choice, Quot.sound]
'Verif.Decompile.texture_kept' depends on axioms: [propext, Classical.choice, Quot.sound]
'Verif.Decompile.texture_slide' depends on axioms: [propext, Classical.choice, Quot.sound]
'Verif.Decompile.texture_moves_partial' depends on axioms: [propext, Classical.choice, Quot.sound]
'Verif.Decompile.written_textures_partial' depends on axioms: [propext, Classical.choice, Quot.sound]
'Verif.Decompile.largest_ge' depends on axioms: [propext, Classical.choice, Quot.sound]
'Verif.Decompile.texture_slides' depends on axioms: [propext, Classical.choice, Quot.sound]
'Verif.Decompile.fill_opposite' depends on axioms: [propext, Quot.sound]
'Verif.Decompile.fill_textures' depends on axioms: [propext, Classical.choice, Quot.sound]
'Verif.Decompile.keys_kept' depends on axioms: [propext, Classical.choice, Quot.sound]
'Verif.Decompile.point_keeps_origin' depends on axioms: [propext, Classical.choice, Quot.sound]
'Verif.Decompile.origin_moves_partial' depends on axioms: [propext, Classical.choice, Quot.sound]
'Verif.Decompile.origin_before_model' depends on axioms: [propext, Classical.choice, Quot.sound]
'Verif.Decompile.missing_classname_undefined' depends on axioms: [propext, Classical.choice, Quot.sound]
'Verif.Decompile.portal_brush' depends on axioms: [propext, Classical.choice, Quot.sound]
'Verif.Surfaces.subdivide_ends' depends on axioms: [propext, Classical.choice, Quot.sound]
'Verif.Surfaces.subdivide_pieces' depends on axioms: [propext, Classical.choice, Quot.sound]
'Verif.Surfaces.subdivide_special' depends on axioms: [propext, Quot.sound]
'Verif.Surfaces.subdivideNode_eq' depends on axioms: [propext, Quot.sound]
'Verif.Surfaces.subdivide_stuck' depends on axioms: [propext, Classical.choice, Quot.sound]
'Verif.Surfaces.fits_luxels' depends on axioms: [propext, Classical.choice, Quot.sound]
'Verif.Surfaces.marks_complete' depends on axioms: [propext, Classical.choice, Quot.sound]
'Verif.Surfaces.marks_sound' depends on axioms: [propext, Classical.choice, Quot.sound]
'Verif.Surfaces.marks_nodup' depends on axioms: [propext, Quot.sound]
'Verif.Surfaces.face_seen' depends on axioms: [propext, Quot.sound]
'Verif.Surfaces.faces_of_nodes' depends on axioms: [propext, Classical.choice, Quot.sound]
'Verif.Surfaces.leafFaces_ub' depends on axioms: [propext, Quot.sound]
'Verif.Surfaces.updateSphere_ball' depends on axioms: [propext, Quot.sound]
'Verif.Phong.smoothed_iff_partial' depends on axioms: [propext, Classical.choice, Quot.sound]
'Verif.Phong.smoothed_faces' depends on axioms: [propext, Classical.choice, Quot.sound]
'Verif.Phong.smoothed_both_ways_partial' depends on axioms: [propext, Classical.choice, Quot.sound]
'Verif.Phong.smoothed_one_way' depends on axioms: [propext, Classical.choice, Quot.sound]
'Verif.Phong.wide_angle' depends on axioms: [propext, Classical.choice, Quot.sound]
'Verif.Phong.flags_that_matter_quake' depends on axioms: [propext, Quot.sound]
'Verif.Phong.flags_that_matter_quake2' depends on axioms: [propext, Quot.sound]
'Verif.Phong.angle_kept_partial' depends on axioms: [propext, Classical.choice, Quot.sound]
'Verif.Phong.angle_of_last_partial' depends on axioms: [propext, Classical.choice, Quot.sound]
'Verif.Phong.angle_of_another_model' depends on axioms: [propext, Classical.choice, Quot.sound]
'Verif.Phong.own_angle_lost' depends on axioms: [propext, Classical.choice, Quot.sound]
'Verif.Phong.normals_recorded' depends on axioms: [propext, Classical.choice, Quot.sound]
'Verif.Phong.normals_flat' depends on axioms: [propext, Classical.choice, Quot.sound]
'Verif.Phong.normals_within' depends on axioms: [propext, Classical.choice, Quot.sound]
'Verif.Phong.normals_shared' depends on axioms: [propext, Classical.choice, Quot.sound]
'Verif.Phong.edge_faces' depends on axioms: [propext, Classical.choice, Quot.sound]
'Verif.Phong.edge_smoothed' depends on axioms: [propext, Classical.choice, Quot.sound]
'Verif.Phong.normals_any_order' depends on axioms: [propext, Classical.choice, Quot.sound]
'Verif.Phong.normals_progress' depends on axioms: [propext, Classical.choice, Quot.sound]
'Verif.Phong.normal_read' depends on axioms: [propext, Classical.choice, Quot.sound]
'Verif.Samples.interpolated_normal_is_a_mix' depends on axioms: [propext, Classical.choice, Quot.sound]
'Verif.Samples.interpolated_normal_of_equal_normals' depends on axioms: [propext, Classical.choice, Quot.sound]
'Verif.Samples.interpolated_normal_exists' depends on axioms: [propext, Classical.choice, Quot.sound]
'Verif.Samples.interpolated_normal_not_unit' depends on axioms: [propext, Classical.choice, Quot.sound]
'Verif.Samples.sample_is_placed' depends on axioms: [propext, Classical.choice, Quot.sound]
'Verif.Samples.sample_over_its_face_stays' depends on axioms: [propext, Classical.choice, Quot.sound]
'Verif.Samples.sample_over_its_face_occluded' depends on axioms: [propext, Classical.choice, Quot.sound]
'Verif.Samples.sample_past_the_border' depends on axioms: [propext, Classical.choice, Quot.sound]
'Verif.Samples.closest_on_segment' depends on axioms: [propext, Classical.choice, Quot.sound]
'Verif.Samples.closest_on_border' depends on axioms: [propext, Classical.choice, Quot.sound]
'Verif.Samples.crossed_edge_partial' depends on axioms: [propext, Classical.choice, Quot.sound]
'Verif.Samples.crossed_edge_not_least_past' depends on axioms: [propext, Classical.choice, Quot.sound]
'Verif.Samples.in_any_solid_partial' depends on axioms: [propext, Classical.choice, Quot.sound]
'Verif.Samples.in_any_solid_moved_model' depends on axioms: [propext, Classical.choice, Quot.sound]
'Verif.Suns.sun_split_partial' depends on axioms: [propext, Classical.choice, Quot.sound]
'Verif.Suns.sun_outside_penumbra' depends on axioms: [propext, Classical.choice, Quot.sound]
'Verif.Suns.suns_total' depends on axioms: [propext, Classical.choice, Quot.sound]
'Verif.Suns.lights_set_up' depends on axioms: [propext, Classical.choice, Quot.sound]
'Verif.Suns.sun_direction_partial' depends on axioms: [propext, Classical.choice, Quot.sound]
'Verif.Suns.sun_mangle_misread' depends on axioms: [propext, Classical.choice, Quot.sound]
'Verif.Suns.sun_light_partial' depends on axioms: [propext, Classical.choice, Quot.sound]
'Verif.Suns.sun_light_divided' depends on axioms: [propext, Classical.choice, Quot.sound]
'Verif.Suns.one_sample_one_sun' depends on axioms: [propext, Classical.choice, Quot.sound]
'Verif.Suns.dome_up' depends on axioms: [propext, Classical.choice, Quot.sound]
'Verif.Suns.dome_low' depends on axioms: [propext, Classical.choice, Quot.sound]
'Verif.Suns.dome_halves' depends on axioms: [propext, Classical.choice, Quot.sound]
'Verif.Suns.domes_total' depends on axioms: [propext, Classical.choice, Quot.sound]
'Verif.Suns.jitter_copies_partial' depends on axioms: [propext, Classical.choice, Quot.sound]
'Verif.Suns.jitter_light' depends on axioms: [propext, Classical.choice, Quot.sound]
'Verif.Suns.jitter_outside_sphere' depends on axioms: [propext, Classical.choice, Quot.sound]
'Verif.Suns.dome_multiplied' depends on axioms: [propext, Classical.choice, Quot.sound]
'Verif.Suns.jitter_draws' depends on axioms: [propext, Classical.choice, Quot.sound]
'Verif.Suns.targets' depends on axioms: [propext, Classical.choice, Quot.sound]
'Verif.Suns.lights_nudged' depends on axioms: [propext, Classical.choice, Quot.sound]
'Verif.PortalSides.side_from_brush' depends on axioms: [propext, Classical.choice, Quot.sound]
'Verif.PortalSides.side_none' depends on axioms: [propext, Quot.sound]
'Verif.PortalSides.side_exact' depends on axioms: [propext, Classical.choice, Quot.sound]
'Verif.PortalSides.side_closest' depends on axioms: [propext, Classical.choice, Quot.sound]
'Verif.PortalSides.side_no_assert' depends on axioms: [propext, Classical.choice, Quot.sound]
'Verif.PortalSides.side_found_partial' depends on axioms: [propext, Classical.choice, Quot.sound]
'Verif.PortalSides.side_missed' depends on axioms: [propext, Classical.choice, Quot.sound]
'Verif.PortalSides.sides_marked' depends on axioms: [propext, Quot.sound]
'Verif.PortalSides.sides_marked_others' depends on axioms: [propext, Quot.sound]
'Verif.SurfLights.pieces_small' depends on axioms: [propext, Classical.choice, Quot.sound]
'Verif.SurfLights.pieces_area' depends on axioms: [propext, Classical.choice, Quot.sound]
'Verif.SurfLights.small_face_kept' depends on axioms: [propext, Classical.choice, Quot.sound]
'Verif.SurfLights.subdivide_ends' depends on axioms: [propext, Classical.choice, Quot.sound]
'Verif.SurfLights.full_face_overflows' depends on axioms: [propext, Classical.choice, Quot.sound]
'Verif.SurfLights.corner_check_unused' depends on axioms: [propext, Quot.sound]
'Verif.SurfLights.face_lit_once' depends on axioms: [propext, Classical.choice, Quot.sound]
'Verif.SurfLights.face_not_lit' depends on axioms: [propext, Classical.choice, Quot.sound]
'Verif.SurfLights.template_fits' depends on axioms: [propext, Quot.sound]
'Verif.SurfLights.lamps_to_templates' depends on axioms: [propext, Quot.sound]
'Verif.Radiosity.patches_small' depends on axioms: [propext, Classical.choice, Quot.sound]
'Verif.Radiosity.patches_keep_corners' depends on axioms: [propext, Classical.choice, Quot.sound]
'Verif.Radiosity.dice_ends' depends on axioms: [propext, Classical.choice, Quot.sound]
'Verif.Radiosity.center_inside' depends on axioms: [propext, Classical.choice, Quot.sound]
'Verif.Radiosity.surface_settings' depends on axioms: [propext, Classical.choice, Quot.sound]
'Verif.Radiosity.settings_lit' depends on axioms: [propext, Classical.choice, Quot.sound]
'Verif.Radiosity.surface_points' depends on axioms: [propext, Classical.choice, Quot.sound]
'Verif.Radiosity.isLit_iff' depends on axioms: [propext, Quot.sound]
'Verif.Radiosity.surface_energy_partial' depends on axioms: [propext, Classical.choice, Quot.sound]
'Verif.Radiosity.dim_surface_too_dark' depends on axioms: [propext, Classical.choice, Quot.sound]
'Verif.Radiosity.negative_surface_shines' depends on axioms: [propext, Classical.choice, Quot.sound]
'Verif.Radiosity.bounce_skips' depends on axioms: [propext, Quot.sound]
'Verif.Radiosity.bounce_pass_partial' depends on axioms: [propext, Classical.choice, Quot.sound]
'Verif.Radiosity.bounce_points_partial' depends on axioms: [propext, Classical.choice, Quot.sound]
'Verif.Radiosity.bounce_forgets_offset' depends on axioms: [propext, Classical.choice, Quot.sound]
'Verif.Radiosity.pass_faces' depends on axioms: [propext]
'Verif.Radiosity.pass_true' depends on axioms: [propext]
'Verif.Radiosity.pass_one_by_one_partial' depends on axioms: [propext, Quot.sound]
'Verif.Radiosity.pass_lost' does not depend on any axioms
'Verif.Radiosity.passes_eq' depends on axioms: [propext, Quot.sound]
'Verif.MapUtil.save_reads_back_partial' depends on axioms: [propext, Classical.choice, Quot.sound]
'Verif.MapUtil.quark_lost' depends on axioms: [propext, Classical.choice, Quot.sound]
'Verif.MapUtil.quark_read' depends on axioms: [propext, Classical.choice, Quot.sound]
'Verif.MapUtil.short_info_ub' depends on axioms: [propext, Classical.choice, Quot.sound]
'Verif.MapUtil.quoted_name_lost' depends on axioms: [propext, Classical.choice, Quot.sound]
'Verif.MapUtil.qbsp_reads_more' depends on axioms: [propext, Classical.choice, Quot.sound]
'Verif.MapUtil.primitives_unreadable' depends on axioms: [propext, Quot.sound]
'Verif.MapUtil.primitives_refused' depends on axioms: [propext, Classical.choice, Quot.sound]
'Verif.MapUtil.primitives_unwritable' depends on axioms: [propext, Quot.sound]
'Verif.MapUtil.convert_keeps' depends on axioms: [propext, Quot.sound]
'Verif.MapUtil.convert_map_same' depends on axioms: [propext, Quot.sound]
'Verif.MapUtil.convert_same' depends on axioms: [propext, Quot.sound]
'Verif.MapUtil.convert_valve_partial' depends on axioms: [propext, Classical.choice, Quot.sound]
'Verif.MapUtil.valve_angle_unset' depends on axioms: [propext, Quot.sound]
'Verif.MapUtil.primitives_unwritable' depends on axioms: [propext, Quot.sound]
'Verif.MapUtil.convert_etp_error' depends on axioms: [propext, Quot.sound]
'Verif.MapUtil.convert_quake_moved' depends on axioms: [propext, Classical.choice, Quot.sound]
'Verif.MapUtil.convert_quake_def' depends on axioms: [propext, Quot.sound]
'Verif.MapUtil.convert_quake_partial' depends on axioms: [propext, Classical.choice, Quot.sound]
'Verif.MapUtil.wall_moved' depends on axioms: [propext, Classical.choice, Quot.sound]
'Verif.MapUtil.run_commands' depends on axioms: [propext, Classical.choice, Quot.sound]
'Verif.MapUtil.run_in_bounds' depends on axioms: [propext, Classical.choice, Quot.sound]
'Verif.MapUtil.strip_save' depends on axioms: [propext, Classical.choice, Quot.sound]
'Verif.MapUtil.last_strip_ignored' depends on axioms: [propext, Classical.choice, Quot.sound]
'Verif.BspUtil.check_reports_partial' depends on axioms: [propext, Classical.choice, Quot.sound]
'Verif.BspUtil.check_unused' depends on axioms: [propext, Classical.choice, Quot.sound]
'Verif.BspUtil.unlit_reported' depends on axioms: [propext, Classical.choice, Quot.sound]
'Verif.BspUtil.offsets_reported' depends on axioms: [propext, Classical.choice, Quot.sound]
'Verif.BspUtil.vertex_reported' depends on axioms: [propext, Classical.choice, Quot.sound]
'Verif.BspUtil.check_prints' depends on axioms: [propext, Classical.choice, Quot.sound]
'Verif.BspUtil.vertex_missed' depends on axioms: [propext, Quot.sound]
'Verif.BspUtil.height_iff' depends on axioms: [propext, Classical.choice, Quot.sound]
'Verif.BspUtil.heights_printed' depends on axioms: [propext, Classical.choice, Quot.sound]
'Verif.BspUtil.check_defined' depends on axioms: [propext, Classical.choice, Quot.sound]
'Verif.BspUtil.planar_reports' depends on axioms: [propext, Classical.choice, Quot.sound]
'Verif.BspUtil.planar_crashes' depends on axioms: [propext, Classical.choice, Quot.sound]
'Verif.BspUtil.check_crashes' depends on axioms: [propext, Quot.sound]
'Verif.BspUtil.Scale.scale_faces_partial' depends on axioms: [propext, Classical.choice, Quot.sound]
'Verif.BspUtil.Scale.scale_brushsides_partial' depends on axioms: [propext, Classical.choice, Quot.sound]
'Verif.BspUtil.Scale.scale_leaf_partial' depends on axioms: [propext, Classical.choice, Quot.sound]
'Verif.BspUtil.Scale.half_turn_reversed' depends on axioms: [propext, Classical.choice, Quot.sound]
'Verif.BspUtil.Scale.scale_two_mirrors' depends on axioms: [propext, Classical.choice, Quot.sound]
'Verif.BspUtil.Scale.scale_clip_wrong' depends on axioms: [propext, Classical.choice, Quot.sound]
'Verif.BspUtil.Scale.scale_clipnodes_kept' depends on axioms: [propext, Quot.sound]
'Verif.BspUtil.Scale.scale_corners' depends on axioms: [propext, Classical.choice, Quot.sound]
'Verif.BspUtil.Scale.scale_textures' depends on axioms: [propext, Classical.choice, Quot.sound]
'Verif.BspUtil.Scale.scale_decoupled' depends on axioms: [propext, Classical.choice, Quot.sound]
'Verif.BspUtil.Scale.scale_model_bounds' depends on axioms: [propext, Classical.choice, Quot.sound]
'Verif.BspUtil.Scale.scale_leaf_bounds' depends on axioms: [propext, Classical.choice, Quot.sound]
'Verif.BspUtil.Scale.scale_node_bounds' depends on axioms: [propext, Classical.choice, Quot.sound]
'Verif.BspUtil.Scale.scale_grid_partial' depends on axioms: [propext, Classical.choice, Quot.sound]
'Verif.BspUtil.Scale.grid_mirrored' depends on axioms: [propext, Classical.choice, Quot.sound]
'Verif.BspUtil.Scale.scale_edges_torn' depends on axioms: [propext, Classical.choice, Quot.sound]
'Verif.BspUtil.Scale.scale_entities' depends on axioms: [propext, Quot.sound]
'Verif.BspUtil.Scale.lip_travel' depends on axioms: [propext, Quot.sound]
'Verif.BspUtil.Replace.replace_brushes' depends on axioms: [propext, Classical.choice, Quot.sound]
'Verif.BspUtil.Replace.replace_error' depends on axioms: [propext, Classical.choice, Quot.sound]
'Verif.BspUtil.Replace.replace_keys' depends on axioms: [propext, Classical.choice, Quot.sound]
'Verif.BspUtil.Replace.load_verbatim' depends on axioms: [propext, Quot.sound]
'Verif.BspUtil.Replace.replace_order_wrong' depends on axioms: [propext]
'Verif.BspUtil.Replace.replace_left_empty' depends on axioms: [propext]
'Verif.BspUtil.Replace.replace_empty_ub' depends on axioms: [propext]
'Verif.BspUtil.Replace.primitives_refused' depends on axioms: [propext, Quot.sound]
'Verif.BspUtil.Commands.reads_in_order' depends on axioms: [propext, Quot.sound]
'Verif.BspUtil.Commands.alone' depends on axioms: [propext, Quot.sound]
'Verif.BspUtil.Commands.enough_words' depends on axioms: [propext, Quot.sound]
'Verif.BspUtil.Commands.missing_words' depends on axioms: [propext, Classical.choice, Quot.sound]
'Verif.BspUtil.Commands.lumps_kept' depends on axioms: [propext]
'Verif.BspUtil.Commands.lump_removed' depends on axioms: [propext, Quot.sound]
'Verif.BspUtil.Commands.at_most_one_change' depends on axioms: [propext, Quot.sound]
'Verif.BspUtil.Commands.written_over_entities' depends on axioms: [propext, Quot.sound]
'Verif.BspUtil.Commands.second_conversion_wrong' depends on axioms: [propext, Quot.sound]
'Verif.BspUtil.Commands.source_emptied' depends on axioms: [propext, Quot.sound]
'Verif.BspUtil.Commands.replace_after_change_ub' depends on axioms: [propext, Quot.sound]
'Verif.BspUtil.Commands.null_words' depends on axioms: [propext]
'Verif.BspUtil.Commands.scale_takes_file' depends on axioms: [propext]
'Verif.Miptex.textures_listed' depends on axioms: [propext, Classical.choice, Quot.sound]
'Verif.Miptex.number_stays' depends on axioms: [propext, Classical.choice, Quot.sound]
'Verif.Miptex.refused_iff' depends on axioms: [propext, Classical.choice, Quot.sound]
'Verif.Miptex.frames_added' depends on axioms: [propext, Classical.choice, Quot.sound]
'Verif.Miptex.frames_ub_iff' depends on axioms: [propext, Classical.choice, Quot.sound]
'Verif.Miptex.lower_not_first' depends on axioms: [propext, Classical.choice, Quot.sound]
'Verif.Miptex.long_name_cut' depends on axioms: [propext, Classical.choice, Quot.sound]
'Verif.Miptex.plus_ub' depends on axioms: [propext, Classical.choice, Quot.sound]
'Verif.Miptex.Chain.listed_unique' depends on axioms: [propext, Classical.choice, Quot.sound]
'Verif.Miptex.Chain.face_number' depends on axioms: [propext, Classical.choice, Quot.sound]
'Verif.Miptex.Chain.face_keeps' depends on axioms: [propext, Classical.choice, Quot.sound]
'Verif.Miptex.Chain.face_defined' depends on axioms: [propext]
'Verif.Miptex.Chain.animation_listed' depends on axioms: [propext, Classical.choice, Quot.sound]
'Verif.Miptex.Chain.animation_never_ends' depends on axioms: [propext, Classical.choice, Quot.sound]
'Verif.Miptex.Chain.circle_never_ends' depends on axioms: [propext, Classical.choice, Quot.sound]
'Verif.Miptex.Chain.still_texture_animated' depends on axioms: [propext, Classical.choice, Quot.sound]
'Verif.Archive.Wads.listed_registered' depends on axioms: [propext, Classical.choice, Quot.sound]
'Verif.Archive.Wads.default_registered' depends on axioms: [propext, Classical.choice, Quot.sound]
'Verif.Archive.Wads.ensure_keeps' depends on axioms: [propext, Classical.choice, Quot.sound]
'Verif.Archive.Wads.parts_spec' depends on axioms: [propext, Classical.choice, Quot.sound]
'Verif.Archive.Wads.load_at' depends on axioms: [propext, Classical.choice, Quot.sound]
'Verif.Archive.Wads.wad_paths' depends on axioms: [propext, Classical.choice, Quot.sound]
'Verif.Archive.Wads.wad_paths_sorted' depends on axioms: [propext, Classical.choice, Quot.sound]
'Verif.Archive.Wads.wad_paths_order' depends on axioms: [propext, Classical.choice, Quot.sound]
'Verif.Archive.Wads.second_path_unseen' depends on axioms: [propext, Classical.choice, Quot.sound]
'Verif.Archive.Wads.local_not_embedded' depends on axioms: [propext, Classical.choice, Quot.sound]
'Verif.Archive.Wads.empty_part_hides_default' depends on axioms: [propext, Classical.choice, Quot.sound]
'Verif.Tree.faces_at_point' depends on axioms: [propext, Classical.choice, Quot.sound]
'Verif.Tree.point_of_face' depends on axioms: [propext, Classical.choice, Quot.sound]
'Verif.Tree.first_face' depends on axioms: [propext, Classical.choice, Quot.sound]
'Verif.Tree.node_at_point' depends on axioms: [propext, Classical.choice, Quot.sound]
'Verif.Tree.wall_before_floor' depends on axioms: [propext, Classical.choice, Quot.sound]
'Verif.Shadow.occluded_iff' depends on axioms: [propext, Classical.choice, Quot.sound]
'Verif.Shadow.passes' depends on axioms: [propext, Classical.choice, Quot.sound]
'Verif.Shadow.solid_blocks' depends on axioms: [propext, Classical.choice, Quot.sound]
'Verif.Shadow.fence_blocks' depends on axioms: [propext, Classical.choice, Quot.sound]
'Verif.Shadow.limited_shadow_partial' depends on axioms: [propext, Classical.choice, Quot.sound]
'Verif.Shadow.intersect_nearest' depends on axioms: [propext, Classical.choice, Quot.sound]
'Verif.Shadow.isSky_iff' depends on axioms: [propext, Classical.choice, Quot.sound]
'Verif.Shadow.limited_liquid' depends on axioms: [propext, Classical.choice, Quot.sound]
'Verif.Shadow.fence_of_both' depends on axioms: [propext, Classical.choice, Quot.sound]
'Verif.Shadow.channels_block' depends on axioms: [propext, Classical.choice, Quot.sound]
'Verif.Shadow.faceAlpha_value' depends on axioms: [propext, Classical.choice, Quot.sound]
'Verif.Shadow.alpha_ignored' depends on axioms: [propext, Classical.choice, Quot.sound]
'Verif.Shadow.leaf_error' depends on axioms: [propext, Classical.choice, Quot.sound]
'Verif.Shadow.tinted_partial' depends on axioms: [propext, Classical.choice, Quot.sound]
'Verif.Shadow.never_brighter' depends on axioms: [propext, Classical.choice, Quot.sound]
'Verif.Shadow.switched_partial' depends on axioms: [propext, Classical.choice, Quot.sound]
'Verif.Shadow.last_pane_wins' depends on axioms: [propext, Classical.choice, Quot.sound]
'Verif.Shadow.last_switch_wins' depends on axioms: [propext, Classical.choice, Quot.sound]
'Verif.Shadow.glass_behind_sky' depends on axioms: [propext, Classical.choice, Quot.sound]
'Verif.Mottle.mottle_range' depends on axioms: [propext, Classical.choice, Quot.sound]
'Verif.Mottle.mottle_seamless' depends on axioms: [propext, Classical.choice, Quot.sound]
'Verif.Mottle.mottle_defined' depends on axioms: [propext, Classical.choice, Quot.sound]
'Verif.Mottle.mottle_repeats' depends on axioms: [propext, Classical.choice, Quot.sound]
'Verif.Mottle.mottle_varies' depends on axioms: [propext, Classical.choice, Quot.sound]
'Verif.Mottle.mottle_debug' depends on axioms: [propext, Classical.choice, Quot.sound]
'Verif.Dirt.occlusion_range' depends on axioms: [propext, Classical.choice, Quot.sound]
'Verif.Dirt.occlusion_occluded' depends on axioms: [propext, Classical.choice, Quot.sound]
'Verif.Dirt.occlusion_pos' depends on axioms: [propext, Classical.choice, Quot.sound]
'Verif.Dirt.clear_partial' depends on axioms: [propext, Classical.choice, Quot.sound]
'Verif.Dirt.clear_axial' depends on axioms: [propext, Classical.choice, Quot.sound]
'Verif.Dirt.behind_clear' depends on axioms: [propext, Classical.choice, Quot.sound]
'Verif.Dirt.occlusion_mono' depends on axioms: [propext, Classical.choice, Quot.sound]
'Verif.Dirt.far_counts' depends on axioms: [propext, Classical.choice, Quot.sound]
'Verif.Dirt.cone_exceeded' depends on axioms: [propext, Classical.choice, Quot.sound]
'Verif.Dirt.ordered_vectors' depends on axioms: [propext, Classical.choice, Quot.sound]
'Verif.Dirt.inUse_iff' depends on axioms: [propext, Classical.choice, Quot.sound]
'Verif.SunRay.faceSky_mem' depends on axioms: [propext, Classical.choice, Quot.sound]
'Verif.SunRay.sunColor_value' depends on axioms: [propext, Classical.choice, Quot.sound]
'Verif.SunRay.sunColor_twosided' depends on axioms: [propext, Classical.choice, Quot.sound]
'Verif.SunRay.skip_harmless' depends on axioms: [propext, Classical.choice, Quot.sound]
'Verif.SunRay.pointSun_value' depends on axioms: [propext, Classical.choice, Quot.sound]
'Verif.SunRay.grid_at_least' depends on axioms: [propext, Classical.choice, Quot.sound]
'Verif.SunRay.pointLight_value' depends on axioms: [propext, Classical.choice, Quot.sound]
'Verif.SunRay.pointSky_some' depends on axioms: [propext, Classical.choice, Quot.sound]
'Verif.SunRay.pointEntity_some' depends on axioms: [propext, Classical.choice, Quot.sound]
'Verif.SunRay.grid_ignores' depends on axioms: [propext, Classical.choice, Quot.sound]
'Verif.SunRay.unknown_texture' depends on axioms: [propext, Classical.choice, Quot.sound]
'Verif.SunRay.grid_channels' depends on axioms: [propext, Classical.choice, Quot.sound]
'Verif.Passes.entity_once' depends on axioms: [propext, Classical.choice, Quot.sound]
'Verif.Passes.steps_ordered' depends on axioms: [propext, Classical.choice, Quot.sound]
'Verif.Passes.result_value' depends on axioms: [propext, Classical.choice, Quot.sound]
'Verif.Passes.ignoring_dark' depends on axioms: [propext, Classical.choice, Quot.sound]
'Verif.Passes.lightFace_error_iff' depends on axioms: [propext, Classical.choice, Quot.sound]
'Verif.Passes.bad_face_ends' depends on axioms: [propext, Classical.choice, Quot.sound]
'Verif.Passes.good_faces' depends on axioms: [propext, Classical.choice, Quot.sound]
'Verif.Passes.bounce_debug_dark' depends on axioms: [propext, Classical.choice, Quot.sound]
'Verif.Passes.local_min_bounces' depends on axioms: [propext, Classical.choice, Quot.sound]
'Verif.Passes.nolighting_lights' depends on axioms: [propext, Classical.choice, Quot.sound]
'Verif.FaceKeys.surface_values' depends on axioms: [propext, Classical.choice, Quot.sound]
'Verif.FaceKeys.twosided_iff' depends on axioms: [propext, Classical.choice, Quot.sound]
'Verif.FaceKeys.nodirt_iff' depends on axioms: [propext, Classical.choice, Quot.sound]
'Verif.FaceKeys.decoupled_units' depends on axioms: [propext, Classical.choice, Quot.sound]
'Verif.FaceKeys.minimum_value' depends on axioms: [propext, Classical.choice, Quot.sound]
'Verif.FaceKeys.minimum_color' depends on axioms: [propext, Classical.choice, Quot.sound]
'Verif.FaceKeys.color_ignored' depends on axioms: [propext, Classical.choice, Quot.sound]
'Verif.FaceKeys.never_lower' depends on axioms: [propext, Classical.choice, Quot.sound]
'Verif.FaceKeys.quake2_lower' depends on axioms: [propext, Classical.choice, Quot.sound]
'Verif.FaceKeys.mapScale_value' depends on axioms: [propext, Quot.sound]
'Verif.FaceKeys.shifts_partial' depends on axioms: [propext, Classical.choice, Quot.sound]
'Verif.FaceKeys.scale_value' depends on axioms: [propext, Classical.choice, Quot.sound]
'Verif.FaceKeys.scales_forced' depends on axioms: [propext, Quot.sound]
'Verif.FaceKeys.coarser_ignored' depends on axioms: [propext, Classical.choice, Quot.sound]
'Verif.FaceKeys.short_lump_ub' depends on axioms: [propext, Quot.sound]
'Verif.FaceKeys.large_shift_ub' depends on axioms: [propext, Quot.sound]
'Verif.FaceKeys.never_warns' depends on axioms: [propext, Quot.sound]
'Verif.FaceKeys.modelOf_some' depends on axioms: [propext, Classical.choice, Quot.sound]
'Verif.FaceKeys.listOf_value' depends on axioms: [propext]
'Verif.FaceKeys.modelLists_ok' depends on axioms: [propext, Classical.choice, Quot.sound]
'Verif.OnlyEnts.full_models' depends on axioms: [propext, Classical.choice, Quot.sound]
'Verif.OnlyEnts.only_models' depends on axioms: [propext, Classical.choice, Quot.sound]
'Verif.OnlyEnts.same_models_partial' depends on axioms: [propext, Classical.choice, Quot.sound]
'Verif.OnlyEnts.only_accepts' depends on axioms: [propext, Classical.choice, Quot.sound]
'Verif.OnlyEnts.merged_iff' depends on axioms: [propext, Classical.choice, Quot.sound]
'Verif.OnlyEnts.shifted_by_origin_brush' depends on axioms: [propext, Classical.choice, Quot.sound]
'Verif.OnlyEnts.shifted_by_trigger' depends on axioms: [propext, Classical.choice, Quot.sound]
'Verif.OnlyEnts.same_lump_partial' depends on axioms: [propext, Classical.choice, Quot.sound]
'Verif.OnlyEnts.written_iff' depends on axioms: [propext, Classical.choice, Quot.sound]
'Verif.OnlyEnts.origin_lost' depends on axioms: [propext, Classical.choice, Quot.sound]
'Verif.OnlyEnts.only_keeps_origin' depends on axioms: [propext, Classical.choice, Quot.sound]
'Verif.OnlyEnts.full_sets_origin' depends on axioms: [propext, Classical.choice, Quot.sound]
'Verif.OnlyEnts.scale_ignored' depends on axioms: [propext, Classical.choice, Quot.sound]
'Verif.OnlyEnts.rotate_case' depends on axioms: [propext, Classical.choice, Quot.sound]
'Verif.OnlyEnts.scaled_twice' depends on axioms: [propext, Classical.choice, Quot.sound]
'Verif.BrushList.same_points' depends on axioms: [propext, Classical.choice, Quot.sound]
'Verif.BrushList.normalize_axial' depends on axioms: [propext, Classical.choice, Quot.sound]
'Verif.BrushList.normalize_normal' depends on axioms: [propext, Classical.choice, Quot.sound]
'Verif.BrushList.box_matters' depends on axioms: [propext, Quot.sound]
'Verif.BrushList.contents_value' depends on axioms: [propext, Quot.sound]
'Verif.BrushList.quake2_solid_liquids' depends on axioms: [propext, Quot.sound]
'Verif.BrushList.quake2_contents' depends on axioms: [propext, Quot.sound]
'Verif.BrushList.mem_fromGroups' depends on axioms: [propext, Classical.choice, Quot.sound]
'Verif.BrushList.models_listed' depends on axioms: [propext, Classical.choice, Quot.sound]
'Verif.BrushList.world_listed' depends on axioms: [propext, Classical.choice, Quot.sound]
'Verif.BrushList.listed_once_partial' depends on axioms: [propext, Classical.choice, Quot.sound]
'Verif.BrushList.bad_model_ends' depends on axioms: [propext, Classical.choice, Quot.sound]
'Verif.BrushList.world_twice' depends on axioms: [propext, Classical.choice, Quot.sound]
'Verif.Ambient.soundOf_iff' depends on axioms: [propext, Classical.choice, Quot.sound]
'Verif.Ambient.levels_value' depends on axioms: [propext, Classical.choice, Quot.sound]
'Verif.Ambient.any_order' depends on axioms: [propext, Classical.choice, Quot.sound]
'Verif.Ambient.slime_silent' depends on axioms: [propext, Classical.choice, Quot.sound]
'Verif.Ambient.far_is_loud' depends on axioms: [propext, Classical.choice, Quot.sound]
'Verif.Ambient.no_cluster_ub' depends on axioms: [propext, Classical.choice, Quot.sound]
'Verif.LeafBrush.leafs_name' depends on axioms: [propext, Classical.choice, Quot.sound]
'Verif.LeafBrush.brushes_written' depends on axioms: [propext, Classical.choice, Quot.sound]
'Verif.LeafBrush.written_iff_leaf' depends on axioms: [propext, Classical.choice, Quot.sound]
'Verif.LeafBrush.later_models_keep' depends on axioms: [propext, Classical.choice, Quot.sound]
'Verif.Target.no_flag' depends on axioms: [propext, Quot.sound]
'Verif.Target.one_flag' depends on axioms: [propext, Quot.sound]
'Verif.Target.hexen_flag' depends on axioms: [propext, Quot.sound]
'Verif.Target.two_flags' depends on axioms: [propext, Quot.sound]
'Verif.Target.user_wins' depends on axioms: [propext, Quot.sound]
'Verif.Target.hexen_hides' depends on axioms: [propext, Quot.sound]
'Verif.Target.not_reset' depends on axioms: [propext, Quot.sound]
'Verif.VisCull.entity_kept' depends on axioms: [propext, Classical.choice, Quot.sound]
'Verif.VisCull.liquid_kept' depends on axioms: [propext, Classical.choice, Quot.sound]
'Verif.VisCull.entity_skipped_iff' depends on axioms: [propext, Classical.choice, Quot.sound]
'Verif.VisCull.never_skipped' depends on axioms: [propext]
'Verif.VisCull.surface_skipped_iff' depends on axioms: [propext, Quot.sound]
'Verif.VisCull.surface_kept_partial' depends on axioms: [propext, Classical.choice, Quot.sound]
'Verif.VisCull.surface_dropped' depends on axioms: [propext, Quot.sound]
'Verif.TexValid.side_faithful' depends on axioms: [propext, Classical.choice, Quot.sound]
'Verif.TexValid.drawn_kept' depends on axioms: [propext, Classical.choice, Quot.sound]
'Verif.TexValid.edge_on_reset' depends on axioms: [propext, Classical.choice, Quot.sound]
'Verif.TexValid.hidden_reset' depends on axioms: [propext, Classical.choice, Quot.sound]
'Verif.Region.surface_walled' depends on axioms: [propext, Classical.choice, Quot.sound]
'Verif.Region.interior_free' depends on axioms: [propext, Classical.choice, Quot.sound]
'Verif.Region.wall_thick' depends on axioms: [propext, Classical.choice, Quot.sound]
'Verif.Region.region_filled' depends on axioms: [propext, Classical.choice, Quot.sound]
'Verif.Region.loaded_iff' depends on axioms: [propext, Classical.choice, Quot.sound]
'Verif.Region.antiregion_ignored' depends on axioms: [propext, Quot.sound]
'Verif.Region.ents_partial' depends on axioms: [propext, Classical.choice, Quot.sound]
'Verif.Region.brush_entity_removed' depends on axioms: [propext, Quot.sound]
'Verif.Region.last_entity_ub' depends on axioms: [propext, Classical.choice, Quot.sound]
'Verif.LoadEnt.world_loaded' depends on axioms: [propext, Classical.choice, Quot.sound]
'Verif.LoadEnt.portals_differ' depends on axioms: [propext, Classical.choice, Quot.sound]
'Verif.LoadEnt.portal_of_many' depends on axioms: [propext, Classical.choice, Quot.sound]
'Verif.LoadEnt.region_unnumbered' depends on axioms: [propext, Classical.choice, Quot.sound]
'Verif.LoadEnt.renumbered' depends on axioms: [propext, Classical.choice, Quot.sound]
'Verif.LoadEnt.quarter_turns_partial' depends on axioms: [propext, Classical.choice, Quot.sound]
'Verif.LoadEnt.rotBounds_least' depends on axioms: [propext, Classical.choice, Quot.sound]
'Verif.LoadEnt.expanded_iff' depends on axioms: [propext, Classical.choice, Quot.sound]
'Verif.LoadEnt.corner_leaves' depends on axioms: [propext, Classical.choice, Quot.sound]
'Verif.TreeBounds.bounds_hold_partial' depends on axioms: [propext, Quot.sound]
'Verif.TreeBounds.bounds_tight' depends on axioms: [propext, Quot.sound]
'Verif.TreeBounds.flat_leaf' depends on axioms: [propext, Classical.choice, Quot.sound]
'Verif.TreeBounds.flat_root_ub' depends on axioms: [propext, Quot.sound]
'Verif.DivBounds.parts_held' depends on axioms: [propext, Classical.choice, Quot.sound]
'Verif.DivBounds.parts_least' depends on axioms: [propext, Classical.choice, Quot.sound]
'Verif.DivBounds.axial_metric' depends on axioms: [propext, Classical.choice, Quot.sound]
'Verif.DivBounds.nearer_better' depends on axioms: [propext, Classical.choice, Quot.sound]
'Verif.DivBounds.flat_unknown' depends on axioms: [propext, Quot.sound]
'Verif.DivBounds.axial_outside' depends on axioms: [propext, Quot.sound]
'Verif.Flood.exits_found' depends on axioms: [propext, Classical.choice, Quot.sound]
'Verif.Flood.portal_leak_line' depends on axioms: [propext, Classical.choice, Quot.sound]
'Verif.Flood.longest_spec' depends on axioms: [propext, Quot.sound]
'Verif.Projector.directions' depends on axioms: [propext, Classical.choice, Quot.sound]
'Verif.Projector.picture' depends on axioms: [propext, Classical.choice, Quot.sound]
'Verif.Projector.bad_fov' depends on axioms: [propext, Classical.choice, Quot.sound]
'Verif.Projector.outside' depends on axioms: [propext, Classical.choice, Quot.sound]
'Verif.Projector.aim_partial' depends on axioms: [propext, Classical.choice, Quot.sound]
'Verif.Projector.angles_dark' depends on axioms: [propext, Classical.choice, Quot.sound]
'Verif.SunRay.sky_value' depends on axioms: [propext, Classical.choice, Quot.sound]
'Verif.SunRay.front_value' depends on axioms: [propext, Classical.choice, Quot.sound]
'Verif.SunRay.behind_dark' depends on axioms: [propext, Classical.choice, Quot.sound]
'Verif.SunRay.surfaces_mem' depends on axioms: [propext, Classical.choice, Quot.sound]
'Verif.SunRay.surfaces_all' depends on axioms: [propext, Classical.choice, Quot.sound]
'Verif.Miptex.copied' depends on axioms: [propext, Classical.choice, Quot.sound]
'Verif.Miptex.not_copied' depends on axioms: [propext, Classical.choice, Quot.sound]
'Verif.Miptex.not_found' depends on axioms: [propext, Classical.choice, Quot.sound]
'Verif.Miptex.one_each' depends on axioms: [propext, Quot.sound]
'Verif.Miptex.all_stored' depends on axioms: [propext, Classical.choice, Quot.sound]
'Verif.Miptex.size_known' depends on axioms: [propext, Classical.choice, Quot.sound]
'Verif.Miptex.readable_partial' depends on axioms: [propext, Classical.choice, Quot.sound]
'Verif.Miptex.any_file_copied' depends on axioms: [propext, Classical.choice, Quot.sound]
'Verif.Miptex.short_file_ub' depends on axioms: [propext]
'Verif.Miptex.long_names_alike' depends on axioms: [propext, Quot.sound]
'Verif.VisCull.estimate_box' depends on axioms: [propext, Classical.choice, Quot.sound]
'Verif.VisCull.seen_not_skipped' depends on axioms: [propext, Classical.choice, Quot.sound]
'Verif.VisCull.addPoints_holds' depends on axioms: [propext, Classical.choice, Quot.sound]
'Verif.VisCull.surface_not_skipped' depends on axioms: [propext, Classical.choice, Quot.sound]
'Verif.VisCull.skipped_only' depends on axioms: [propext, Classical.choice, Quot.sound]
'Verif.VisCull.up_down' depends on axioms: [propext, Classical.choice, Quot.sound]
'Verif.VisCull.flat_space' depends on axioms: [propext, Classical.choice, Quot.sound]
'Verif.VisCull.seen_but_skipped' depends on axioms: [propext, Classical.choice, Quot.sound]
'Verif.SurfLights.empty_line' depends on axioms: [propext, Classical.choice, Quot.sound]
'Verif.SurfLights.light_line' depends on axioms: [propext, Classical.choice, Quot.sound]
'Verif.SurfLights.bad_line' depends on axioms: [propext, Classical.choice, Quot.sound]
'Verif.SurfLights.lights_of_lines' depends on axioms: [propext, Classical.choice, Quot.sound]
'Verif.SurfLights.lights_of_file' depends on axioms: [propext, Classical.choice, Quot.sound]
'Verif.SurfLights.bad_file' depends on axioms: [propext, Classical.choice, Quot.sound]
'Verif.SurfLights.files_in_order' depends on axioms: [propext, Quot.sound]
'Verif.NormalsLump.normals_read_back' depends on axioms: [propext, Classical.choice, Quot.sound]
'Verif.NormalsLump.always_written' depends on axioms: [propext, Classical.choice, Quot.sound]
'Verif.NormalsLump.kept_or_axis' depends on axioms: [propext, Classical.choice, Quot.sound]
'Verif.NormalsLump.hardly_moved' depends on axioms: [propext, Classical.choice, Quot.sound]
'Verif.NormalsLump.snapped' depends on axioms: [propext, Classical.choice, Quot.sound]
'Verif.Styles.arghrad_keys' depends on axioms: [propext, Classical.choice, Quot.sound]
'Verif.Styles.lights_loaded' depends on axioms: [propext, Classical.choice, Quot.sound]
'Verif.Styles.no_lights' depends on axioms: [propext, Quot.sound]
'Verif.Styles.arghrad_again' depends on axioms: [propext, Classical.choice, Quot.sound]
'Verif.Styles.arghrad_again_differs' depends on axioms: [propext, Classical.choice, Quot.sound]
'Verif.WalJson.numbers_given' depends on axioms: [propext, Quot.sound]
'Verif.WalJson.animation_given' depends on axioms: [propext, Quot.sound]
'Verif.WalJson.contents_given' depends on axioms: [propext, Quot.sound]
'Verif.WalJson.flags_given_partial' depends on axioms: [propext, Quot.sound]
'Verif.WalJson.flags_array' depends on axioms: [propext, Quot.sound]
'Verif.WalJson.color_given' depends on axioms: [propext, Quot.sound]
'Verif.WalJson.not_given' depends on axioms: [propext, Quot.sound]
'Verif.WalJson.json_used' depends on axioms: [propext, Quot.sound]
'Verif.WalJson.file_used' depends on axioms: [propext, Quot.sound]
'Verif.WalJson.wal_not_read' depends on axioms: [propext, Quot.sound]
'Verif.WalJson.light_lost' depends on axioms: [propext, Quot.sound]
'Verif.NodePortal.portal_in_region' depends on axioms: [propext, Classical.choice, Quot.sound]
'Verif.NodePortal.portal_edges' depends on axioms: [propext, Classical.choice, Quot.sound]
'Verif.NodePortal.portal_kept' depends on axioms: [propext, Classical.choice, Quot.sound]
'Verif.NodePortal.portal_fails' depends on axioms: [propext, Quot.sound]
'Verif.DebugExpand.map_expanded' depends on axioms: [propext, Classical.choice, Quot.sound]
'Verif.DebugExpand.brush_contained' depends on axioms: [propext, Classical.choice, Quot.sound]
'Verif.DebugExpand.no_map' depends on axioms: [propext, Quot.sound]
'Verif.DebugExpand.values_read' depends on axioms: [propext, Quot.sound]
'Verif.DebugExpand.digit_file' depends on axioms: [propext, Quot.sound]
'Verif.TexRemap.files_read' depends on axioms: [propext, Classical.choice, Quot.sound]
'Verif.TexRemap.face_remapped' depends on axioms: [propext]
'Verif.TexRemap.no_file' depends on axioms: [propext, Quot.sound]
'Verif.TexRemap.order_free' depends on axioms: [propext, Classical.choice, Quot.sound]
'Verif.TexRemap.order_matters' depends on axioms: [propext, Classical.choice, Quot.sound]
'Verif.TexRemap.last_line_open' depends on axioms: [propext, Quot.sound]
'Verif.TexRemap.empty_name' depends on axioms: [propext, Quot.sound]
'Verif.Alias.files_read' depends on axioms: [propext, Classical.choice, Quot.sound]
'Verif.Alias.alias_replaced' depends on axioms: [propext, Quot.sound]
'Verif.Alias.no_file' depends on axioms: [propext, Quot.sound]
'Verif.Alias.no_entity' depends on axioms: [propext, Classical.choice, Quot.sound]
'Verif.Alias.order_free' depends on axioms: [propext, Classical.choice, Quot.sound]
'Verif.Alias.order_matters' depends on axioms: [propext, Classical.choice, Quot.sound]
'Verif.Alias.last_brace_open' depends on axioms: [propext, Classical.choice, Quot.sound]
