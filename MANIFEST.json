{
 "claims": [
  {
   "property": "C01",
   "status": "proved",
   "theorems": [
    "Verif.VisRow.pvs_row_roundtrip",
    "Verif.VisRow.pvs_row_consumed"
   ],
   "note": "rows of every length and content, at any position in the lump"
  },
  {
   "property": "C02",
   "status": "proved",
   "theorems": [
    "Verif.VisRow.pvs_decompress_memory_safe",
    "Verif.VisRow.pvs_decompress_positions"
   ],
   "note": "arbitrary bytes, any offset inside the lump, any buffer size"
  },
  {
   "property": "C03",
   "status": "proved",
   "theorems": [
    "Verif.VisState.bitmap_roundtrip",
    "Verif.VisState.getBit_defined"
   ],
   "note": "every bitmap and leaf count"
  },
  {
   "property": "C04",
   "status": "proved",
   "theorems": [
    "Verif.VisState.compressBits_fits"
   ],
   "note": "every bitmap and leaf count; writes past the buffer are an explicit ub outcome"
  },
  {
   "property": "C05",
   "status": "proved",
   "theorems": [
    "Verif.VisState.state_roundtrip",
    "Verif.VisState.state_mismatch_rejected"
   ],
   "note": "every portal list"
  },
  {
   "property": "C06",
   "status": "partial",
   "theorems": [
    "Verif.VisState.crash_safe_partial",
    "Verif.VisState.save_then_resume",
    "Verif.VisState.crash_unsafe_first_save"
   ],
   "note": "the property is false of the code for the first save (torn temporary file is resumed from): negation proved; holds whenever a state file already exists"
  },
  {
   "property": "C07",
   "status": "proved",
   "theorems": [
    "Verif.Vis.every_portal_flowed_once",
    "Verif.Vis.one_worker_per_portal",
    "Verif.Vis.completion_leaves_others_alone",
    "Verif.Vis.some_worker_can_step",
    "Verif.Vis.schedule_terminates",
    "Verif.Vis.every_run_can_finish"
   ],
   "note": "every graph with fewer than 2^31-1 leafs, every interleaving, every chain of interrupted and resumed runs"
  },
  {
   "property": "C08",
   "status": "proved",
   "theorems": [
    "Verif.Vis.next_portal_is_cheapest",
    "Verif.Vis.next_portal_is_first",
    "Verif.Vis.next_portal_none"
   ],
   "note": "every portal table; that some portal is returned needs counts below INT_MAX, which C07's invariant provides"
  },
  {
   "property": "C09",
   "status": "proved",
   "theorems": [
    "Verif.Vis.full_vis_conservative",
    "Verif.Vis.fast_vis_conservative"
   ],
   "note": "the winding tests are an arbitrary function that does not reject stabbed walks (C99 and C100: the tests of the program do not, without tolerances); sight is an abstract relation closed under sub-walks and reversal (C100: straight lines are one); reads of other threads' bits are sequentially consistent; -visdist 0"
  },
  {
   "property": "C10",
   "status": "proved",
   "theorems": [
    "Verif.Vis.full_vis_within_fast_vis"
   ],
   "note": "no assumption on the winding tests"
  },
  {
   "property": "C11",
   "status": "proved",
   "theorems": [
    "Verif.Vis.base_flood_is_reachability"
   ],
   "note": "termination is part of the definition being accepted"
  },
  {
   "property": "C12",
   "status": "proved",
   "theorems": [
    "Verif.Vis.Rows.cluster_rows_are_unions",
    "Verif.Vis.Rows.unfinished_portal_is_an_error"
   ],
   "note": "every map whose portals are done and whose leafs have clusters"
  },
  {
   "property": "C13",
   "status": "partial",
   "theorems": [
    "Verif.Vis.Rows.phs_rows_partial",
    "Verif.Vis.Rows.phs_complete_on_whole_words_partial",
    "Verif.Vis.Rows.phs_misses_last_bytes"
   ],
   "note": "the property is false of the code: the last leafbytes % sizeof(long) bytes of a row are never or-ed; proved: exactly what is computed, and the property when rows are whole words"
  },
  {
   "property": "C14",
   "status": "partial",
   "theorems": [
    "Verif.Prt.numbering",
    "Verif.Prt.detail_shares_cluster",
    "Verif.Prt.every_cluster_used_partial",
    "Verif.Prt.empty_cluster"
   ],
   "note": "the partition is proved for every tree; \"none skipped\" is false for a detail group with only solid leafs (negation proved), proved for trees without one"
  },
  {
   "property": "C15",
   "status": "partial",
   "theorems": [
    "Verif.Prt.prt2_roundtrip_partial",
    "Verif.Prt.prt1_roundtrip",
    "Verif.Prt.q2_roundtrip",
    "Verif.Prt.write_succeeds",
    "Verif.Prt.mapping_lost",
    "Verif.Prt.empty_cluster_is_an_error"
   ],
   "note": "false when an empty cluster makes the counts equal (negation proved); proved for every other tree, together with all portals"
  },
  {
   "property": "C16",
   "status": "partial",
   "theorems": [
    "Verif.Prt.portals_in_range_partial",
    "Verif.Prt.points_refused",
    "Verif.Prt.cluster_map_in_range",
    "Verif.Prt.vis_safe_iff",
    "Verif.Prt.written_file_safe",
    "Verif.Prt.leaf_beyond_table",
    "Verif.Prt.truncated_hangs",
    "Verif.Prt.short_header_undefined",
    "Verif.Prt.am_map_outside",
    "Verif.Prt.foreign_prt_outside",
    "Verif.Prt.am_never_loads_more_leafs"
   ],
   "note": "false of the code: leaf number equal to the count accepted, endless loop on truncated files, uninitialised variables, PRT1-AM table too small (all proved); proved: what is checked, and exactly which loaded files are safe"
  },
  {
   "property": "C17",
   "status": "partial",
   "theorems": [
    "Verif.EntData.dict_is_a_map_partial",
    "Verif.EntData.get_has_spec",
    "Verif.EntData.order_of_keys",
    "Verif.EntData.rename_leaves_duplicate"
   ],
   "note": "false for renaming onto a present key (negation proved); proved for every other history"
  },
  {
   "property": "C18",
   "status": "proved",
   "theorems": [
    "Verif.EntData.entities_roundtrip",
    "Verif.EntData.empty_entity_string_undefined",
    "Verif.EntData.key_ending_in_backslash_breaks",
    "Verif.EntData.bare_quote_breaks"
   ],
   "note": "every non-empty list of entities whose strings can stand between quotes"
  },
  {
   "property": "C19",
   "status": "partial",
   "theorems": [
    "Verif.EntData.key_trimmed_partial",
    "Verif.EntData.trailing_space_undefined"
   ],
   "note": "leading white space proved; trailing white space is undefined behaviour for every such key"
  },
  {
   "property": "C20",
   "status": "proved",
   "theorems": [
    "Verif.Parser.tokenizer_in_bounds",
    "Verif.Parser.string_histories_in_bounds",
    "Verif.Parser.successful_read_progresses"
   ],
   "note": "termination is part of the definitions being accepted; char is signed"
  },
  {
   "property": "C21",
   "status": "proved",
   "theorems": [
    "Verif.Parser.peek_shows_next_read",
    "Verif.Parser.peek_fails_with_next_read",
    "Verif.Parser.save_restore"
   ],
   "note": ""
  },
  {
   "property": "C22",
   "status": "proved",
   "theorems": [
    "Verif.BspFile.write_layout"
   ],
   "note": "files below 2 GiB; the format's offsets are 32-bit"
  },
  {
   "property": "C23",
   "status": "partial",
   "theorems": [
    "Verif.BspFile.write_load_partial",
    "Verif.BspFile.quake_loaded_as_hexen2"
   ],
   "note": "Quake/Hexen II detection can confuse files: a Quake file without models is loaded as Hexen II"
  },
  {
   "property": "C24",
   "status": "partial",
   "theorems": [
    "Verif.BspFile.bspx_inside_partial",
    "Verif.BspFile.bspx_entry_partial",
    "Verif.BspFile.bspx_wraps",
    "Verif.BspFile.bspx_before_file"
   ],
   "note": "the 32-bit sum of offset and length can overflow; a negative lump end makes the loader read before the file"
  },
  {
   "property": "C25",
   "status": "proved",
   "theorems": [
    "Verif.BspFile.numeric_cast_exact",
    "Verif.BspFile.limits"
   ],
   "note": "for the eight fixed-width integer types"
  },
  {
   "property": "C26",
   "status": "proved",
   "theorems": [
    "Verif.BspFile.convert_all_or_nothing",
    "Verif.BspFile.convert_there_and_back",
    "Verif.BspFile.convert_and_load_back",
    "Verif.BspFile.convert_unsupported",
    "Verif.BspFile.box_nan_undefined"
   ],
   "note": "for boxes without NaN (a NaN box end converted to 16 bits is undefined behaviour, shown by box_nan_undefined); box ends come back rounded outwards"
  },
  {
   "property": "C27",
   "status": "proved",
   "theorems": [
    "Verif.BspFile.clipnode_child_roundtrip"
   ],
   "note": ""
  },
  {
   "property": "C28",
   "status": "partial",
   "theorems": [
    "Verif.BspFile.file_box_contains_partial",
    "Verif.BspFile.q2_leaf_box_shrinks",
    "Verif.BspFile.q2_leaf_box_partial"
   ],
   "note": "false for the upper corner of Quake II leafs (negation proved); proved for every other box"
  },
  {
   "property": "C29",
   "status": "proved",
   "theorems": [
    "Verif.BspFile.vis_roundtrip",
    "Verif.BspFile.vis_offsets"
   ],
   "note": "a lump with clusters has data and conversely"
  },
  {
   "property": "C30",
   "status": "proved",
   "theorems": [
    "Verif.BspFile.tex_roundtrip",
    "Verif.BspFile.tex_loaded",
    "Verif.BspFile.tex_size",
    "Verif.BspFile.tex_short_ub",
    "Verif.BspFile.tex_name_ub"
   ],
   "note": "textures with a complete header and a terminated name; others are undefined behaviour (tex_short_ub, tex_name_ub)"
  },
  {
   "property": "C31",
   "status": "proved",
   "theorems": [
    "Verif.Stream.little_endian_layout",
    "Verif.Stream.little_endian_roundtrip",
    "Verif.Stream.scalar_roundtrip",
    "Verif.Stream.record_roundtrip"
   ],
   "note": ""
  },
  {
   "property": "C32",
   "status": "partial",
   "theorems": [
    "Verif.BspFile.lit_payload_partial",
    "Verif.BspFile.lit_not_exact",
    "Verif.BspFile.lit_refused"
   ],
   "note": "one additional byte is always appended"
  },
  {
   "property": "C33",
   "status": "partial",
   "theorems": [
    "Verif.BspFile.brushlist_roundtrip_partial",
    "Verif.BspFile.brush_faces_lost"
   ],
   "note": "brushes with fewer than 65536 faces; the count is truncated to 16 bits"
  },
  {
   "property": "C34",
   "status": "proved",
   "theorems": [
    "Verif.Contents.q1_native_roundtrip"
   ],
   "note": "all integers"
  },
  {
   "property": "C35",
   "status": "proved",
   "theorems": [
    "Verif.Contents.q2_native_roundtrip",
    "Verif.Contents.q2_native_rejects"
   ],
   "note": "all 2^32 values, by a bit-level argument"
  },
  {
   "property": "C36",
   "status": "proved",
   "theorems": [
    "Verif.Contents.visible_contents_is_strongest",
    "Verif.Contents.visible_contents_iff"
   ],
   "note": "all contents values"
  },
  {
   "property": "C37",
   "status": "proved",
   "theorems": [
    "Verif.Contents.leaf_contents_order_independent",
    "Verif.Contents.leaf_contents_repeat",
    "Verif.Contents.q1_leaf_contents_meaning",
    "Verif.Contents.q2_leaf_contents_meaning",
    "Verif.Contents.cluster_contents_meaning",
    "Verif.Contents.cluster_contents_order_independent"
   ],
   "note": "both games"
  },
  {
   "property": "C38",
   "status": "proved",
   "theorems": [
    "Verif.Contents.see_through_symmetric",
    "Verif.Contents.see_through_solid_blocks",
    "Verif.Contents.see_through_same_visible"
   ],
   "note": "both games"
  },
  {
   "property": "C39",
   "status": "partial",
   "theorems": [
    "Verif.Contents.q1_opaque_liquids_block",
    "Verif.Contents.q2_opaque_water_does_not_block",
    "Verif.Contents.q2_see_through_volumes_block",
    "Verif.Contents.q2_see_through_partial"
   ],
   "note": "proved for Quake; false for Quake II (inverted comparison in the last line of portal_can_see_through): negations proved with concrete contents"
  },
  {
   "property": "C40",
   "status": "proved",
   "theorems": [
    "Verif.Contents.mirror_tristate",
    "Verif.Contents.clips_same_type_sticky"
   ],
   "note": "proved for every previous value"
  },
  {
   "property": "C41",
   "status": "proved",
   "theorems": [
    "Verif.Contents.Q1.q1_leaf_export_representable",
    "Verif.Contents.Q1.q1_clip_leaf_export"
   ],
   "note": "from texture names and options to exported leaf, for all brush sets"
  },
  {
   "property": "C42",
   "status": "proved",
   "theorems": [
    "Verif.Settings.latest_of_highest_source",
    "Verif.Settings.latest_unique",
    "Verif.Settings.reset_restarts",
    "Verif.Settings.higher_source_prevails",
    "Verif.Settings.key_changes_only_its_option"
   ],
   "note": ""
  },
  {
   "property": "C43",
   "status": "partial",
   "theorems": [
    "Verif.Settings.int_options_in_range",
    "Verif.Settings.scalar_options_in_range_partial",
    "Verif.Settings.nan_escapes_the_range",
    "Verif.Settings.int_key_is_clamped_partial",
    "Verif.Settings.int_arg_is_clamped_partial",
    "Verif.Settings.big_number_not_clamped"
   ],
   "note": "range proved for integers; false for scalars given \"nan\"; numbers from 2^31 on are truncated before the clamp (negations proved)"
  },
  {
   "property": "C44",
   "status": "partial",
   "theorems": [
    "Verif.Settings.bool_on_command_line",
    "Verif.Settings.invertible_on_command_line",
    "Verif.Settings.bool_as_map_key",
    "Verif.Settings.invertible_as_map_key_partial",
    "Verif.Settings.underscore_no_is_not_inverted"
   ],
   "note": "false for invertible options written _noname (negation proved)"
  },
  {
   "property": "C45",
   "status": "proved",
   "theorems": [
    "Verif.Geom.clip_stays_on_side",
    "Verif.Geom.clip_vertices",
    "Verif.Geom.clip_keeps_vertices",
    "Verif.Geom.clip_keeps_boundary",
    "Verif.Geom.clip_edges"
   ],
   "note": "for exact arithmetic and unit normals"
  },
  {
   "property": "C46",
   "status": "proved",
   "theorems": [
    "Verif.Geom.clip_front_back_agree"
   ],
   "note": "exact arithmetic"
  },
  {
   "property": "C47",
   "status": "partial",
   "theorems": [
    "Verif.Geom.Storage.storage_is_array_partial",
    "Verif.Geom.Storage.storage_stale"
   ],
   "note": "false of the code: points left in the vector after a clear come back (negation proved for every N); proved for every history without such a push"
  },
  {
   "property": "C48",
   "status": "partial",
   "theorems": [
    "Verif.Geom.Box.containsPoint_iff",
    "Verif.Geom.Box.contains_iff",
    "Verif.Geom.Box.union_in_place",
    "Verif.Geom.Box.union_contains",
    "Verif.Geom.Box.union_least",
    "Verif.Geom.Box.expand_least",
    "Verif.Geom.Box.intersect_iff",
    "Verif.Geom.Box.disjoint_iff",
    "Verif.Geom.Box.disjoint_or_touching_iff",
    "Verif.Geom.Box.union_empty_left_partial",
    "Verif.Geom.Box.union_empty_right",
    "Verif.Geom.Box.bounds_least",
    "Verif.Geom.Box.grow_translate_inside"
   ],
   "note": "all laws proved except that the empty box is neutral only on the left (negation on the right proved)"
  },
  {
   "property": "C49",
   "status": "proved",
   "theorems": [
    "Verif.Tree.clip_lookup_parent",
    "Verif.Tree.point_lookup",
    "Verif.Tree.point_in_solid",
    "Verif.Tree.visit_leafs",
    "Verif.Tree.point_in_leaf"
   ],
   "note": "for every file tree that is sound from the head node and whose node planes carry the right type; distances exact"
  },
  {
   "property": "C50",
   "status": "proved",
   "theorems": [
    "Verif.Flood.flood_occupied",
    "Verif.Flood.flood_void"
   ],
   "note": "leafs and portals as in C78; unbounded int"
  },
  {
   "property": "C51",
   "status": "partial",
   "theorems": [
    "Verif.Flood.leak_iff",
    "Verif.Flood.leak_no_entity",
    "Verif.Flood.fill_ends",
    "Verif.Flood.leak_iff_rim",
    "Verif.Flood.leak_missed"
   ],
   "note": "the code looks at one leaf on the rim only: the equivalence holds for that leaf (leak_iff), and for the whole rim if the open rim leafs are connected (leak_iff_rim); without that a leak can be missed (leak_missed)"
  },
  {
   "property": "C52",
   "status": "proved",
   "theorems": [
    "Verif.Flood.leak_line"
   ],
   "note": ""
  },
  {
   "property": "C53",
   "status": "proved",
   "theorems": [
    "Verif.Flood.fill_contents"
   ],
   "note": ""
  },
  {
   "property": "C54",
   "status": "proved",
   "theorems": [
    "Verif.Flood.areas_partition",
    "Verif.Flood.areas_none",
    "Verif.Flood.areaWellFormed_of_tree"
   ],
   "note": "reachable means marked by a fill from the inside or by detail filling; without either there are no areas at all (areas_none)"
  },
  {
   "property": "C55",
   "status": "proved",
   "theorems": [
    "Verif.Tree.prune_solid",
    "Verif.Tree.prune_keeps_leafs",
    "Verif.Tree.prune_no_two_solid",
    "Verif.Tree.prune_count",
    "Verif.Tree.prune_exported_contents",
    "Verif.Tree.prune_brushes_kept",
    "Verif.Tree.prune_brushes_only"
   ],
   "note": "solid counts func_detail_wall leafs in Quake, which become solid in the file"
  },
  {
   "property": "C56",
   "status": "proved",
   "theorems": [
    "Verif.Tree.clip_export",
    "Verif.Tree.clip_export_appends",
    "Verif.Tree.clip_export_total",
    "Verif.Tree.start_exported"
   ],
   "note": "planes rounded as in the file; node planes even-numbered (see C77)"
  },
  {
   "property": "C57",
   "status": "partial",
   "theorems": [
    "Verif.Tree.leaf_zero",
    "Verif.Tree.draw_export_partial",
    "Verif.Tree.draw_visleafs",
    "Verif.Tree.draw_appends",
    "Verif.Tree.draw_export_total",
    "Verif.Tree.draw_export_leaf_head",
    "Verif.Tree.draw_export_leaf_head_next"
   ],
   "note": "proved for trees with at least one node; for a tree that is a single leaf the recorded head node refers to no node of the model (draw_export_leaf_head, draw_export_leaf_head_next)"
  },
  {
   "property": "C58",
   "status": "partial",
   "theorems": [
    "Verif.Faces.split_limit",
    "Verif.Faces.limit_first",
    "Verif.Faces.limit_not_applied"
   ],
   "note": "proved for a face that is alone in the list; when triangulation or retopology made several faces only the first one is ever split (limit_first, limit_not_applied)"
  },
  {
   "property": "C59",
   "status": "proved",
   "theorems": [
    "Verif.Faces.merge_list",
    "Verif.Faces.merge_list_measure"
   ],
   "note": "for every merge predicate"
  },
  {
   "property": "C60",
   "status": "proved",
   "theorems": [
    "Verif.Faces.edge_vertices",
    "Verif.Faces.edge_vertices_exact",
    "Verif.Faces.edge_degenerate"
   ],
   "note": "exact arithmetic; the conversion of the bounds to float is a parameter, and the order along the edge is strict only up to it (edge_vertices_exact: without rounding)"
  },
  {
   "property": "C61",
   "status": "proved",
   "theorems": [
    "Verif.Cmdlib.crcBlock_correct",
    "Verif.Cmdlib.crc_detects_one_byte",
    "Verif.Cmdlib.crcBlock_negative"
   ],
   "note": "a negative count, passed for an empty entity lump, is undefined behaviour"
  },
  {
   "property": "C62",
   "status": "partial",
   "theorems": [
    "Verif.Cmdlib.iequals_spec",
    "Verif.Cmdlib.iequals_equivalence",
    "Verif.Cmdlib.iequals_hash",
    "Verif.Cmdlib.container_equal_hash_partial",
    "Verif.Cmdlib.container_equal_hash_nul",
    "Verif.Cmdlib.container_equal_equivalence"
   ],
   "note": "complete for string_iequals; the comparison paired with the hash in containers agrees only for strings without NUL bytes (negation proved)"
  },
  {
   "property": "C63",
   "status": "proved",
   "theorems": [
    "Verif.Cmdlib.replaceAll_correct",
    "Verif.Cmdlib.replace_split_unique",
    "Verif.Cmdlib.replaceAll_empty"
   ],
   "note": ""
  },
  {
   "property": "C64",
   "status": "partial",
   "theorems": [
    "Verif.Cmdlib.natural_asymm_partial",
    "Verif.Cmdlib.natural_key_partial",
    "Verif.Cmdlib.natural_strict_weak_partial",
    "Verif.Cmdlib.natural_diverging_partial",
    "Verif.Cmdlib.natural_not_transitive",
    "Verif.Cmdlib.natural_unordered_not_transitive"
   ],
   "note": "false: not transitive with superfluous leading zeros (negation proved)"
  },
  {
   "property": "C65",
   "status": "partial",
   "theorems": [
    "Verif.Parser.file_read_past_end",
    "Verif.Parser.file_in_bounds_partial"
   ],
   "note": "false: file contents are not NUL-terminated (negation proved); proved for files ending in a newline, except unterminated quotes"
  },
  {
   "property": "C66",
   "status": "proved",
   "theorems": [
    "Verif.Parser.token_is_verbatim",
    "Verif.Parser.no_token_means_nothing_left",
    "Verif.Parser.comment_is_verbatim"
   ],
   "note": ""
  },
  {
   "property": "C67",
   "status": "partial",
   "theorems": [
    "Verif.Parser.line_counts_newlines_partial",
    "Verif.Parser.newlines_in_quotes_not_counted"
   ],
   "note": "false for newlines inside quoted tokens"
  },
  {
   "property": "C68",
   "status": "proved",
   "theorems": [
    "Verif.Settings.remainder_is_suffix"
   ],
   "note": ""
  },
  {
   "property": "C69",
   "status": "proved",
   "theorems": [
    "Verif.Settings.aliases_agree"
   ],
   "note": "invertible options are covered by C44"
  },
  {
   "property": "C70",
   "status": "proved",
   "theorems": [
    "Verif.Settings.redirect_sets_all_targets"
   ],
   "note": ""
  },
  {
   "property": "C71",
   "status": "partial",
   "theorems": [
    "Verif.Settings.enum_value_is_named_partial",
    "Verif.Settings.enum_takes_undeclared_value"
   ],
   "note": "false: any integer is accepted (negation proved)"
  },
  {
   "property": "C72",
   "status": "partial",
   "theorems": [
    "Verif.Settings.command_line_diagnosed_partial",
    "Verif.Settings.stray_hyphen_undefined",
    "Verif.Settings.map_key_diagnosed_partial",
    "Verif.Settings.empty_key_undefined"
   ],
   "note": "false for \"-\" and for empty values (front() on an empty string, negation proved)"
  },
  {
   "property": "C73",
   "status": "proved",
   "theorems": [
    "Verif.Cmdlib.iless_strict_weak"
   ],
   "note": ""
  },
  {
   "property": "C74",
   "status": "partial",
   "theorems": [
    "Verif.Stream.memory_stream_read_partial",
    "Verif.Stream.memory_stream_write_partial",
    "Verif.Stream.memory_stream_failed",
    "Verif.Stream.size_stream_counts",
    "Verif.Stream.memory_stream_overread",
    "Verif.Stream.memory_stream_overwrite"
   ],
   "note": "false for requests that straddle the end (negations proved); proved for all others"
  },
  {
   "property": "C75",
   "status": "proved",
   "theorems": [
    "Verif.BspFile.facenormals_roundtrip",
    "Verif.BspFile.decoupled_roundtrip"
   ],
   "note": ""
  },
  {
   "property": "C76",
   "status": "proved",
   "theorems": [
    "Verif.BspFile.lit_write_load"
   ],
   "note": "one additional byte follows the samples (C32)"
  },
  {
   "property": "C77",
   "status": "proved",
   "theorems": [
    "Verif.Tree.planes_pairs",
    "Verif.Tree.plane_numbers",
    "Verif.Tree.plane_added_only_if_new",
    "Verif.Tree.fast_distance",
    "Verif.Tree.fast_distance_odd_wrong"
   ],
   "note": "exact arithmetic; the spatial map is an oracle that yields any entry in the box"
  },
  {
   "property": "C78",
   "status": "proved",
   "theorems": [
    "Verif.Flood.tree_portals",
    "Verif.Flood.vis_portals",
    "Verif.Flood.joins_ne",
    "Verif.Flood.wellFormed_of_tree"
   ],
   "note": "windings are abstract"
  },
  {
   "property": "C79",
   "status": "proved",
   "theorems": [
    "Verif.Flood.link_lists"
   ],
   "note": ""
  },
  {
   "property": "C80",
   "status": "proved",
   "theorems": [
    "Verif.Flood.fill_detail"
   ],
   "note": ""
  },
  {
   "property": "C81",
   "status": "proved",
   "theorems": [
    "Verif.Flood.sides_visible",
    "Verif.Flood.sides_other"
   ],
   "note": "the search for the side of a portal is a parameter"
  },
  {
   "property": "C82",
   "status": "proved",
   "theorems": [
    "Verif.Flood.leak_trail",
    "Verif.Flood.leak_file",
    "Verif.Flood.leak_corners",
    "Verif.Flood.leak_endless"
   ],
   "note": "exact arithmetic"
  },
  {
   "property": "C83",
   "status": "proved",
   "theorems": [
    "Verif.Flood.areas_of_portal",
    "Verif.Flood.area_records",
    "Verif.Flood.records_symm",
    "Verif.Flood.areas_off"
   ],
   "note": "warnings are left out"
  },
  {
   "property": "C84",
   "status": "proved",
   "theorems": [
    "Verif.Flood.shortest_path"
   ],
   "note": ""
  },
  {
   "property": "C85",
   "status": "proved",
   "theorems": [
    "Verif.Faces.superface_free"
   ],
   "note": "exact arithmetic apart from the conversion of the bounds"
  },
  {
   "property": "C86",
   "status": "proved",
   "theorems": [
    "Verif.Faces.welds_symm",
    "Verif.Faces.welds_iff",
    "Verif.Faces.interacts_symm",
    "Verif.Faces.interacts_refl"
   ],
   "note": ""
  },
  {
   "property": "C87",
   "status": "partial",
   "theorems": [
    "Verif.Faces.fragments_region_partial",
    "Verif.Faces.mwt_face_region",
    "Verif.Faces.rotated_region",
    "Verif.Faces.retopology_account",
    "Verif.Faces.retopology_hole"
   ],
   "note": "holds for all levels unless retopology makes a cut behind its seed; such a cut loses one triangle (retopology_account says which, retopology_hole is a concrete face); the geometric tests are parameters"
  },
  {
   "property": "C88",
   "status": "proved",
   "theorems": [
    "Verif.Faces.rotation_valid",
    "Verif.Faces.rotation_found",
    "Verif.Faces.mwt_optimal"
   ],
   "note": "exact arithmetic"
  },
  {
   "property": "C89",
   "status": "proved",
   "theorems": [
    "Verif.Faces.merge_attributes",
    "Verif.Faces.merge_convex",
    "Verif.Faces.merge_convex_exact"
   ],
   "note": "exact arithmetic; faces that meet within a tolerance only are not covered; no third vertex on the line of the common edge"
  },
  {
   "property": "C90",
   "status": "proved",
   "theorems": [
    "Verif.Emit.emit_faces",
    "Verif.Emit.emit_keeps",
    "Verif.Emit.emit_edge_use",
    "Verif.Emit.emit_succeeds"
   ],
   "note": "planes come in pairs (C77); rounding to float is an odd function"
  },
  {
   "property": "C91",
   "status": "partial",
   "theorems": [
    "Verif.Emit.emitted_vertices",
    "Verif.Emit.emitted_vertices_stay",
    "Verif.Emit.shared_point_partial",
    "Verif.Emit.shared_point_false"
   ],
   "note": "the same point on two faces may be given two vertices, at most twice the tolerance apart; exact arithmetic before the conversion to float"
  },
  {
   "property": "C92",
   "status": "proved",
   "theorems": [
    "Verif.Emit.texinfo_found",
    "Verif.Emit.texinfo_stable",
    "Verif.Emit.texinfo_animated",
    "Verif.Emit.texinfo_ends"
   ],
   "note": ""
  },
  {
   "property": "C93",
   "status": "proved",
   "theorems": [
    "Verif.Emit.texinfos_exported",
    "Verif.Emit.texinfo_export_ends"
   ],
   "note": "surface flags are an arbitrary type with the two tests the export makes"
  },
  {
   "property": "C94",
   "status": "proved",
   "theorems": [
    "Verif.BrushBsp.brush_bsp_ends"
   ],
   "note": "exact arithmetic; the measure of planes and the choice of middle planes are arbitrary"
  },
  {
   "property": "C95",
   "status": "partial",
   "theorems": [
    "Verif.BrushBsp.leaf_keeps_brushes",
    "Verif.BrushBsp.leaf_contents"
   ],
   "note": "exact arithmetic; the point is more than 0.1 off the planes it passes and the cuts on its way are clean: both halves are kept and no tolerance plays a role. Exactness needs the point to be behind the polygons in its leaf that no node uses (C97 says when there are such polygons)"
  },
  {
   "property": "C96",
   "status": "partial",
   "theorems": [
    "Verif.BrushBsp.windings_close_partial",
    "Verif.BrushBsp.from_plane_ok",
    "Verif.BrushBsp.Ex2.windings_undefined"
   ],
   "note": "no bevels, no vertex near a plane without being on it, and every side that touches the brush gets a polygon; a brush that leaves the world leads to undefined behaviour"
  },
  {
   "property": "C97",
   "status": "partial",
   "theorems": [
    "Verif.BrushBsp.structural_first",
    "Verif.BrushBsp.leaf_done",
    "Verif.BrushBsp.leaf_done_small",
    "Verif.BrushBsp.node_marks",
    "Verif.BrushBsp.hint_last_partial",
    "Verif.BrushBsp.Ex.mid_unmarked",
    "Verif.BrushBsp.Ex.leaf_not_done",
    "Verif.BrushBsp.Ex.hint_split"
   ],
   "note": "the claim is false for middle planes (no mark), for planes with a value of at most -99999 and for hint sides of brushes other than the last"
  },
  {
   "property": "C98",
   "status": "partial",
   "theorems": [
    "Verif.BrushBsp.check_of_split",
    "Verif.BrushBsp.check_iff_split",
    "Verif.BrushBsp.Ex.check_not_split"
   ],
   "note": "the claim is false for brushes that touch the end of the world on the second or third axis"
  },
  {
   "property": "C99",
   "status": "partial",
   "theorems": [
    "Verif.Vis.clip_keeps_partial",
    "Verif.Vis.clip_cuts",
    "Verif.Vis.separator_keeps_partial",
    "Verif.Vis.keeps_false"
   ],
   "note": "exact arithmetic and comparisons without a tolerance; with the tolerance of the program a strip of a winding narrower than 0.1 is dropped"
  },
  {
   "property": "C100",
   "status": "partial",
   "theorems": [
    "Verif.Vis.full_vis_sees_partial",
    "Verif.Vis.vis_loses_leaf"
   ],
   "note": "exact arithmetic and comparisons without a tolerance; lines steeper than the tolerance of the test for equal planes; with the tolerance of the program the claim is false for slits narrower than 0.1"
  },
  {
   "property": "C101",
   "status": "partial",
   "theorems": [
    "Verif.Vis.fast_vis_sees",
    "Verif.Vis.visdist_limit",
    "Verif.Vis.vis_loses_leaf"
   ],
   "note": "exact arithmetic; with the tolerance of the program for lines that are at each portal at least that far away from the planes of the others; false for other lines"
  },
  {
   "property": "C102",
   "status": "proved",
   "theorems": [
    "Verif.BrushBsp.chop_ends"
   ],
   "note": "exact arithmetic; clean cuts: both halves are kept and no tolerance plays a role in the polygon of the cut"
  },
  {
   "property": "C103",
   "status": "partial",
   "theorems": [
    "Verif.BrushBsp.chop_keeps_points",
    "Verif.BrushBsp.Ex.chop_loses_points"
   ],
   "note": "exact arithmetic; the cuts are clean and no vertex is nearer than 0.1 to a plane without being on it. Without that the claim is false: what reaches less than 0.1 out of another brush is lost"
  },
  {
   "property": "C104",
   "status": "partial",
   "theorems": [
    "Verif.BrushBsp.chop_no_overlap_partial",
    "Verif.BrushBsp.Ex.chopped_brushes_overlap"
   ],
   "note": "brushes that stay whole overlap no later brush; the claim is false for pieces: those of the current brush are not looked at again"
  },
  {
   "property": "C105",
   "status": "proved",
   "theorems": [
    "Verif.BrushBsp.chop_leaves_others",
    "Verif.BrushBsp.chop_no_fragments"
   ],
   "note": "exact arithmetic, which plays no role"
  },
  {
   "property": "C106",
   "status": "proved",
   "theorems": [
    "Verif.Light.lightmaps_stored",
    "Verif.Light.vanilla_stored"
   ],
   "note": "no face that has lightmaps in two sizes may have a larger one in the standard size (otherwise false, see C113); -litonly is in C120"
  },
  {
   "property": "C107",
   "status": "proved",
   "theorems": [
    "Verif.Light.lightmaps_apart"
   ],
   "note": "the reserved ranges at the recorded offsets"
  },
  {
   "property": "C108",
   "status": "partial",
   "theorems": [
    "Verif.Light.size_fixed",
    "Verif.Light.Ex.layout_varies"
   ],
   "note": "false: the offsets depend on the schedule; the amount of data does not"
  },
  {
   "property": "C109",
   "status": "partial",
   "theorems": [
    "Verif.Light.save_succeeds",
    "Verif.Light.run_exists",
    "Verif.Light.Ex.offset_overflow"
   ],
   "note": "holds if three times the data fits into an int; otherwise an offset overflows before the check"
  },
  {
   "property": "C110",
   "status": "partial",
   "theorems": [
    "Verif.Light.kept_brightest",
    "Verif.Light.kept_limit",
    "Verif.Light.sortable_iff",
    "Verif.Light.sortable_q2",
    "Verif.Light.Ex.style_256_dropped"
   ],
   "note": "lightmaps of styles above 255 are dropped also when styles are written with 16 bits"
  },
  {
   "property": "C111",
   "status": "partial",
   "theorems": [
    "Verif.Light.styles_recorded_partial",
    "Verif.Light.unlit_marked",
    "Verif.Light.Ex.stale_offset",
    "Verif.Light.Ex.style_255_lost"
   ],
   "note": "false for style 255, which is also the end mark, and for unlit faces with extended lumps"
  },
  {
   "property": "C112",
   "status": "partial",
   "theorems": [
    "Verif.Light.lumps_readable_partial"
   ],
   "note": "as long as no light has style 255"
  },
  {
   "property": "C113",
   "status": "partial",
   "theorems": [
    "Verif.Light.sup_face_unlit",
    "Verif.Light.both_same_offset",
    "Verif.Light.Ex.vanilla_lost",
    "Verif.Light.Ex.neighbour_destroyed",
    "Verif.Light.Ex.coarse_fails",
    "Verif.Light.lightmaps_stored"
   ],
   "note": "false; only the lightmaps in their own size are stored reliably"
  },
  {
   "property": "C114",
   "status": "partial",
   "theorems": [
    "Verif.Light.Ex.lit2_complete_partial",
    "Verif.Light.Ex.lit2_empty",
    "Verif.Light.Ex.lit2_no_directions"
   ],
   "note": "true only if the BSP file had the same amount of lightmap data before and directions are computed"
  },
  {
   "property": "C115",
   "status": "proved",
   "theorems": [
    "Verif.Light.flood_fills"
   ],
   "note": "ends after at most one round more than there are hidden samples"
  },
  {
   "property": "C116",
   "status": "proved",
   "theorems": [
    "Verif.Light.lightmap_written"
   ],
   "note": "colours are rational numbers; the normalisation of directions is a parameter"
  },
  {
   "property": "C117",
   "status": "proved",
   "theorems": [
    "Verif.Light.lightmap_local"
   ],
   "note": "stated with bounds: if the samples within reach are visible and between two bounds, so is the result"
  },
  {
   "property": "C118",
   "status": "partial",
   "theorems": [
    "Verif.Light.scaled_in_range",
    "Verif.Light.scaled_maxlight",
    "Verif.Light.scaled_ratio",
    "Verif.Light.any_light_written",
    "Verif.Light.ImgEx.colorscale_undefined",
    "Verif.Light.ImgEx.maxlight_undefined"
   ],
   "note": "for a _lightcolorscale from 0 to 1 and a _maxlight that is not negative; false otherwise, and the program accepts such values"
  },
  {
   "property": "C119",
   "status": "partial",
   "theorems": [
    "Verif.Light.decoupled_written_partial",
    "Verif.Light.ImgEx.decoupled_undefined",
    "Verif.Light.decoupled_black"
   ],
   "note": "for the coloured data and samples that do not lie before the first sample; otherwise undefined; the greyscale data is always black"
  },
  {
   "property": "C120",
   "status": "partial",
   "theorems": [
    "Verif.Light.litonly_stored",
    "Verif.Light.litonly_succeeds",
    "Verif.Light.litRun_exists",
    "Verif.Light.litonly_after_light",
    "Verif.Light.ImgEx.litonly_undefined"
   ],
   "note": "if the lightmaps have the sizes with which the BSP file was made; otherwise bytes are written beyond the end of the data"
  },
  {
   "property": "C121",
   "status": "proved",
   "theorems": [
    "Verif.LightGrid.octree_lump_tells",
    "Verif.LightGrid.finds_unique"
   ],
   "note": "stated with a separate reader of the lump; samples as C126 gives them"
  },
  {
   "property": "C122",
   "status": "proved",
   "theorems": [
    "Verif.LightGrid.octree_leafs_divide"
   ],
   "note": "for the leafs that the separate reader reads from the lump"
  },
  {
   "property": "C123",
   "status": "partial",
   "theorems": [
    "Verif.LightGrid.light_grid_tells_partial",
    "Verif.LightGrid.light_grid_schedule",
    "Verif.LightGrid.light_grid_zero_distance",
    "Verif.LightGrid.light_grid_too_large"
   ],
   "note": "for positive distances, bounds with an extent on each axis, and less than 2^31 points; a distance of zero or more points are undefined"
  },
  {
   "property": "C124",
   "status": "partial",
   "theorems": [
    "Verif.LightGrid.grid_near_partial",
    "Verif.LightGrid.grid_never_reaches_top"
   ],
   "note": "only the grid point below exists; the last one always lies below the upper limit of the bounds"
  },
  {
   "property": "C125",
   "status": "partial",
   "theorems": [
    "Verif.LightGrid.styles_summed_partial",
    "Verif.LightGrid.slots_well_formed",
    "Verif.LightGrid.fifth_style",
    "Verif.LightGrid.brighter_style_lost"
   ],
   "note": "the sum for at most four styles; with more, a style can be lost to a dimmer one"
  },
  {
   "property": "C126",
   "status": "partial",
   "theorems": [
    "Verif.LightGrid.scale_bounds_partial",
    "Verif.LightGrid.scale_keeps_hue",
    "Verif.LightGrid.calc_writable_partial",
    "Verif.LightGrid.scale_negative_limit"
   ],
   "note": "if _maxlight and -range are not negative; undefined for a negative _maxlight at a point without light"
  },
  {
   "property": "C127",
   "status": "proved",
   "theorems": [
    "Verif.Archive.pak_faithful",
    "Verif.Archive.wad_faithful"
   ],
   "note": "for archives whose directory and files lie within the file and whose names are terminated; others are C128"
  },
  {
   "property": "C128",
   "status": "partial",
   "theorems": [
    "Verif.Archive.open_pak_partial",
    "Verif.Archive.open_wad_partial",
    "Verif.Archive.truncated_pak_ub",
    "Verif.Archive.long_name_ub",
    "Verif.Archive.cut_file_spoils_others",
    "Verif.Archive.load_size"
   ],
   "note": "the exact condition for opening; otherwise a header or directory that is cut short, or a name without NUL, is undefined behaviour, and after one cut-off file every later load gives zeros"
  },
  {
   "property": "C129",
   "status": "partial",
   "theorems": [
    "Verif.Archive.search_order_partial",
    "Verif.Archive.load_contents_partial",
    "Verif.Archive.search_direct",
    "Verif.Archive.default_order_differs",
    "Verif.Archive.directory_hides_file"
   ],
   "note": "the order as the code has it; the documented order does not hold by default, and a directory can be answered for a file"
  },
  {
   "property": "C130",
   "status": "proved",
   "theorems": [
    "Verif.Archive.registered_once",
    "Verif.Archive.calls_extend",
    "Verif.Archive.add_again",
    "Verif.Archive.add_refused",
    "Verif.Archive.registered_faithful"
   ],
   "note": "for any sequence of calls"
  },
  {
   "property": "C131",
   "status": "partial",
   "theorems": [
    "Verif.Archive.search_again_partial",
    "Verif.Archive.plain_search_pure",
    "Verif.Archive.load_again_partial",
    "Verif.Archive.direct_load_interferes"
   ],
   "note": "repeated calls agree, and searches without an archive path change nothing; a path through an archive registers the archive and changes later searches"
  },
  {
   "property": "C132",
   "status": "partial",
   "theorems": [
    "Verif.Archive.extract_textures_partial",
    "Verif.Archive.palettes_shift_textures"
   ],
   "note": "for textures of exactly the size of Quake's, in a wad below 2 GB; with a palette, as in Half-Life, the textures after it are wrong"
  },
  {
   "property": "C133",
   "status": "proved",
   "theorems": [
    "Verif.Styles.styles_assigned",
    "Verif.Styles.styles_enough",
    "Verif.Styles.name_of_style"
   ],
   "note": "for entities where nothing undefined happens (C135)"
  },
  {
   "property": "C134",
   "status": "partial",
   "theorems": [
    "Verif.Styles.surface_styles_partial",
    "Verif.Styles.one_thread_no_race",
    "Verif.Styles.surface_lights_race",
    "Verif.Styles.surface_styles_depend_on_schedule"
   ],
   "note": "for names that entities already have, or a single thread; otherwise there is a data race, and the styles depend on the schedule"
  },
  {
   "property": "C135",
   "status": "partial",
   "theorems": [
    "Verif.Styles.other_keys_kept",
    "Verif.Styles.escape_rendered",
    "Verif.Styles.light_again_partial",
    "Verif.Styles.lightmap_scale_undefined",
    "Verif.Styles.escapes_change_on_relight"
   ],
   "note": "except for lightmap_scale, whose value is used after it was erased; lighting again for entities without escape sequences"
  },
  {
   "property": "C136",
   "status": "partial",
   "theorems": [
    "Verif.TexFlags.flags_arrive_partial",
    "Verif.TexFlags.flags_off",
    "Verif.TexFlags.no_phong_lost",
    "Verif.TexFlags.infinite_stops_light",
    "Verif.TexFlags.odd_name_stops_qbsp"
   ],
   "note": "for finite numbers, names in UTF-8 and no mark against phong shading; the mark is stored in the wrong member, an infinite number stops light, and another name stops qbsp"
  },
  {
   "property": "C137",
   "status": "partial",
   "theorems": [
    "Verif.TexFlags.mismatch_partial",
    "Verif.TexFlags.mismatch_not_ignored",
    "Verif.TexFlags.unreadable_stops"
   ],
   "note": "nothing of the file is used, but the scale of colours becomes 0 for all faces"
  },
  {
   "property": "C138",
   "status": "proved",
   "theorems": [
    "Verif.TexFlags.keys_matter",
    "Verif.TexFlags.plain_entity",
    "Verif.TexFlags.inherited",
    "Verif.TexFlags.switches",
    "Verif.TexFlags.phong_angle",
    "Verif.TexFlags.ranges",
    "Verif.TexFlags.names",
    "Verif.TexFlags.optional"
   ],
   "note": "arithmetic on floating-point numbers is a parameter with stated laws"
  },
  {
   "property": "C139",
   "status": "partial",
   "theorems": [
    "Verif.TexFlags.flags_defined_partial",
    "Verif.TexFlags.surflight_color_undefined"
   ],
   "note": "for whole numbers of type int and colours whose components fit a byte; a colour such as \"300 0 0\" is converted without a check"
  },
  {
   "property": "C140",
   "status": "proved",
   "theorems": [
    "Verif.Hulls.clip_hull_covers",
    "Verif.Hulls.Ex.marked_face_spreads"
   ],
   "note": "what base polygons are like is a hypothesis (C96 proves it of from_plane); lengths, rounding of directions and the table of planes are parameters with a tolerance"
  },
  {
   "property": "C141",
   "status": "proved",
   "theorems": [
    "Verif.Hulls.clip_hull_tight",
    "Verif.Hulls.Ex.redundant_face_enlarges"
   ],
   "note": "for arithmetic without tolerances; that convex bodies which no plane parts meet (separation of convex sets) is not proved"
  },
  {
   "property": "C142",
   "status": "proved",
   "theorems": [
    "Verif.Hulls.point_hull_unchanged"
   ],
   "note": ""
  },
  {
   "property": "C143",
   "status": "proved",
   "theorems": [
    "Verif.World.world_extent_covers",
    "Verif.World.world_extent_attained",
    "Verif.World.threads_end",
    "Verif.World.one_face_overflows",
    "Verif.World.no_brush_no_extent"
   ],
   "note": "exact arithmetic; brushes with fewer than two faces have undefined behaviour, a map without brushes has no size"
  },
  {
   "property": "C144",
   "status": "proved",
   "theorems": [
    "Verif.Place.external_map_placed",
    "Verif.Place.mirrored_inside_out"
   ],
   "note": "exact arithmetic; a scale that mirrors turns the brushes inside out, which is proved too"
  },
  {
   "property": "C145",
   "status": "partial",
   "theorems": [
    "Verif.Place.scale_option_partial",
    "Verif.Place.origin_offsets",
    "Verif.Place.scale_forgets_origin",
    "Verif.Place.scaled_bevels_lose_brush"
   ],
   "note": "false for entities with an origin and, in the clipping hulls, for brushes with bevels"
  },
  {
   "property": "C146",
   "status": "proved",
   "theorems": [
    "Verif.TexDef.quakeEd_meaning",
    "Verif.TexDef.valve_meaning",
    "Verif.TexDef.quark_meaning",
    "Verif.TexDef.primitives_meaning"
   ],
   "note": "exact arithmetic; QuArK's when the three points are not nearly in a line; brush primitives for normals of length 1 without tiny components"
  },
  {
   "property": "C147",
   "status": "partial",
   "theorems": [
    "Verif.TexDef.convert_valve",
    "Verif.TexDef.convert_primitives",
    "Verif.TexDef.convert_quake",
    "Verif.TexDef.convert_quake_wraps",
    "Verif.TexDef.negative_shift_lost",
    "Verif.TexDef.empty_texture_ub"
   ],
   "note": "QuakeEd: exact up to scales of 1000 and within a thousandth beyond; false for negative shifts when the size of the texture is known"
  },
  {
   "property": "C148",
   "status": "proved",
   "theorems": [
    "Verif.MapText.convert_reads_back",
    "Verif.MapText.convert_reads_back_exactly",
    "Verif.MapText.missing_info_becomes_zero",
    "Verif.MapText.quoted_name_lost",
    "Verif.MapText.region_primitive_breaks",
    "Verif.MapText.omit_primitive_breaks",
    "Verif.MapText.omit_late"
   ],
   "note": "texture names that are plain words and brushes that are no region; numbers and their texts are parameters with the law that reading gives back what was shown"
  },
  {
   "property": "C149",
   "status": "partial",
   "theorems": [
    "Verif.MapText.load_in_bounds_partial",
    "Verif.MapText.load_in_bounds_but_keys_partial",
    "Verif.MapText.key_trimmed",
    "Verif.MapText.blank_key_ub",
    "Verif.MapText.empty_key_ub",
    "Verif.MapText.no_newline_ub"
   ],
   "note": "false for files that end in the middle of a word or string, and for keys that are empty or white space"
  },
  {
   "property": "C150",
   "status": "partial",
   "theorems": [
    "Verif.Textures.mip_loaded_partial",
    "Verif.Textures.wal_loaded_partial",
    "Verif.Textures.stb_loaded",
    "Verif.Textures.pcx_palette_partial",
    "Verif.Textures.game_palette_partial",
    "Verif.Textures.short_mip_ub",
    "Verif.Textures.mip_wraps_ub",
    "Verif.Textures.no_palette_ub",
    "Verif.Textures.palette_before_ub",
    "Verif.Textures.wal_beyond_ub",
    "Verif.Textures.short_wal_ub",
    "Verif.Textures.wal_name_ub",
    "Verif.Textures.short_pcx_ub"
   ],
   "note": "false for truncated files, sums that wrap around, Quake II textures whose pixels are not within the file and Half-Life textures without a palette: all read outside of memory"
  },
  {
   "property": "C151",
   "status": "partial",
   "theorems": [
    "Verif.Textures.sample_tiled",
    "Verif.Textures.cache_sample_partial",
    "Verif.Textures.cache_sample_q2_partial",
    "Verif.Textures.no_texture_clear",
    "Verif.Textures.stripped_ub",
    "Verif.Textures.wrapped_ub",
    "Verif.Textures.no_height_ub"
   ],
   "note": "proved for every texture with pixels; false for textures with a size but without pixels, which stay in the cache"
  },
  {
   "property": "C152",
   "status": "partial",
   "theorems": [
    "Verif.Textures.projected_between_partial",
    "Verif.Textures.projected_range_partial",
    "Verif.Textures.projected_outside",
    "Verif.Textures.projected_small_ub"
   ],
   "note": "proved for images whose size is that of the metadata, with at least two rows and columns; false for a replacement image that is smaller"
  },
  {
   "property": "C153",
   "status": "partial",
   "theorems": [
    "Verif.Textures.average_mean_partial",
    "Verif.Textures.average_bounds_partial",
    "Verif.Textures.saturate_vivid",
    "Verif.Textures.averageColor_ok_partial",
    "Verif.Textures.metadata_color",
    "Verif.Textures.missing_ub",
    "Verif.Textures.transparent_ub"
   ],
   "note": "proved for images with a pixel that counts; otherwise the average is not a number, which is converted to a byte"
  },
  {
   "property": "C154",
   "status": "partial",
   "theorems": [
    "Verif.Illum.cull_lossless_partial",
    "Verif.Illum.other_channel",
    "Verif.Illum.bright_color_lost",
    "Verif.Illum.projected_lost",
    "Verif.Illum.outside_sphere_lost"
   ],
   "note": "proved for samples within the bounding sphere, colours up to 255 and lights without a projected texture; false otherwise, and the samples that light makes are a unit outside of the plane of the face"
  },
  {
   "property": "C155",
   "status": "proved",
   "theorems": [
    "Verif.Illum.light_fades",
    "Verif.Illum.wait_fades",
    "Verif.Illum.light_defined",
    "Verif.Illum.linear_reach",
    "Verif.Illum.falloff_reach",
    "Verif.Illum.scaled_to_128",
    "Verif.Illum.doubled_distance",
    "Verif.Illum.delay5_tamer",
    "Verif.Illum.checked_ranges",
    "Verif.Illum.jitter_total",
    "Verif.Illum.jitter_whole",
    "Verif.Illum.no_scale_infinite"
   ],
   "note": "no_scale_infinite: with -dist 0 the formulas that divide by the distance give infinities"
  },
  {
   "property": "C156",
   "status": "proved",
   "theorems": [
    "Verif.Illum.spot_outside",
    "Verif.Illum.spot_inside",
    "Verif.Illum.spot_between",
    "Verif.Illum.spot_fades",
    "Verif.Illum.cone_default",
    "Verif.Illum.wide_cone_dark"
   ],
   "note": "wide_cone_dark: a cone of more than 360 degrees is dark in the middle"
  },
  {
   "property": "C157",
   "status": "partial",
   "theorems": [
    "Verif.Illum.dirt_darkens_partial",
    "Verif.Illum.dirt_off",
    "Verif.Illum.dirt_monotone",
    "Verif.Illum.dirt_radii",
    "Verif.Illum.negative_scale_brightens",
    "Verif.Illum.zero_scale_ignored"
   ],
   "note": "proved for scales that are not negative; a negative dirt scale brightens, and a dirt scale of 0 on a light is ignored"
  },
  {
   "property": "C158",
   "status": "partial",
   "theorems": [
    "Verif.Illum.light_by_style_partial",
    "Verif.Illum.surface_by_style_partial",
    "Verif.Illum.addmin_by_style_partial",
    "Verif.Illum.reserved_style_leaks"
   ],
   "note": "proved for all styles but 65535, which stands for a light map that was not saved; _switchshadstyle allows it"
  },
  {
   "property": "C159",
   "status": "partial",
   "theorems": [
    "Verif.Illum.surface_behind",
    "Verif.Illum.surface_fades",
    "Verif.Illum.surface_hotspot",
    "Verif.Illum.high_quality_complete",
    "Verif.Illum.gate_lossless",
    "Verif.Illum.skipped_far_partial",
    "Verif.Illum.strength_shared",
    "Verif.Illum.near_sample_lost",
    "Verif.Illum.surface_scale_stops_bounces",
    "Verif.Illum.negative_surface_ignored"
   ],
   "note": "what is skipped for a whole face is judged at its far side, and for bounced light with the scale of surface lights: both lose light"
  },
  {
   "property": "C160",
   "status": "partial",
   "theorems": [
    "Verif.Illum.min_light_floor_partial",
    "Verif.Illum.min_light_twice_partial"
   ],
   "note": "proved for all styles but 65535, as for C158"
  },
  {
   "property": "C161",
   "status": "proved",
   "theorems": [
    "Verif.Extents.engine_extents",
    "Verif.Extents.face_covered",
    "Verif.Extents.lightmap_on_face",
    "Verif.Extents.stored_on_face",
    "Verif.Extents.face_on_lightmap",
    "Verif.Extents.mapping_exists",
    "Verif.Extents.face_in_sphere"
   ],
   "note": "exact arithmetic"
  },
  {
   "property": "C162",
   "status": "partial",
   "theorems": [
    "Verif.Extents.units_mapping_exists",
    "Verif.Extents.units_scale",
    "Verif.Extents.units_stretch",
    "Verif.Extents.units_not_mirrored",
    "Verif.Extents.stored_agrees_partial",
    "Verif.Extents.stored_size_wraps",
    "Verif.Extents.zero_units_undefined",
    "Verif.Extents.unlit_extents_undefined"
   ],
   "note": "the data that is written describes the lightmap only if it is less than 65536 luxels wide and high; 0 units are accepted and undefined, and so is reading back a face without a lightmap"
  },
  {
   "property": "C163",
   "status": "proved",
   "theorems": [
    "Verif.Extents.grid_inside",
    "Verif.Extents.grid_centered",
    "Verif.Extents.grid_dense",
    "Verif.Extents.sample_in_front",
    "Verif.Extents.face_sampled"
   ],
   "note": "exact arithmetic; the correction of points inside walls is not part of it"
  },
  {
   "property": "C164",
   "status": "partial",
   "theorems": [
    "Verif.Atlas.packing_ends_partial",
    "Verif.Atlas.every_face_placed",
    "Verif.Atlas.places_apart_partial",
    "Verif.Atlas.image_shows_samples_partial",
    "Verif.Atlas.image_clear_elsewhere_partial",
    "Verif.Atlas.styles_with_images_partial",
    "Verif.Atlas.atlas_defined",
    "Verif.Atlas.uv_within",
    "Verif.Atlas.tall_face_hangs",
    "Verif.Atlas.wide_face_overlaps",
    "Verif.Atlas.style_254_lost"
   ],
   "note": "proved for lightmaps of less than 512 columns and rows and styles below 254; a lightmap of 512 rows never ends, one of 600 columns covers another, and style 254 has no image"
  },
  {
   "property": "C165",
   "status": "proved",
   "theorems": [
    "Verif.Decompile.leafs_covered",
    "Verif.Decompile.brushes_true",
    "Verif.Decompile.brushes_apart",
    "Verif.Decompile.leafs_defined",
    "Verif.Decompile.hull_brushes",
    "Verif.Decompile.leaf_hull_undefined"
   ],
   "note": "exact arithmetic; a hull that is a single leaf is undefined behaviour, and so is a clip node out of range"
  },
  {
   "property": "C166",
   "status": "partial",
   "theorems": [
    "Verif.Decompile.reduced_region_partial",
    "Verif.Decompile.redundant_removed",
    "Verif.Decompile.coincident_planes_lost",
    "Verif.Decompile.brush_left_open",
    "Verif.Decompile.q2_region",
    "Verif.Decompile.q2_no_thin"
   ],
   "note": "two equal planes next to each other are both left out and the brush is open; the tolerance of the clipping is excluded by a hypothesis"
  },
  {
   "property": "C167",
   "status": "partial",
   "theorems": [
    "Verif.Decompile.split_uniform",
    "Verif.Decompile.split_covers",
    "Verif.Decompile.split_region_partial",
    "Verif.Decompile.split_disjoint",
    "Verif.Decompile.split_sides",
    "Verif.Decompile.dropped_why",
    "Verif.Decompile.split_lost"
   ],
   "note": "a brush for which no cut is found is dropped"
  },
  {
   "property": "C168",
   "status": "partial",
   "theorems": [
    "Verif.Decompile.points_give_plane",
    "Verif.Decompile.written_plane",
    "Verif.Decompile.through_unique",
    "Verif.Decompile.texture_kept",
    "Verif.Decompile.texture_slide",
    "Verif.Decompile.texture_moves_partial",
    "Verif.Decompile.written_textures_partial",
    "Verif.Decompile.largest_ge",
    "Verif.Decompile.texture_slides",
    "Verif.Decompile.fill_opposite",
    "Verif.Decompile.fill_textures"
   ],
   "note": "scaled textures slide when the brushes of an entity are moved"
  },
  {
   "property": "C169",
   "status": "partial",
   "theorems": [
    "Verif.Decompile.keys_kept",
    "Verif.Decompile.point_keeps_origin",
    "Verif.Decompile.origin_moves_partial",
    "Verif.Decompile.origin_before_model",
    "Verif.Decompile.missing_classname_undefined",
    "Verif.Decompile.portal_brush"
   ],
   "note": "an origin before the number of the model does not move the brushes; an entity without a class name is undefined behaviour"
  },
  {
   "property": "C170",
   "status": "proved",
   "theorems": [
    "Verif.Surfaces.subdivide_ends",
    "Verif.Surfaces.subdivide_pieces",
    "Verif.Surfaces.subdivide_special",
    "Verif.Surfaces.subdivideNode_eq",
    "Verif.Surfaces.subdivide_stuck",
    "Verif.Surfaces.fits_luxels"
   ],
   "note": "exact arithmetic; the length of a vector is a parameter"
  },
  {
   "property": "C171",
   "status": "proved",
   "theorems": [
    "Verif.Surfaces.marks_complete",
    "Verif.Surfaces.marks_sound",
    "Verif.Surfaces.marks_nodup"
   ],
   "note": "exact arithmetic"
  },
  {
   "property": "C172",
   "status": "proved",
   "theorems": [
    "Verif.Surfaces.face_seen",
    "Verif.Surfaces.faces_of_nodes",
    "Verif.Surfaces.leafFaces_ub",
    "Verif.Surfaces.updateSphere_ball"
   ],
   "note": "merging is a parameter (it is the subject of the claims on merged faces); a portal that shows a side but is on no node is undefined behaviour"
  },
  {
   "property": "C173",
   "status": "partial",
   "theorems": [
    "Verif.Phong.smoothed_iff_partial",
    "Verif.Phong.smoothed_faces",
    "Verif.Phong.smoothed_both_ways_partial",
    "Verif.Phong.smoothed_one_way",
    "Verif.Phong.wide_angle",
    "Verif.Phong.flags_that_matter_quake",
    "Verif.Phong.flags_that_matter_quake2"
   ],
   "note": "real arithmetic; that smoothing is mutual is false of the code (`smoothed_one_way`), as is the claim for angles over 180 degrees (`wide_angle`)"
  },
  {
   "property": "C174",
   "status": "partial",
   "theorems": [
    "Verif.Phong.angle_kept_partial",
    "Verif.Phong.angle_of_last_partial",
    "Verif.Phong.angle_of_another_model",
    "Verif.Phong.own_angle_lost"
   ],
   "note": "the statement is false of the code: `angle_of_another_model`, `own_angle_lost`"
  },
  {
   "property": "C175",
   "status": "proved",
   "theorems": [
    "Verif.Phong.normals_recorded",
    "Verif.Phong.normals_flat",
    "Verif.Phong.normals_within",
    "Verif.Phong.normals_shared"
   ],
   "note": "real arithmetic; tangents are not modelled"
  },
  {
   "property": "C176",
   "status": "proved",
   "theorems": [
    "Verif.Phong.edge_faces",
    "Verif.Phong.edge_smoothed"
   ],
   "note": ""
  },
  {
   "property": "C177",
   "status": "proved",
   "theorems": [
    "Verif.Phong.normals_any_order",
    "Verif.Phong.normals_progress",
    "Verif.Phong.normal_read"
   ],
   "note": ""
  },
  {
   "property": "C178",
   "status": "partial",
   "theorems": [
    "Verif.Samples.interpolated_normal_is_a_mix",
    "Verif.Samples.interpolated_normal_of_equal_normals",
    "Verif.Samples.interpolated_normal_exists",
    "Verif.Samples.interpolated_normal_not_unit"
   ],
   "note": "real arithmetic; that the mix has length one is false of the code (`interpolated_normal_not_unit`)"
  },
  {
   "property": "C179",
   "status": "proved",
   "theorems": [
    "Verif.Samples.sample_is_placed",
    "Verif.Samples.sample_over_its_face_stays",
    "Verif.Samples.sample_over_its_face_occluded",
    "Verif.Samples.sample_past_the_border"
   ],
   "note": "real arithmetic; the test for solids is that of C182"
  },
  {
   "property": "C180",
   "status": "proved",
   "theorems": [
    "Verif.Samples.closest_on_segment",
    "Verif.Samples.closest_on_border"
   ],
   "note": "real arithmetic"
  },
  {
   "property": "C181",
   "status": "partial",
   "theorems": [
    "Verif.Samples.crossed_edge_partial",
    "Verif.Samples.crossed_edge_not_least_past"
   ],
   "note": "real arithmetic; false past the second end of an edge (`crossed_edge_not_least_past`)"
  },
  {
   "property": "C182",
   "status": "partial",
   "theorems": [
    "Verif.Samples.in_any_solid_partial",
    "Verif.Samples.in_any_solid_moved_model"
   ],
   "note": "false for moved models (`in_any_solid_moved_model`)"
  },
  {
   "property": "C183",
   "status": "partial",
   "theorems": [
    "Verif.Suns.sun_split_partial",
    "Verif.Suns.sun_outside_penumbra"
   ],
   "note": "real arithmetic; that the suns are within the penumbra is false (`sun_outside_penumbra`)"
  },
  {
   "property": "C184",
   "status": "partial",
   "theorems": [
    "Verif.Suns.suns_total",
    "Verif.Suns.lights_set_up",
    "Verif.Suns.sun_direction_partial",
    "Verif.Suns.sun_mangle_misread",
    "Verif.Suns.sun_light_partial",
    "Verif.Suns.sun_light_divided",
    "Verif.Suns.one_sample_one_sun"
   ],
   "note": "real arithmetic; false for `mangle` (`sun_mangle_misread`) and for deviance with some formulas (`sun_light_divided`)"
  },
  {
   "property": "C185",
   "status": "proved",
   "theorems": [
    "Verif.Suns.dome_up",
    "Verif.Suns.dome_low",
    "Verif.Suns.dome_halves",
    "Verif.Suns.domes_total"
   ],
   "note": "real arithmetic"
  },
  {
   "property": "C186",
   "status": "partial",
   "theorems": [
    "Verif.Suns.jitter_copies_partial",
    "Verif.Suns.jitter_light",
    "Verif.Suns.jitter_outside_sphere",
    "Verif.Suns.dome_multiplied",
    "Verif.Suns.jitter_draws"
   ],
   "note": "real arithmetic; false for the sphere (`jitter_outside_sphere`) and for domes (`dome_multiplied`)"
  },
  {
   "property": "C187",
   "status": "proved",
   "theorems": [
    "Verif.Suns.targets"
   ],
   "note": "reading the keys is C50 and others"
  },
  {
   "property": "C188",
   "status": "proved",
   "theorems": [
    "Verif.Suns.lights_nudged"
   ],
   "note": "the test for solids is a parameter"
  },
  {
   "property": "C189",
   "status": "proved",
   "theorems": [
    "Verif.PortalSides.side_from_brush",
    "Verif.PortalSides.side_none",
    "Verif.PortalSides.side_exact",
    "Verif.PortalSides.side_closest",
    "Verif.PortalSides.side_no_assert"
   ],
   "note": "exact arithmetic; the rules of the game are parameters (see `Contents`)"
  },
  {
   "property": "C190",
   "status": "partial",
   "theorems": [
    "Verif.PortalSides.side_found_partial",
    "Verif.PortalSides.side_missed"
   ],
   "note": "false in general (`side_missed`)"
  },
  {
   "property": "C191",
   "status": "proved",
   "theorems": [
    "Verif.PortalSides.sides_marked",
    "Verif.PortalSides.sides_marked_others"
   ],
   "note": "the tree is given as the list of its leafs with their portals"
  },
  {
   "property": "C192",
   "status": "partial",
   "theorems": [
    "Verif.SurfLights.pieces_small",
    "Verif.SurfLights.pieces_area",
    "Verif.SurfLights.small_face_kept",
    "Verif.SurfLights.subdivide_ends",
    "Verif.SurfLights.full_face_overflows",
    "Verif.SurfLights.corner_check_unused"
   ],
   "note": "memory safety is false (`full_face_overflows`); exact arithmetic, twice the area along a normal; the rest holds of every run that ends well"
  },
  {
   "property": "C193",
   "status": "proved",
   "theorems": [
    "Verif.SurfLights.face_lit_once",
    "Verif.SurfLights.face_not_lit",
    "Verif.SurfLights.template_fits",
    "Verif.SurfLights.lamps_to_templates"
   ],
   "note": "the test for the name of a texture and the centre of a piece are parameters; exact arithmetic"
  },
  {
   "property": "C194",
   "status": "proved",
   "theorems": [
    "Verif.Radiosity.patches_small",
    "Verif.Radiosity.patches_keep_corners",
    "Verif.Radiosity.dice_ends",
    "Verif.Radiosity.center_inside"
   ],
   "note": "exact arithmetic"
  },
  {
   "property": "C195",
   "status": "proved",
   "theorems": [
    "Verif.Radiosity.surface_settings",
    "Verif.Radiosity.settings_lit",
    "Verif.Radiosity.surface_points",
    "Verif.Radiosity.isLit_iff"
   ],
   "note": "the patches are those of C194; normalising and moving points out of solids are parameters; exact arithmetic"
  },
  {
   "property": "C196",
   "status": "partial",
   "theorems": [
    "Verif.Radiosity.surface_energy_partial",
    "Verif.Radiosity.dim_surface_too_dark",
    "Verif.Radiosity.negative_surface_shines"
   ],
   "note": "the full property is false (`dim_surface_too_dark`, `negative_surface_shines`); exact arithmetic"
  },
  {
   "property": "C197",
   "status": "partial",
   "theorems": [
    "Verif.Radiosity.bounce_skips",
    "Verif.Radiosity.bounce_pass_partial",
    "Verif.Radiosity.bounce_points_partial",
    "Verif.Radiosity.bounce_forgets_offset"
   ],
   "note": "the strength is as in C196 and the place as in the file, not of the model (`bounce_forgets_offset`); styles of a face's light maps are distinct; exact arithmetic"
  },
  {
   "property": "C198",
   "status": "partial",
   "theorems": [
    "Verif.Radiosity.pass_faces",
    "Verif.Radiosity.pass_true",
    "Verif.Radiosity.pass_one_by_one_partial",
    "Verif.Radiosity.pass_lost",
    "Verif.Radiosity.passes_eq"
   ],
   "note": "the full property is false (`pass_lost`); a call for a face is one step"
  },
  {
   "property": "C199",
   "status": "partial",
   "theorems": [
    "Verif.MapUtil.save_reads_back_partial",
    "Verif.MapUtil.quark_lost",
    "Verif.MapUtil.quark_read",
    "Verif.MapUtil.short_info_ub",
    "Verif.MapUtil.quoted_name_lost",
    "Verif.MapUtil.qbsp_reads_more",
    "Verif.MapUtil.primitives_unreadable",
    "Verif.MapUtil.primitives_refused",
    "Verif.MapUtil.primitives_unwritable"
   ],
   "note": "the full property is false (`quark_lost` and the others); numbers are printed and read by parameters that agree, as in C148"
  },
  {
   "property": "C200",
   "status": "partial",
   "theorems": [
    "Verif.MapUtil.convert_keeps",
    "Verif.MapUtil.convert_map_same",
    "Verif.MapUtil.convert_same",
    "Verif.MapUtil.convert_valve_partial",
    "Verif.MapUtil.valve_angle_unset",
    "Verif.MapUtil.primitives_unwritable",
    "Verif.MapUtil.convert_etp_error",
    "Verif.MapUtil.convert_quake_moved",
    "Verif.MapUtil.convert_quake_def",
    "Verif.MapUtil.convert_quake_partial",
    "Verif.MapUtil.wall_moved"
   ],
   "note": "the full property is false (`valve_angle_unset`, `wall_moved`); exact arithmetic"
  },
  {
   "property": "C201",
   "status": "proved",
   "theorems": [
    "Verif.MapUtil.run_commands",
    "Verif.MapUtil.run_in_bounds",
    "Verif.MapUtil.strip_save",
    "Verif.MapUtil.last_strip_ignored"
   ],
   "note": "Lua scripts are a parameter"
  },
  {
   "property": "C202",
   "status": "partial",
   "theorems": [
    "Verif.BspUtil.check_reports_partial",
    "Verif.BspUtil.check_unused",
    "Verif.BspUtil.unlit_reported",
    "Verif.BspUtil.offsets_reported",
    "Verif.BspUtil.vertex_reported",
    "Verif.BspUtil.check_prints",
    "Verif.BspUtil.vertex_missed"
   ],
   "note": "the full property is false (`unlit_reported`, `vertex_missed`)"
  },
  {
   "property": "C203",
   "status": "partial",
   "theorems": [
    "Verif.BspUtil.height_iff",
    "Verif.BspUtil.heights_printed",
    "Verif.BspUtil.check_defined",
    "Verif.BspUtil.planar_reports",
    "Verif.BspUtil.planar_crashes",
    "Verif.BspUtil.check_crashes"
   ],
   "note": "the full property is false (`check_crashes`, `planar_crashes`)"
  },
  {
   "property": "C204",
   "status": "partial",
   "theorems": [
    "Verif.BspUtil.Scale.scale_faces_partial",
    "Verif.BspUtil.Scale.scale_brushsides_partial",
    "Verif.BspUtil.Scale.scale_leaf_partial",
    "Verif.BspUtil.Scale.half_turn_reversed",
    "Verif.BspUtil.Scale.scale_two_mirrors",
    "Verif.BspUtil.Scale.scale_clip_wrong",
    "Verif.BspUtil.Scale.scale_clipnodes_kept"
   ],
   "note": "the full property is false (`half_turn_reversed`, `scale_clip_wrong`); exact arithmetic"
  },
  {
   "property": "C205",
   "status": "partial",
   "theorems": [
    "Verif.BspUtil.Scale.scale_corners",
    "Verif.BspUtil.Scale.scale_textures",
    "Verif.BspUtil.Scale.scale_decoupled",
    "Verif.BspUtil.Scale.scale_model_bounds",
    "Verif.BspUtil.Scale.scale_leaf_bounds",
    "Verif.BspUtil.Scale.scale_node_bounds",
    "Verif.BspUtil.Scale.scale_grid_partial",
    "Verif.BspUtil.Scale.grid_mirrored",
    "Verif.BspUtil.Scale.scale_edges_torn",
    "Verif.BspUtil.Scale.scale_entities",
    "Verif.BspUtil.Scale.lip_travel"
   ],
   "note": "the full property is false (`scale_edges_torn`, `grid_mirrored`); exact arithmetic; numbers in entities are read and printed by parameters"
  },
  {
   "property": "C206",
   "status": "partial",
   "theorems": [
    "Verif.BspUtil.Replace.replace_brushes",
    "Verif.BspUtil.Replace.replace_error",
    "Verif.BspUtil.Replace.replace_keys",
    "Verif.BspUtil.Replace.load_verbatim",
    "Verif.BspUtil.Replace.replace_order_wrong",
    "Verif.BspUtil.Replace.replace_left_empty",
    "Verif.BspUtil.Replace.replace_empty_ub",
    "Verif.BspUtil.Replace.primitives_refused"
   ],
   "note": "the full property is false (`replace_order_wrong`, `replace_left_empty`, `primitives_refused`)"
  },
  {
   "property": "C207",
   "status": "partial",
   "theorems": [
    "Verif.BspUtil.Commands.reads_in_order",
    "Verif.BspUtil.Commands.alone",
    "Verif.BspUtil.Commands.enough_words",
    "Verif.BspUtil.Commands.missing_words",
    "Verif.BspUtil.Commands.lumps_kept",
    "Verif.BspUtil.Commands.lump_removed",
    "Verif.BspUtil.Commands.at_most_one_change",
    "Verif.BspUtil.Commands.written_over_entities",
    "Verif.BspUtil.Commands.second_conversion_wrong",
    "Verif.BspUtil.Commands.source_emptied",
    "Verif.BspUtil.Commands.replace_after_change_ub",
    "Verif.BspUtil.Commands.null_words",
    "Verif.BspUtil.Commands.scale_takes_file"
   ],
   "note": "the full property is false (`at_most_one_change`, `written_over_entities`, `null_words`); what the commands compute are parameters"
  },
  {
   "property": "C208",
   "status": "partial",
   "theorems": [
    "Verif.Miptex.textures_listed",
    "Verif.Miptex.number_stays",
    "Verif.Miptex.refused_iff",
    "Verif.Miptex.frames_added",
    "Verif.Miptex.frames_ub_iff",
    "Verif.Miptex.lower_not_first",
    "Verif.Miptex.long_name_cut",
    "Verif.Miptex.plus_ub"
   ],
   "note": "the order the comment wants, long names and the name `+` are false of the code (`lower_not_first`, `long_name_cut`, `plus_ub`)"
  },
  {
   "property": "C209",
   "status": "partial",
   "theorems": [
    "Verif.Miptex.Chain.listed_unique",
    "Verif.Miptex.Chain.face_number",
    "Verif.Miptex.Chain.face_keeps",
    "Verif.Miptex.Chain.face_defined",
    "Verif.Miptex.Chain.animation_listed",
    "Verif.Miptex.Chain.animation_never_ends",
    "Verif.Miptex.Chain.circle_never_ends",
    "Verif.Miptex.Chain.still_texture_animated"
   ],
   "note": "the full property is false (`circle_never_ends`, `still_texture_animated`); loading a texture is a parameter"
  },
  {
   "property": "C210",
   "status": "partial",
   "theorems": [
    "Verif.Archive.Wads.listed_registered",
    "Verif.Archive.Wads.default_registered",
    "Verif.Archive.Wads.ensure_keeps",
    "Verif.Archive.Wads.parts_spec",
    "Verif.Archive.Wads.load_at",
    "Verif.Archive.Wads.wad_paths",
    "Verif.Archive.Wads.wad_paths_sorted",
    "Verif.Archive.Wads.wad_paths_order",
    "Verif.Archive.Wads.second_path_unseen",
    "Verif.Archive.Wads.local_not_embedded",
    "Verif.Archive.Wads.empty_part_hides_default"
   ],
   "note": "the full property is false (`second_path_unseen`, `local_not_embedded`, `empty_part_hides_default`); how a text becomes a path is a parameter"
  },
  {
   "property": "C211",
   "status": "partial",
   "theorems": [
    "Verif.Tree.faces_at_point",
    "Verif.Tree.point_of_face",
    "Verif.Tree.first_face",
    "Verif.Tree.node_at_point",
    "Verif.Tree.wall_before_floor"
   ],
   "note": "that the one face has the wanted normal is false of the code (`wall_before_floor`); arithmetic is exact"
  },
  {
   "property": "C212",
   "status": "partial",
   "theorems": [
    "Verif.Shadow.occluded_iff",
    "Verif.Shadow.passes",
    "Verif.Shadow.solid_blocks",
    "Verif.Shadow.fence_blocks",
    "Verif.Shadow.limited_shadow_partial",
    "Verif.Shadow.intersect_nearest",
    "Verif.Shadow.isSky_iff",
    "Verif.Shadow.limited_liquid",
    "Verif.Shadow.fence_of_both",
    "Verif.Shadow.channels_block",
    "Verif.Shadow.faceAlpha_value",
    "Verif.Shadow.alpha_ignored",
    "Verif.Shadow.leaf_error"
   ],
   "note": "the documented meaning of the keys is false of the code in the cases of `limited_liquid`, `fence_of_both`, `channels_block`, `alpha_ignored`, `leaf_error`; which triangles lie on a ray is given"
  },
  {
   "property": "C213",
   "status": "partial",
   "theorems": [
    "Verif.Shadow.tinted_partial",
    "Verif.Shadow.never_brighter",
    "Verif.Shadow.switched_partial",
    "Verif.Shadow.last_pane_wins",
    "Verif.Shadow.last_switch_wins",
    "Verif.Shadow.glass_behind_sky"
   ],
   "note": "for several panes or switchable shadows the result depends on the order (`last_pane_wins`, `last_switch_wins`, `glass_behind_sky`)"
  },
  {
   "property": "C214",
   "status": "partial",
   "theorems": [
    "Verif.Mottle.mottle_range",
    "Verif.Mottle.mottle_seamless",
    "Verif.Mottle.mottle_defined",
    "Verif.Mottle.mottle_repeats",
    "Verif.Mottle.mottle_varies",
    "Verif.Mottle.mottle_debug"
   ],
   "note": "assertions of a debug build fail in some cells (`mottle_debug`); exact arithmetic for float"
  },
  {
   "property": "C215",
   "status": "partial",
   "theorems": [
    "Verif.Dirt.occlusion_range",
    "Verif.Dirt.occlusion_occluded",
    "Verif.Dirt.occlusion_pos",
    "Verif.Dirt.clear_partial",
    "Verif.Dirt.clear_axial",
    "Verif.Dirt.behind_clear",
    "Verif.Dirt.occlusion_mono",
    "Verif.Dirt.far_counts",
    "Verif.Dirt.cone_exceeded",
    "Verif.Dirt.ordered_vectors",
    "Verif.Dirt.inUse_iff"
   ],
   "note": "the depth is not the limit on oblique surfaces (`far_counts`), nor the angle the limit of random rays (`cone_exceeded`); exact arithmetic for float"
  },
  {
   "property": "C216",
   "status": "partial",
   "theorems": [
    "Verif.SunRay.faceSky_mem",
    "Verif.SunRay.sunColor_value",
    "Verif.SunRay.sunColor_twosided",
    "Verif.SunRay.skip_harmless",
    "Verif.SunRay.pointSun_value",
    "Verif.SunRay.grid_at_least",
    "Verif.SunRay.pointLight_value",
    "Verif.SunRay.pointSky_some",
    "Verif.SunRay.pointEntity_some",
    "Verif.SunRay.grid_ignores",
    "Verif.SunRay.unknown_texture",
    "Verif.SunRay.grid_channels"
   ],
   "note": "the light grid ignores suntexture and switchable shadows (`grid_ignores`) and channels (`grid_channels`), an unknown suntexture is ignored (`unknown_texture`); exact arithmetic for float"
  },
  {
   "property": "C217",
   "status": "partial",
   "theorems": [
    "Verif.Passes.entity_once",
    "Verif.Passes.steps_ordered",
    "Verif.Passes.result_value",
    "Verif.Passes.ignoring_dark",
    "Verif.Passes.lightFace_error_iff",
    "Verif.Passes.bad_face_ends",
    "Verif.Passes.good_faces",
    "Verif.Passes.bounce_debug_dark",
    "Verif.Passes.local_min_bounces",
    "Verif.Passes.nolighting_lights"
   ],
   "note": "false as documented for -bouncedebug, -nolighting, local minimum light and bad faces (the last four theorems and `bad_face_ends`)"
  },
  {
   "property": "C218",
   "status": "partial",
   "theorems": [
    "Verif.FaceKeys.surface_values",
    "Verif.FaceKeys.twosided_iff",
    "Verif.FaceKeys.nodirt_iff",
    "Verif.FaceKeys.decoupled_units",
    "Verif.FaceKeys.minimum_value",
    "Verif.FaceKeys.minimum_color",
    "Verif.FaceKeys.color_ignored",
    "Verif.FaceKeys.never_lower",
    "Verif.FaceKeys.quake2_lower"
   ],
   "note": "a minimum light or colour set for a model or face does not always take effect (`color_ignored`, `never_lower`, `quake2_lower`); exact arithmetic for float"
  },
  {
   "property": "C219",
   "status": "partial",
   "theorems": [
    "Verif.FaceKeys.mapScale_value",
    "Verif.FaceKeys.shifts_partial",
    "Verif.FaceKeys.scale_value",
    "Verif.FaceKeys.scales_forced",
    "Verif.FaceKeys.coarser_ignored",
    "Verif.FaceKeys.short_lump_ub",
    "Verif.FaceKeys.large_shift_ub",
    "Verif.FaceKeys.never_warns",
    "Verif.FaceKeys.modelOf_some",
    "Verif.FaceKeys.listOf_value",
    "Verif.FaceKeys.modelLists_ok"
   ],
   "note": "scales coarser than the map's are not used (`coarser_ignored`), short lumps and large shifts are undefined"
  },
  {
   "property": "C220",
   "status": "partial",
   "theorems": [
    "Verif.OnlyEnts.full_models",
    "Verif.OnlyEnts.only_models",
    "Verif.OnlyEnts.same_models_partial",
    "Verif.OnlyEnts.only_accepts",
    "Verif.OnlyEnts.merged_iff",
    "Verif.OnlyEnts.shifted_by_origin_brush",
    "Verif.OnlyEnts.shifted_by_trigger"
   ],
   "note": "false for entities of origin brushes only and with -notriggermodels (`shifted_by_origin_brush`, `shifted_by_trigger`)"
  },
  {
   "property": "C221",
   "status": "partial",
   "theorems": [
    "Verif.OnlyEnts.same_lump_partial",
    "Verif.OnlyEnts.written_iff",
    "Verif.OnlyEnts.origin_lost",
    "Verif.OnlyEnts.only_keeps_origin",
    "Verif.OnlyEnts.full_sets_origin",
    "Verif.OnlyEnts.scale_ignored",
    "Verif.OnlyEnts.rotate_case",
    "Verif.OnlyEnts.scaled_twice"
   ],
   "note": "false for origin brushes, scales and rotating entities (`origin_lost`, `scale_ignored`, `rotate_case`)"
  },
  {
   "property": "C222",
   "status": "partial",
   "theorems": [
    "Verif.BrushList.same_points",
    "Verif.BrushList.normalize_axial",
    "Verif.BrushList.normalize_normal",
    "Verif.BrushList.box_matters",
    "Verif.BrushList.contents_value",
    "Verif.BrushList.quake2_solid_liquids",
    "Verif.BrushList.quake2_contents",
    "Verif.BrushList.mem_fromGroups",
    "Verif.BrushList.models_listed",
    "Verif.BrushList.world_listed",
    "Verif.BrushList.listed_once_partial",
    "Verif.BrushList.bad_model_ends",
    "Verif.BrushList.world_twice"
   ],
   "note": "false for entities that name a model themselves (`world_twice`, `bad_model_ends`) and for liquids in Quake II; bounds are assumed to be the least box; exact arithmetic"
  },
  {
   "property": "C223",
   "status": "partial",
   "theorems": [
    "Verif.Ambient.soundOf_iff",
    "Verif.Ambient.levels_value",
    "Verif.Ambient.any_order",
    "Verif.Ambient.slime_silent",
    "Verif.Ambient.far_is_loud",
    "Verif.Ambient.no_cluster_ub"
   ],
   "note": "the distance has no effect (`far_is_loud`) and a leaf without a cluster is undefined behaviour (`no_cluster_ub`); boxes of faces given"
  },
  {
   "property": "C224",
   "status": "proved",
   "theorems": [
    "Verif.LeafBrush.leafs_name",
    "Verif.LeafBrush.brushes_written",
    "Verif.LeafBrush.written_iff_leaf",
    "Verif.LeafBrush.later_models_keep"
   ],
   "note": "contents of a fragment are those of its brush; the aligned vectors of a plane are a parameter"
  },
  {
   "property": "C225",
   "status": "partial",
   "theorems": [
    "Verif.Target.no_flag",
    "Verif.Target.one_flag",
    "Verif.Target.hexen_flag",
    "Verif.Target.two_flags",
    "Verif.Target.user_wins",
    "Verif.Target.hexen_hides",
    "Verif.Target.not_reset"
   ],
   "note": "two formats are not an error if one is Hexen II (`hexen_hides`)"
  },
  {
   "property": "C226",
   "status": "partial",
   "theorems": [
    "Verif.VisCull.entity_kept",
    "Verif.VisCull.liquid_kept",
    "Verif.VisCull.entity_skipped_iff",
    "Verif.VisCull.never_skipped",
    "Verif.VisCull.surface_skipped_iff",
    "Verif.VisCull.surface_kept_partial",
    "Verif.VisCull.surface_dropped"
   ],
   "note": "surface lights are skipped if any of their leafs is unseen (`surface_dropped`); leafs of sample points given"
  },
  {
   "property": "C227",
   "status": "proved",
   "theorems": [
    "Verif.TexValid.side_faithful",
    "Verif.TexValid.drawn_kept",
    "Verif.TexValid.edge_on_reset",
    "Verif.TexValid.hidden_reset"
   ],
   "note": "exact arithmetic for float"
  },
  {
   "property": "C228",
   "status": "partial",
   "theorems": [
    "Verif.Region.surface_walled",
    "Verif.Region.interior_free",
    "Verif.Region.wall_thick",
    "Verif.Region.region_filled",
    "Verif.Region.loaded_iff",
    "Verif.Region.antiregion_ignored",
    "Verif.Region.ents_partial",
    "Verif.Region.brush_entity_removed",
    "Verif.Region.last_entity_ub"
   ],
   "note": "false of the code for regions that are no boxes (`region_filled`), for anti-regions (`antiregion_ignored`) and for both (`brush_entity_removed`, `last_entity_ub`)"
  },
  {
   "property": "C229",
   "status": "proved",
   "theorems": [
    "Verif.LoadEnt.world_loaded",
    "Verif.LoadEnt.portals_differ",
    "Verif.LoadEnt.portal_of_many",
    "Verif.LoadEnt.region_unnumbered",
    "Verif.LoadEnt.renumbered"
   ],
   "note": "brushes as numbers; which are left out is C228"
  },
  {
   "property": "C230",
   "status": "partial",
   "theorems": [
    "Verif.LoadEnt.quarter_turns_partial",
    "Verif.LoadEnt.rotBounds_least",
    "Verif.LoadEnt.expanded_iff",
    "Verif.LoadEnt.corner_leaves"
   ],
   "note": "false of the code for turns other than quarter turns (`corner_leaves`)"
  },
  {
   "property": "C231",
   "status": "partial",
   "theorems": [
    "Verif.TreeBounds.bounds_hold_partial",
    "Verif.TreeBounds.bounds_tight",
    "Verif.TreeBounds.flat_leaf",
    "Verif.TreeBounds.flat_root_ub"
   ],
   "note": "false of the code for flat leafs (`flat_leaf`, `flat_root_ub`); exact arithmetic"
  },
  {
   "property": "C232",
   "status": "proved",
   "theorems": [
    "Verif.DivBounds.parts_held",
    "Verif.DivBounds.parts_least",
    "Verif.DivBounds.axial_metric",
    "Verif.DivBounds.nearer_better",
    "Verif.DivBounds.flat_unknown",
    "Verif.DivBounds.axial_outside"
   ],
   "note": "exact arithmetic; the choice among the planes by this measure is `BrushBsp.chooseMid`"
  },
  {
   "property": "C233",
   "status": "proved",
   "theorems": [
    "Verif.Flood.exits_found",
    "Verif.Flood.portal_leak_line",
    "Verif.Flood.longest_spec"
   ],
   "note": "the search for a shortest way is C84; the file is not modelled"
  },
  {
   "property": "C234",
   "status": "partial",
   "theorems": [
    "Verif.Projector.directions",
    "Verif.Projector.picture",
    "Verif.Projector.bad_fov",
    "Verif.Projector.outside",
    "Verif.Projector.aim_partial",
    "Verif.Projector.angles_dark"
   ],
   "note": "false for lights aimed with `angles`: they count as spotlights without a direction"
  },
  {
   "property": "C235",
   "status": "proved",
   "theorems": [
    "Verif.SunRay.sky_value",
    "Verif.SunRay.front_value",
    "Verif.SunRay.behind_dark",
    "Verif.SunRay.surfaces_mem",
    "Verif.SunRay.surfaces_all"
   ],
   "note": "exact arithmetic for float; what rays meet is a parameter"
  },
  {
   "property": "C236",
   "status": "partial",
   "theorems": [
    "Verif.Miptex.copied",
    "Verif.Miptex.not_copied",
    "Verif.Miptex.not_found",
    "Verif.Miptex.one_each",
    "Verif.Miptex.all_stored",
    "Verif.Miptex.size_known",
    "Verif.Miptex.readable_partial",
    "Verif.Miptex.any_file_copied",
    "Verif.Miptex.short_file_ub",
    "Verif.Miptex.long_names_alike"
   ],
   "note": "reading the entries needs files whose 16 bytes of the name have an end: any file of 40 bytes is taken for a texture"
  },
  {
   "property": "C237",
   "status": "partial",
   "theorems": [
    "Verif.VisCull.estimate_box",
    "Verif.VisCull.seen_not_skipped",
    "Verif.VisCull.addPoints_holds",
    "Verif.VisCull.surface_not_skipped",
    "Verif.VisCull.skipped_only",
    "Verif.VisCull.up_down",
    "Verif.VisCull.flat_space",
    "Verif.VisCull.seen_but_skipped"
   ],
   "note": "the last sentence is false: no ray is level, so lights between a floor and a ceiling do not reach further than 46.5 times the distance to them"
  },
  {
   "property": "C238",
   "status": "proved",
   "theorems": [
    "Verif.SurfLights.empty_line",
    "Verif.SurfLights.light_line",
    "Verif.SurfLights.bad_line",
    "Verif.SurfLights.lights_of_lines",
    "Verif.SurfLights.lights_of_file",
    "Verif.SurfLights.bad_file",
    "Verif.SurfLights.files_in_order"
   ],
   "note": "words without quotes; reading and writing numbers is a parameter"
  },
  {
   "property": "C239",
   "status": "proved",
   "theorems": [
    "Verif.NormalsLump.normals_read_back",
    "Verif.NormalsLump.always_written",
    "Verif.NormalsLump.kept_or_axis",
    "Verif.NormalsLump.hardly_moved",
    "Verif.NormalsLump.snapped"
   ],
   "note": "floats have values and bits (0 and -0 are the same value); no NaN; as many normals as edges for each face; fewer than 2^32 vectors"
  },
  {
   "property": "C240",
   "status": "partial",
   "theorems": [
    "Verif.Styles.arghrad_keys",
    "Verif.Styles.lights_loaded",
    "Verif.Styles.no_lights",
    "Verif.Styles.arghrad_again",
    "Verif.Styles.arghrad_again_differs"
   ],
   "note": "false for lighting again: the changed keys are written to the BSP file and changed once more; reading and writing numbers is given; no key of Arghrad occurs twice in an entity"
  },
  {
   "property": "C241",
   "status": "partial",
   "theorems": [
    "Verif.WalJson.numbers_given",
    "Verif.WalJson.animation_given",
    "Verif.WalJson.contents_given",
    "Verif.WalJson.flags_given_partial",
    "Verif.WalJson.flags_array",
    "Verif.WalJson.color_given",
    "Verif.WalJson.not_given",
    "Verif.WalJson.json_used",
    "Verif.WalJson.file_used",
    "Verif.WalJson.wal_not_read",
    "Verif.WalJson.light_lost"
   ],
   "note": "false in Quake II for what is not given: the .wal is looked for without textures/; false for arrays of flags, which are added to those of a .wal; parsing JSON and reading a .wal are given"
  },
  {
   "property": "C242",
   "status": "proved",
   "theorems": [
    "Verif.NodePortal.portal_in_region",
    "Verif.NodePortal.portal_edges",
    "Verif.NodePortal.portal_kept",
    "Verif.NodePortal.portal_fails"
   ],
   "note": "exact arithmetic; WindingIsTiny and the length of a vector are given functions"
  },
  {
   "property": "C243",
   "status": "partial",
   "theorems": [
    "Verif.DebugExpand.map_expanded",
    "Verif.DebugExpand.brush_contained",
    "Verif.DebugExpand.no_map",
    "Verif.DebugExpand.values_read",
    "Verif.DebugExpand.digit_file"
   ],
   "note": "false for the words behind the value: a file name that begins like a number is read as one; exact arithmetic; the text of the map is not modelled"
  },
  {
   "property": "C244",
   "status": "partial",
   "theorems": [
    "Verif.TexRemap.files_read",
    "Verif.TexRemap.face_remapped",
    "Verif.TexRemap.no_file",
    "Verif.TexRemap.order_free",
    "Verif.TexRemap.order_matters",
    "Verif.TexRemap.last_line_open",
    "Verif.TexRemap.empty_name"
   ],
   "note": "false for a last line without newline and for an empty quoted name: undefined behaviour; names in quotes are not covered otherwise, nor lines with one word or more than five"
  },
  {
   "property": "C245",
   "status": "partial",
   "theorems": [
    "Verif.Alias.files_read",
    "Verif.Alias.alias_replaced",
    "Verif.Alias.no_file",
    "Verif.Alias.no_entity",
    "Verif.Alias.order_free",
    "Verif.Alias.order_matters",
    "Verif.Alias.last_brace_open"
   ],
   "note": "false for a file that ends with the brace of an alias: undefined behaviour; keys of an alias are taken to be different and without blanks at their ends"
  }
 ]
}
