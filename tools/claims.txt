C01 | proved | VisRow.pvs_row_roundtrip VisRow.pvs_row_consumed | rows of every length and content, at any position in the lump
C02 | proved | VisRow.pvs_decompress_memory_safe VisRow.pvs_decompress_positions | arbitrary bytes, any offset inside the lump, any buffer size
C03 | proved | VisState.bitmap_roundtrip VisState.getBit_defined | every bitmap and leaf count
C04 | proved | VisState.compressBits_fits | every bitmap and leaf count; writes past the buffer are an explicit ub outcome
C05 | proved | VisState.state_roundtrip VisState.state_mismatch_rejected | every portal list
C06 | partial | VisState.crash_safe_partial VisState.save_then_resume VisState.crash_unsafe_first_save | the property is false of the code for the first save (torn temporary file is resumed from): negation proved; holds whenever a state file already exists
C34 | proved | Contents.q1_native_roundtrip | all integers
C35 | proved | Contents.q2_native_roundtrip Contents.q2_native_rejects | all 2^32 values, by a bit-level argument
C36 | proved | Contents.visible_contents_is_strongest Contents.visible_contents_iff | all contents values
C37 | proved | Contents.leaf_contents_order_independent Contents.leaf_contents_repeat Contents.q1_leaf_contents_meaning Contents.q2_leaf_contents_meaning Contents.cluster_contents_meaning Contents.cluster_contents_order_independent | both games
C38 | proved | Contents.see_through_symmetric Contents.see_through_solid_blocks Contents.see_through_same_visible | both games
C39 | partial | Contents.q1_opaque_liquids_block Contents.q2_opaque_water_does_not_block Contents.q2_see_through_volumes_block Contents.q2_see_through_partial | proved for Quake; false for Quake II (inverted comparison in the last line of portal_can_see_through): negations proved with concrete contents
C40 | proved | Contents.mirror_tristate Contents.clips_same_type_sticky | proved for every previous value
C41 | proved | Contents.Q1.q1_leaf_export_representable Contents.Q1.q1_clip_leaf_export | from texture names and options to exported leaf, for all brush sets
C07 | proved | Vis.every_portal_flowed_once Vis.one_worker_per_portal Vis.completion_leaves_others_alone Vis.some_worker_can_step Vis.schedule_terminates Vis.every_run_can_finish | every graph with fewer than 2^31-1 leafs, every interleaving, every chain of interrupted and resumed runs
C08 | proved | Vis.next_portal_is_cheapest Vis.next_portal_is_first Vis.next_portal_none | every portal table; that some portal is returned needs counts below INT_MAX, which C07's invariant provides
C09 | proved | Vis.full_vis_conservative Vis.fast_vis_conservative | the winding tests are an arbitrary function that does not reject stabbed walks (C99 and C100: the tests of the program do not, without tolerances); sight is an abstract relation closed under sub-walks and reversal (C100: straight lines are one); reads of other threads' bits are sequentially consistent; -visdist 0
C10 | proved | Vis.full_vis_within_fast_vis | no assumption on the winding tests
C11 | proved | Vis.base_flood_is_reachability | termination is part of the definition being accepted
C12 | proved | Vis.Rows.cluster_rows_are_unions Vis.Rows.unfinished_portal_is_an_error | every map whose portals are done and whose leafs have clusters
C13 | partial | Vis.Rows.phs_rows_partial Vis.Rows.phs_complete_on_whole_words_partial Vis.Rows.phs_misses_last_bytes | the property is false of the code: the last leafbytes % sizeof(long) bytes of a row are never or-ed; proved: exactly what is computed, and the property when rows are whole words
C17 | partial | EntData.dict_is_a_map_partial EntData.get_has_spec EntData.order_of_keys EntData.rename_leaves_duplicate | false for renaming onto a present key (negation proved); proved for every other history
C18 | proved | EntData.entities_roundtrip EntData.empty_entity_string_undefined EntData.key_ending_in_backslash_breaks EntData.bare_quote_breaks | every non-empty list of entities whose strings can stand between quotes
C19 | partial | EntData.key_trimmed_partial EntData.trailing_space_undefined | leading white space proved; trailing white space is undefined behaviour for every such key
C20 | proved | Parser.tokenizer_in_bounds Parser.string_histories_in_bounds Parser.successful_read_progresses | termination is part of the definitions being accepted; char is signed
C21 | proved | Parser.peek_shows_next_read Parser.peek_fails_with_next_read Parser.save_restore | 
C65 | partial | Parser.file_read_past_end Parser.file_in_bounds_partial | false: file contents are not NUL-terminated (negation proved); proved for files ending in a newline, except unterminated quotes
C66 | proved | Parser.token_is_verbatim Parser.no_token_means_nothing_left Parser.comment_is_verbatim | 
C67 | partial | Parser.line_counts_newlines_partial Parser.newlines_in_quotes_not_counted | false for newlines inside quoted tokens
C42 | proved | Settings.latest_of_highest_source Settings.latest_unique Settings.reset_restarts Settings.higher_source_prevails Settings.key_changes_only_its_option | 
C43 | partial | Settings.int_options_in_range Settings.scalar_options_in_range_partial Settings.nan_escapes_the_range Settings.int_key_is_clamped_partial Settings.int_arg_is_clamped_partial Settings.big_number_not_clamped | range proved for integers; false for scalars given "nan"; numbers from 2^31 on are truncated before the clamp (negations proved)
C44 | partial | Settings.bool_on_command_line Settings.invertible_on_command_line Settings.bool_as_map_key Settings.invertible_as_map_key_partial Settings.underscore_no_is_not_inverted | false for invertible options written _noname (negation proved)
C68 | proved | Settings.remainder_is_suffix | 
C69 | proved | Settings.aliases_agree | invertible options are covered by C44
C70 | proved | Settings.redirect_sets_all_targets | 
C71 | partial | Settings.enum_value_is_named_partial Settings.enum_takes_undeclared_value | false: any integer is accepted (negation proved)
C72 | partial | Settings.command_line_diagnosed_partial Settings.stray_hyphen_undefined Settings.map_key_diagnosed_partial Settings.empty_key_undefined | false for "-" and for empty values (front() on an empty string, negation proved)
C61 | proved | Cmdlib.crcBlock_correct Cmdlib.crc_detects_one_byte Cmdlib.crcBlock_negative | a negative count, passed for an empty entity lump, is undefined behaviour
C62 | partial | Cmdlib.iequals_spec Cmdlib.iequals_equivalence Cmdlib.iequals_hash Cmdlib.container_equal_hash_partial Cmdlib.container_equal_hash_nul Cmdlib.container_equal_equivalence | complete for string_iequals; the comparison paired with the hash in containers agrees only for strings without NUL bytes (negation proved)
C63 | proved | Cmdlib.replaceAll_correct Cmdlib.replace_split_unique Cmdlib.replaceAll_empty |
C64 | partial | Cmdlib.natural_asymm_partial Cmdlib.natural_key_partial Cmdlib.natural_strict_weak_partial Cmdlib.natural_diverging_partial Cmdlib.natural_not_transitive Cmdlib.natural_unordered_not_transitive | false: not transitive with superfluous leading zeros (negation proved)
C73 | proved | Cmdlib.iless_strict_weak |
C25 | proved | BspFile.numeric_cast_exact BspFile.limits | for the eight fixed-width integer types
C26 | proved | BspFile.convert_all_or_nothing BspFile.convert_there_and_back BspFile.convert_and_load_back BspFile.convert_unsupported BspFile.box_nan_undefined | for boxes without NaN (a NaN box end converted to 16 bits is undefined behaviour, shown by box_nan_undefined); box ends come back rounded outwards
C27 | proved | BspFile.clipnode_child_roundtrip |
C28 | partial | BspFile.file_box_contains_partial BspFile.q2_leaf_box_shrinks BspFile.q2_leaf_box_partial | false for the upper corner of Quake II leafs (negation proved); proved for every other box
C31 | proved | Stream.little_endian_layout Stream.little_endian_roundtrip Stream.scalar_roundtrip Stream.record_roundtrip |
C74 | partial | Stream.memory_stream_read_partial Stream.memory_stream_write_partial Stream.memory_stream_failed Stream.size_stream_counts Stream.memory_stream_overread Stream.memory_stream_overwrite | false for requests that straddle the end (negations proved); proved for all others
C22 | proved | BspFile.write_layout | files below 2 GiB; the format's offsets are 32-bit
C23 | partial | BspFile.write_load_partial BspFile.quake_loaded_as_hexen2 | Quake/Hexen II detection can confuse files: a Quake file without models is loaded as Hexen II
C24 | partial | BspFile.bspx_inside_partial BspFile.bspx_entry_partial BspFile.bspx_wraps BspFile.bspx_before_file | the 32-bit sum of offset and length can overflow; a negative lump end makes the loader read before the file
C29 | proved | BspFile.vis_roundtrip BspFile.vis_offsets | a lump with clusters has data and conversely
C30 | proved | BspFile.tex_roundtrip BspFile.tex_loaded BspFile.tex_size BspFile.tex_short_ub BspFile.tex_name_ub | textures with a complete header and a terminated name; others are undefined behaviour (tex_short_ub, tex_name_ub)
C32 | partial | BspFile.lit_payload_partial BspFile.lit_not_exact BspFile.lit_refused | one additional byte is always appended
C33 | partial | BspFile.brushlist_roundtrip_partial BspFile.brush_faces_lost | brushes with fewer than 65536 faces; the count is truncated to 16 bits
C75 | proved | BspFile.facenormals_roundtrip BspFile.decoupled_roundtrip | 
C76 | proved | BspFile.lit_write_load | one additional byte follows the samples (C32)
C14 | partial | Prt.numbering Prt.detail_shares_cluster Prt.every_cluster_used_partial Prt.empty_cluster | the partition is proved for every tree; "none skipped" is false for a detail group with only solid leafs (negation proved), proved for trees without one
C15 | partial | Prt.prt2_roundtrip_partial Prt.prt1_roundtrip Prt.q2_roundtrip Prt.write_succeeds Prt.mapping_lost Prt.empty_cluster_is_an_error | false when an empty cluster makes the counts equal (negation proved); proved for every other tree, together with all portals
C16 | partial | Prt.portals_in_range_partial Prt.points_refused Prt.cluster_map_in_range Prt.vis_safe_iff Prt.written_file_safe Prt.leaf_beyond_table Prt.truncated_hangs Prt.short_header_undefined Prt.am_map_outside Prt.foreign_prt_outside Prt.am_never_loads_more_leafs | false of the code: leaf number equal to the count accepted, endless loop on truncated files, uninitialised variables, PRT1-AM table too small (all proved); proved: what is checked, and exactly which loaded files are safe
C45 | proved | Geom.clip_stays_on_side Geom.clip_vertices Geom.clip_keeps_vertices Geom.clip_keeps_boundary Geom.clip_edges | for exact arithmetic and unit normals
C46 | proved | Geom.clip_front_back_agree | exact arithmetic
C47 | partial | Geom.Storage.storage_is_array_partial Geom.Storage.storage_stale | false of the code: points left in the vector after a clear come back (negation proved for every N); proved for every history without such a push
C48 | partial | Geom.Box.containsPoint_iff Geom.Box.contains_iff Geom.Box.union_in_place Geom.Box.union_contains Geom.Box.union_least Geom.Box.expand_least Geom.Box.intersect_iff Geom.Box.disjoint_iff Geom.Box.disjoint_or_touching_iff Geom.Box.union_empty_left_partial Geom.Box.union_empty_right Geom.Box.bounds_least Geom.Box.grow_translate_inside | all laws proved except that the empty box is neutral only on the left (negation on the right proved)
C49 | proved | Tree.clip_lookup_parent Tree.point_lookup Tree.point_in_solid Tree.visit_leafs Tree.point_in_leaf | for every file tree that is sound from the head node and whose node planes carry the right type; distances exact
C55 | proved | Tree.prune_solid Tree.prune_keeps_leafs Tree.prune_no_two_solid Tree.prune_count Tree.prune_exported_contents Tree.prune_brushes_kept Tree.prune_brushes_only | solid counts func_detail_wall leafs in Quake, which become solid in the file
C56 | proved | Tree.clip_export Tree.clip_export_appends Tree.clip_export_total Tree.start_exported | planes rounded as in the file; node planes even-numbered (see C77)
C57 | partial | Tree.leaf_zero Tree.draw_export_partial Tree.draw_visleafs Tree.draw_appends Tree.draw_export_total Tree.draw_export_leaf_head Tree.draw_export_leaf_head_next | proved for trees with at least one node; for a tree that is a single leaf the recorded head node refers to no node of the model (draw_export_leaf_head, draw_export_leaf_head_next)
C77 | proved | Tree.planes_pairs Tree.plane_numbers Tree.plane_added_only_if_new Tree.fast_distance Tree.fast_distance_odd_wrong | exact arithmetic; the spatial map is an oracle that yields any entry in the box
C50 | proved | Flood.flood_occupied Flood.flood_void | leafs and portals as in C78; unbounded int
C51 | partial | Flood.leak_iff Flood.leak_no_entity Flood.fill_ends Flood.leak_iff_rim Flood.leak_missed | the code looks at one leaf on the rim only: the equivalence holds for that leaf (leak_iff), and for the whole rim if the open rim leafs are connected (leak_iff_rim); without that a leak can be missed (leak_missed)
C52 | proved | Flood.leak_line | 
C53 | proved | Flood.fill_contents | 
C78 | proved | Flood.tree_portals Flood.vis_portals Flood.joins_ne Flood.wellFormed_of_tree | windings are abstract
C79 | proved | Flood.link_lists | 
C80 | proved | Flood.fill_detail | 
C81 | proved | Flood.sides_visible Flood.sides_other | the search for the side of a portal is a parameter
C82 | proved | Flood.leak_trail Flood.leak_file Flood.leak_corners Flood.leak_endless | exact arithmetic
C54 | proved | Flood.areas_partition Flood.areas_none Flood.areaWellFormed_of_tree | reachable means marked by a fill from the inside or by detail filling; without either there are no areas at all (areas_none)
C83 | proved | Flood.areas_of_portal Flood.area_records Flood.records_symm Flood.areas_off | warnings are left out
C84 | proved | Flood.shortest_path | 
C58 | partial | Faces.split_limit Faces.limit_first Faces.limit_not_applied | proved for a face that is alone in the list; when triangulation or retopology made several faces only the first one is ever split (limit_first, limit_not_applied)
C59 | proved | Faces.merge_list Faces.merge_list_measure | for every merge predicate
C60 | proved | Faces.edge_vertices Faces.edge_vertices_exact Faces.edge_degenerate | exact arithmetic; the conversion of the bounds to float is a parameter, and the order along the edge is strict only up to it (edge_vertices_exact: without rounding)
C85 | proved | Faces.superface_free | exact arithmetic apart from the conversion of the bounds
C86 | proved | Faces.welds_symm Faces.welds_iff Faces.interacts_symm Faces.interacts_refl | 
C87 | partial | Faces.fragments_region_partial Faces.mwt_face_region Faces.rotated_region Faces.retopology_account Faces.retopology_hole | holds for all levels unless retopology makes a cut behind its seed; such a cut loses one triangle (retopology_account says which, retopology_hole is a concrete face); the geometric tests are parameters
C88 | proved | Faces.rotation_valid Faces.rotation_found Faces.mwt_optimal | exact arithmetic
C89 | proved | Faces.merge_attributes Faces.merge_convex Faces.merge_convex_exact | exact arithmetic; faces that meet within a tolerance only are not covered; no third vertex on the line of the common edge
C90 | proved | Emit.emit_faces Emit.emit_keeps Emit.emit_edge_use Emit.emit_succeeds | planes come in pairs (C77); rounding to float is an odd function
C91 | partial | Emit.emitted_vertices Emit.emitted_vertices_stay Emit.shared_point_partial Emit.shared_point_false | the same point on two faces may be given two vertices, at most twice the tolerance apart; exact arithmetic before the conversion to float
C92 | proved | Emit.texinfo_found Emit.texinfo_stable Emit.texinfo_animated Emit.texinfo_ends | 
C93 | proved | Emit.texinfos_exported Emit.texinfo_export_ends | surface flags are an arbitrary type with the two tests the export makes
C94 | proved | BrushBsp.brush_bsp_ends | exact arithmetic; the measure of planes and the choice of middle planes are arbitrary
C95 | partial | BrushBsp.leaf_keeps_brushes BrushBsp.leaf_contents | exact arithmetic; the point is more than 0.1 off the planes it passes and the cuts on its way are clean: both halves are kept and no tolerance plays a role. Exactness needs the point to be behind the polygons in its leaf that no node uses (C97 says when there are such polygons)
C96 | partial | BrushBsp.windings_close_partial BrushBsp.from_plane_ok BrushBsp.Ex2.windings_undefined | no bevels, no vertex near a plane without being on it, and every side that touches the brush gets a polygon; a brush that leaves the world leads to undefined behaviour
C97 | partial | BrushBsp.structural_first BrushBsp.leaf_done BrushBsp.leaf_done_small BrushBsp.node_marks BrushBsp.hint_last_partial BrushBsp.Ex.mid_unmarked BrushBsp.Ex.leaf_not_done BrushBsp.Ex.hint_split | the claim is false for middle planes (no mark), for planes with a value of at most -99999 and for hint sides of brushes other than the last
C98 | partial | BrushBsp.check_of_split BrushBsp.check_iff_split BrushBsp.Ex.check_not_split | the claim is false for brushes that touch the end of the world on the second or third axis
C99 | partial | Vis.clip_keeps_partial Vis.clip_cuts Vis.separator_keeps_partial Vis.keeps_false | exact arithmetic and comparisons without a tolerance; with the tolerance of the program a strip of a winding narrower than 0.1 is dropped
C100 | partial | Vis.full_vis_sees_partial Vis.vis_loses_leaf | exact arithmetic and comparisons without a tolerance; lines steeper than the tolerance of the test for equal planes; with the tolerance of the program the claim is false for slits narrower than 0.1
C101 | partial | Vis.fast_vis_sees Vis.visdist_limit Vis.vis_loses_leaf | exact arithmetic; with the tolerance of the program for lines that are at each portal at least that far away from the planes of the others; false for other lines
C102 | proved | BrushBsp.chop_ends | exact arithmetic; clean cuts: both halves are kept and no tolerance plays a role in the polygon of the cut
C103 | partial | BrushBsp.chop_keeps_points BrushBsp.Ex.chop_loses_points | exact arithmetic; the cuts are clean and no vertex is nearer than 0.1 to a plane without being on it. Without that the claim is false: what reaches less than 0.1 out of another brush is lost
C104 | partial | BrushBsp.chop_no_overlap_partial BrushBsp.Ex.chopped_brushes_overlap | brushes that stay whole overlap no later brush; the claim is false for pieces: those of the current brush are not looked at again
C105 | proved | BrushBsp.chop_leaves_others BrushBsp.chop_no_fragments | exact arithmetic, which plays no role
C106 | proved | Light.lightmaps_stored Light.vanilla_stored | no face that has lightmaps in two sizes may have a larger one in the standard size (otherwise false, see C113); -litonly is in C120
C107 | proved | Light.lightmaps_apart | the reserved ranges at the recorded offsets
C108 | partial | Light.size_fixed Light.Ex.layout_varies | false: the offsets depend on the schedule; the amount of data does not
C109 | partial | Light.save_succeeds Light.run_exists Light.Ex.offset_overflow | holds if three times the data fits into an int; otherwise an offset overflows before the check
C110 | partial | Light.kept_brightest Light.kept_limit Light.sortable_iff Light.sortable_q2 Light.Ex.style_256_dropped | lightmaps of styles above 255 are dropped also when styles are written with 16 bits
C111 | partial | Light.styles_recorded_partial Light.unlit_marked Light.Ex.stale_offset Light.Ex.style_255_lost | false for style 255, which is also the end mark, and for unlit faces with extended lumps
C112 | partial | Light.lumps_readable_partial | as long as no light has style 255
C113 | partial | Light.sup_face_unlit Light.both_same_offset Light.Ex.vanilla_lost Light.Ex.neighbour_destroyed Light.Ex.coarse_fails Light.lightmaps_stored | false; only the lightmaps in their own size are stored reliably
C114 | partial | Light.Ex.lit2_complete_partial Light.Ex.lit2_empty Light.Ex.lit2_no_directions | true only if the BSP file had the same amount of lightmap data before and directions are computed
C115 | proved | Light.flood_fills | ends after at most one round more than there are hidden samples
C116 | proved | Light.lightmap_written | colours are rational numbers; the normalisation of directions is a parameter
C117 | proved | Light.lightmap_local | stated with bounds: if the samples within reach are visible and between two bounds, so is the result
C118 | partial | Light.scaled_in_range Light.scaled_maxlight Light.scaled_ratio Light.any_light_written Light.ImgEx.colorscale_undefined Light.ImgEx.maxlight_undefined | for a _lightcolorscale from 0 to 1 and a _maxlight that is not negative; false otherwise, and the program accepts such values
C119 | partial | Light.decoupled_written_partial Light.ImgEx.decoupled_undefined Light.decoupled_black | for the coloured data and samples that do not lie before the first sample; otherwise undefined; the greyscale data is always black
C120 | partial | Light.litonly_stored Light.litonly_succeeds Light.litRun_exists Light.litonly_after_light Light.ImgEx.litonly_undefined | if the lightmaps have the sizes with which the BSP file was made; otherwise bytes are written beyond the end of the data
C121 | proved | LightGrid.octree_lump_tells LightGrid.finds_unique | stated with a separate reader of the lump; samples as C126 gives them
C122 | proved | LightGrid.octree_leafs_divide | for the leafs that the separate reader reads from the lump
C123 | partial | LightGrid.light_grid_tells_partial LightGrid.light_grid_schedule LightGrid.light_grid_zero_distance LightGrid.light_grid_too_large | for positive distances, bounds with an extent on each axis, and less than 2^31 points; a distance of zero or more points are undefined
C124 | partial | LightGrid.grid_near_partial LightGrid.grid_never_reaches_top | only the grid point below exists; the last one always lies below the upper limit of the bounds
C125 | partial | LightGrid.styles_summed_partial LightGrid.slots_well_formed LightGrid.fifth_style LightGrid.brighter_style_lost | the sum for at most four styles; with more, a style can be lost to a dimmer one
C126 | partial | LightGrid.scale_bounds_partial LightGrid.scale_keeps_hue LightGrid.calc_writable_partial LightGrid.scale_negative_limit | if _maxlight and -range are not negative; undefined for a negative _maxlight at a point without light
C127 | proved | Archive.pak_faithful Archive.wad_faithful | for archives whose directory and files lie within the file and whose names are terminated; others are C128
C128 | partial | Archive.open_pak_partial Archive.open_wad_partial Archive.truncated_pak_ub Archive.long_name_ub Archive.cut_file_spoils_others Archive.load_size | the exact condition for opening; otherwise a header or directory that is cut short, or a name without NUL, is undefined behaviour, and after one cut-off file every later load gives zeros
C129 | partial | Archive.search_order_partial Archive.load_contents_partial Archive.search_direct Archive.default_order_differs Archive.directory_hides_file | the order as the code has it; the documented order does not hold by default, and a directory can be answered for a file
C130 | proved | Archive.registered_once Archive.calls_extend Archive.add_again Archive.add_refused Archive.registered_faithful | for any sequence of calls
C131 | partial | Archive.search_again_partial Archive.plain_search_pure Archive.load_again_partial Archive.direct_load_interferes | repeated calls agree, and searches without an archive path change nothing; a path through an archive registers the archive and changes later searches
C132 | partial | Archive.extract_textures_partial Archive.palettes_shift_textures | for textures of exactly the size of Quake's, in a wad below 2 GB; with a palette, as in Half-Life, the textures after it are wrong
C133 | proved | Styles.styles_assigned Styles.styles_enough Styles.name_of_style | for entities where nothing undefined happens (C135)
C134 | partial | Styles.surface_styles_partial Styles.one_thread_no_race Styles.surface_lights_race Styles.surface_styles_depend_on_schedule | for names that entities already have, or a single thread; otherwise there is a data race, and the styles depend on the schedule
C135 | partial | Styles.other_keys_kept Styles.escape_rendered Styles.light_again_partial Styles.lightmap_scale_undefined Styles.escapes_change_on_relight | except for lightmap_scale, whose value is used after it was erased; lighting again for entities without escape sequences
C136 | partial | TexFlags.flags_arrive_partial TexFlags.flags_off TexFlags.no_phong_lost TexFlags.infinite_stops_light TexFlags.odd_name_stops_qbsp | for finite numbers, names in UTF-8 and no mark against phong shading; the mark is stored in the wrong member, an infinite number stops light, and another name stops qbsp
C137 | partial | TexFlags.mismatch_partial TexFlags.mismatch_not_ignored TexFlags.unreadable_stops | nothing of the file is used, but the scale of colours becomes 0 for all faces
C138 | proved | TexFlags.keys_matter TexFlags.plain_entity TexFlags.inherited TexFlags.switches TexFlags.phong_angle TexFlags.ranges TexFlags.names TexFlags.optional | arithmetic on floating-point numbers is a parameter with stated laws
C139 | partial | TexFlags.flags_defined_partial TexFlags.surflight_color_undefined | for whole numbers of type int and colours whose components fit a byte; a colour such as "300 0 0" is converted without a check
C140 | proved | Hulls.clip_hull_covers Hulls.Ex.marked_face_spreads | what base polygons are like is a hypothesis (C96 proves it of from_plane); lengths, rounding of directions and the table of planes are parameters with a tolerance
C141 | proved | Hulls.clip_hull_tight Hulls.Ex.redundant_face_enlarges | for arithmetic without tolerances; that convex bodies which no plane parts meet (separation of convex sets) is not proved
C142 | proved | Hulls.point_hull_unchanged | 
C143 | proved | World.world_extent_covers World.world_extent_attained World.threads_end World.one_face_overflows World.no_brush_no_extent | exact arithmetic; brushes with fewer than two faces have undefined behaviour, a map without brushes has no size
C144 | proved | Place.external_map_placed Place.mirrored_inside_out | exact arithmetic; a scale that mirrors turns the brushes inside out, which is proved too
C145 | partial | Place.scale_option_partial Place.origin_offsets Place.scale_forgets_origin Place.scaled_bevels_lose_brush | false for entities with an origin and, in the clipping hulls, for brushes with bevels
C146 | proved | TexDef.quakeEd_meaning TexDef.valve_meaning TexDef.quark_meaning TexDef.primitives_meaning | exact arithmetic; QuArK's when the three points are not nearly in a line; brush primitives for normals of length 1 without tiny components
C147 | partial | TexDef.convert_valve TexDef.convert_primitives TexDef.convert_quake TexDef.convert_quake_wraps TexDef.negative_shift_lost TexDef.empty_texture_ub | QuakeEd: exact up to scales of 1000 and within a thousandth beyond; false for negative shifts when the size of the texture is known
C148 | proved | MapText.convert_reads_back MapText.convert_reads_back_exactly MapText.missing_info_becomes_zero MapText.quoted_name_lost MapText.region_primitive_breaks MapText.omit_primitive_breaks MapText.omit_late | texture names that are plain words and brushes that are no region; numbers and their texts are parameters with the law that reading gives back what was shown
C149 | partial | MapText.load_in_bounds_partial MapText.load_in_bounds_but_keys_partial MapText.key_trimmed MapText.blank_key_ub MapText.empty_key_ub MapText.no_newline_ub | false for files that end in the middle of a word or string, and for keys that are empty or white space
C150 | partial | Textures.mip_loaded_partial Textures.wal_loaded_partial Textures.stb_loaded Textures.pcx_palette_partial Textures.game_palette_partial Textures.short_mip_ub Textures.mip_wraps_ub Textures.no_palette_ub Textures.palette_before_ub Textures.wal_beyond_ub Textures.short_wal_ub Textures.wal_name_ub Textures.short_pcx_ub | false for truncated files, sums that wrap around, Quake II textures whose pixels are not within the file and Half-Life textures without a palette: all read outside of memory
C151 | partial | Textures.sample_tiled Textures.cache_sample_partial Textures.cache_sample_q2_partial Textures.no_texture_clear Textures.stripped_ub Textures.wrapped_ub Textures.no_height_ub | proved for every texture with pixels; false for textures with a size but without pixels, which stay in the cache
C152 | partial | Textures.projected_between_partial Textures.projected_range_partial Textures.projected_outside Textures.projected_small_ub | proved for images whose size is that of the metadata, with at least two rows and columns; false for a replacement image that is smaller
C153 | partial | Textures.average_mean_partial Textures.average_bounds_partial Textures.saturate_vivid Textures.averageColor_ok_partial Textures.metadata_color Textures.missing_ub Textures.transparent_ub | proved for images with a pixel that counts; otherwise the average is not a number, which is converted to a byte
C154 | partial | Illum.cull_lossless_partial Illum.other_channel Illum.bright_color_lost Illum.projected_lost Illum.outside_sphere_lost | proved for samples within the bounding sphere, colours up to 255 and lights without a projected texture; false otherwise, and the samples that light makes are a unit outside of the plane of the face
C155 | proved | Illum.light_fades Illum.wait_fades Illum.light_defined Illum.linear_reach Illum.falloff_reach Illum.scaled_to_128 Illum.doubled_distance Illum.delay5_tamer Illum.checked_ranges Illum.jitter_total Illum.jitter_whole Illum.no_scale_infinite | no_scale_infinite: with -dist 0 the formulas that divide by the distance give infinities
C156 | proved | Illum.spot_outside Illum.spot_inside Illum.spot_between Illum.spot_fades Illum.cone_default Illum.wide_cone_dark | wide_cone_dark: a cone of more than 360 degrees is dark in the middle
C157 | partial | Illum.dirt_darkens_partial Illum.dirt_off Illum.dirt_monotone Illum.dirt_radii Illum.negative_scale_brightens Illum.zero_scale_ignored | proved for scales that are not negative; a negative dirt scale brightens, and a dirt scale of 0 on a light is ignored
C158 | partial | Illum.light_by_style_partial Illum.surface_by_style_partial Illum.addmin_by_style_partial Illum.reserved_style_leaks | proved for all styles but 65535, which stands for a light map that was not saved; _switchshadstyle allows it
C159 | partial | Illum.surface_behind Illum.surface_fades Illum.surface_hotspot Illum.high_quality_complete Illum.gate_lossless Illum.skipped_far_partial Illum.strength_shared Illum.near_sample_lost Illum.surface_scale_stops_bounces Illum.negative_surface_ignored | what is skipped for a whole face is judged at its far side, and for bounced light with the scale of surface lights: both lose light
C160 | partial | Illum.min_light_floor_partial Illum.min_light_twice_partial | proved for all styles but 65535, as for C158
C161 | proved | Extents.engine_extents Extents.face_covered Extents.lightmap_on_face Extents.stored_on_face Extents.face_on_lightmap Extents.mapping_exists Extents.face_in_sphere | exact arithmetic
C162 | partial | Extents.units_mapping_exists Extents.units_scale Extents.units_stretch Extents.units_not_mirrored Extents.stored_agrees_partial Extents.stored_size_wraps Extents.zero_units_undefined Extents.unlit_extents_undefined | the data that is written describes the lightmap only if it is less than 65536 luxels wide and high; 0 units are accepted and undefined, and so is reading back a face without a lightmap
C163 | proved | Extents.grid_inside Extents.grid_centered Extents.grid_dense Extents.sample_in_front Extents.face_sampled | exact arithmetic; the correction of points inside walls is not part of it
C164 | partial | Atlas.packing_ends_partial Atlas.every_face_placed Atlas.places_apart_partial Atlas.image_shows_samples_partial Atlas.image_clear_elsewhere_partial Atlas.styles_with_images_partial Atlas.atlas_defined Atlas.uv_within Atlas.tall_face_hangs Atlas.wide_face_overlaps Atlas.style_254_lost | proved for lightmaps of less than 512 columns and rows and styles below 254; a lightmap of 512 rows never ends, one of 600 columns covers another, and style 254 has no image
C165 | proved | Decompile.leafs_covered Decompile.brushes_true Decompile.brushes_apart Decompile.leafs_defined Decompile.hull_brushes Decompile.leaf_hull_undefined | exact arithmetic; a hull that is a single leaf is undefined behaviour, and so is a clip node out of range
C166 | partial | Decompile.reduced_region_partial Decompile.redundant_removed Decompile.coincident_planes_lost Decompile.brush_left_open Decompile.q2_region Decompile.q2_no_thin | two equal planes next to each other are both left out and the brush is open; the tolerance of the clipping is excluded by a hypothesis
C167 | partial | Decompile.split_uniform Decompile.split_covers Decompile.split_region_partial Decompile.split_disjoint Decompile.split_sides Decompile.dropped_why Decompile.split_lost | a brush for which no cut is found is dropped
C168 | partial | Decompile.points_give_plane Decompile.written_plane Decompile.through_unique Decompile.texture_kept Decompile.texture_slide Decompile.texture_moves_partial Decompile.written_textures_partial Decompile.largest_ge Decompile.texture_slides Decompile.fill_opposite Decompile.fill_textures | scaled textures slide when the brushes of an entity are moved
C169 | partial | Decompile.keys_kept Decompile.point_keeps_origin Decompile.origin_moves_partial Decompile.origin_before_model Decompile.missing_classname_undefined Decompile.portal_brush | an origin before the number of the model does not move the brushes; an entity without a class name is undefined behaviour
C170 | proved | Surfaces.subdivide_ends Surfaces.subdivide_pieces Surfaces.subdivide_special Surfaces.subdivideNode_eq Surfaces.subdivide_stuck Surfaces.fits_luxels | exact arithmetic; the length of a vector is a parameter
C171 | proved | Surfaces.marks_complete Surfaces.marks_sound Surfaces.marks_nodup | exact arithmetic
C172 | proved | Surfaces.face_seen Surfaces.faces_of_nodes Surfaces.leafFaces_ub Surfaces.updateSphere_ball | merging is a parameter (it is the subject of the claims on merged faces); a portal that shows a side but is on no node is undefined behaviour
C173 | partial | Phong.smoothed_iff_partial Phong.smoothed_faces Phong.smoothed_both_ways_partial Phong.smoothed_one_way Phong.wide_angle Phong.flags_that_matter_quake Phong.flags_that_matter_quake2 | real arithmetic; that smoothing is mutual is false of the code (`smoothed_one_way`), as is the claim for angles over 180 degrees (`wide_angle`)
C174 | partial | Phong.angle_kept_partial Phong.angle_of_last_partial Phong.angle_of_another_model Phong.own_angle_lost | the statement is false of the code: `angle_of_another_model`, `own_angle_lost`
C175 | proved | Phong.normals_recorded Phong.normals_flat Phong.normals_within Phong.normals_shared | real arithmetic; tangents are not modelled
C176 | proved | Phong.edge_faces Phong.edge_smoothed | 
C177 | proved | Phong.normals_any_order Phong.normals_progress Phong.normal_read | 
C178 | partial | Samples.interpolated_normal_is_a_mix Samples.interpolated_normal_of_equal_normals Samples.interpolated_normal_exists Samples.interpolated_normal_not_unit | real arithmetic; that the mix has length one is false of the code (`interpolated_normal_not_unit`)
C179 | proved | Samples.sample_is_placed Samples.sample_over_its_face_stays Samples.sample_over_its_face_occluded Samples.sample_past_the_border | real arithmetic; the test for solids is that of C182
C180 | proved | Samples.closest_on_segment Samples.closest_on_border | real arithmetic
C181 | partial | Samples.crossed_edge_partial Samples.crossed_edge_not_least_past | real arithmetic; false past the second end of an edge (`crossed_edge_not_least_past`)
C182 | partial | Samples.in_any_solid_partial Samples.in_any_solid_moved_model | false for moved models (`in_any_solid_moved_model`)
C183 | partial | Suns.sun_split_partial Suns.sun_outside_penumbra | real arithmetic; that the suns are within the penumbra is false (`sun_outside_penumbra`)
C184 | partial | Suns.suns_total Suns.lights_set_up Suns.sun_direction_partial Suns.sun_mangle_misread Suns.sun_light_partial Suns.sun_light_divided Suns.one_sample_one_sun | real arithmetic; false for `mangle` (`sun_mangle_misread`) and for deviance with some formulas (`sun_light_divided`)
C185 | proved | Suns.dome_up Suns.dome_low Suns.dome_halves Suns.domes_total | real arithmetic
C186 | partial | Suns.jitter_copies_partial Suns.jitter_light Suns.jitter_outside_sphere Suns.dome_multiplied Suns.jitter_draws | real arithmetic; false for the sphere (`jitter_outside_sphere`) and for domes (`dome_multiplied`)
C187 | proved | Suns.targets | reading the keys is C50 and others
C188 | proved | Suns.lights_nudged | the test for solids is a parameter
C189 | proved | PortalSides.side_from_brush PortalSides.side_none PortalSides.side_exact PortalSides.side_closest PortalSides.side_no_assert | exact arithmetic; the rules of the game are parameters (see `Contents`)
C190 | partial | PortalSides.side_found_partial PortalSides.side_missed | false in general (`side_missed`)
C191 | proved | PortalSides.sides_marked PortalSides.sides_marked_others | the tree is given as the list of its leafs with their portals
C192 | partial | SurfLights.pieces_small SurfLights.pieces_area SurfLights.small_face_kept SurfLights.subdivide_ends SurfLights.full_face_overflows SurfLights.corner_check_unused | memory safety is false (`full_face_overflows`); exact arithmetic, twice the area along a normal; the rest holds of every run that ends well
C193 | proved | SurfLights.face_lit_once SurfLights.face_not_lit SurfLights.template_fits SurfLights.lamps_to_templates | the test for the name of a texture and the centre of a piece are parameters; exact arithmetic
C194 | proved | Radiosity.patches_small Radiosity.patches_keep_corners Radiosity.dice_ends Radiosity.center_inside | exact arithmetic
C195 | proved | Radiosity.surface_settings Radiosity.settings_lit Radiosity.surface_points Radiosity.isLit_iff | the patches are those of C194; normalising and moving points out of solids are parameters; exact arithmetic
C196 | partial | Radiosity.surface_energy_partial Radiosity.dim_surface_too_dark Radiosity.negative_surface_shines | the full property is false (`dim_surface_too_dark`, `negative_surface_shines`); exact arithmetic
C197 | partial | Radiosity.bounce_skips Radiosity.bounce_pass_partial Radiosity.bounce_points_partial Radiosity.bounce_forgets_offset | the strength is as in C196 and the place as in the file, not of the model (`bounce_forgets_offset`); styles of a face's light maps are distinct; exact arithmetic
C198 | partial | Radiosity.pass_faces Radiosity.pass_true Radiosity.pass_one_by_one_partial Radiosity.pass_lost Radiosity.passes_eq | the full property is false (`pass_lost`); a call for a face is one step
C199 | partial | MapUtil.save_reads_back_partial MapUtil.quark_lost MapUtil.quark_read MapUtil.short_info_ub MapUtil.quoted_name_lost MapUtil.qbsp_reads_more MapUtil.primitives_unreadable MapUtil.primitives_refused MapUtil.primitives_unwritable | the full property is false (`quark_lost` and the others); numbers are printed and read by parameters that agree, as in C148
C200 | partial | MapUtil.convert_keeps MapUtil.convert_map_same MapUtil.convert_same MapUtil.convert_valve_partial MapUtil.valve_angle_unset MapUtil.primitives_unwritable MapUtil.convert_etp_error MapUtil.convert_quake_moved MapUtil.convert_quake_def MapUtil.convert_quake_partial MapUtil.wall_moved | the full property is false (`valve_angle_unset`, `wall_moved`); exact arithmetic
C201 | proved | MapUtil.run_commands MapUtil.run_in_bounds MapUtil.strip_save MapUtil.last_strip_ignored | Lua scripts are a parameter
C202 | partial | BspUtil.check_reports_partial BspUtil.check_unused BspUtil.unlit_reported BspUtil.offsets_reported BspUtil.vertex_reported BspUtil.check_prints BspUtil.vertex_missed | the full property is false (`unlit_reported`, `vertex_missed`)
C203 | partial | BspUtil.height_iff BspUtil.heights_printed BspUtil.check_defined BspUtil.planar_reports BspUtil.planar_crashes BspUtil.check_crashes | the full property is false (`check_crashes`, `planar_crashes`)
C204 | partial | BspUtil.Scale.scale_faces_partial BspUtil.Scale.scale_brushsides_partial BspUtil.Scale.scale_leaf_partial BspUtil.Scale.half_turn_reversed BspUtil.Scale.scale_two_mirrors BspUtil.Scale.scale_clip_wrong BspUtil.Scale.scale_clipnodes_kept | the full property is false (`half_turn_reversed`, `scale_clip_wrong`); exact arithmetic
C205 | partial | BspUtil.Scale.scale_corners BspUtil.Scale.scale_textures BspUtil.Scale.scale_decoupled BspUtil.Scale.scale_model_bounds BspUtil.Scale.scale_leaf_bounds BspUtil.Scale.scale_node_bounds BspUtil.Scale.scale_grid_partial BspUtil.Scale.grid_mirrored BspUtil.Scale.scale_edges_torn BspUtil.Scale.scale_entities BspUtil.Scale.lip_travel | the full property is false (`scale_edges_torn`, `grid_mirrored`); exact arithmetic; numbers in entities are read and printed by parameters
C206 | partial | BspUtil.Replace.replace_brushes BspUtil.Replace.replace_error BspUtil.Replace.replace_keys BspUtil.Replace.load_verbatim BspUtil.Replace.replace_order_wrong BspUtil.Replace.replace_left_empty BspUtil.Replace.replace_empty_ub BspUtil.Replace.primitives_refused | the full property is false (`replace_order_wrong`, `replace_left_empty`, `primitives_refused`)
C207 | partial | BspUtil.Commands.reads_in_order BspUtil.Commands.alone BspUtil.Commands.enough_words BspUtil.Commands.missing_words BspUtil.Commands.lumps_kept BspUtil.Commands.lump_removed BspUtil.Commands.at_most_one_change BspUtil.Commands.written_over_entities BspUtil.Commands.second_conversion_wrong BspUtil.Commands.source_emptied BspUtil.Commands.replace_after_change_ub BspUtil.Commands.null_words BspUtil.Commands.scale_takes_file | the full property is false (`at_most_one_change`, `written_over_entities`, `null_words`); what the commands compute are parameters
C208 | partial | Miptex.textures_listed Miptex.number_stays Miptex.refused_iff Miptex.frames_added Miptex.frames_ub_iff Miptex.lower_not_first Miptex.long_name_cut Miptex.plus_ub | the order the comment wants, long names and the name `+` are false of the code (`lower_not_first`, `long_name_cut`, `plus_ub`)
C209 | partial | Miptex.Chain.listed_unique Miptex.Chain.face_number Miptex.Chain.face_keeps Miptex.Chain.face_defined Miptex.Chain.animation_listed Miptex.Chain.animation_never_ends Miptex.Chain.circle_never_ends Miptex.Chain.still_texture_animated | the full property is false (`circle_never_ends`, `still_texture_animated`); loading a texture is a parameter
C210 | partial | Archive.Wads.listed_registered Archive.Wads.default_registered Archive.Wads.ensure_keeps Archive.Wads.parts_spec Archive.Wads.load_at Archive.Wads.wad_paths Archive.Wads.wad_paths_sorted Archive.Wads.wad_paths_order Archive.Wads.second_path_unseen Archive.Wads.local_not_embedded Archive.Wads.empty_part_hides_default | the full property is false (`second_path_unseen`, `local_not_embedded`, `empty_part_hides_default`); how a text becomes a path is a parameter
C211 | partial | Tree.faces_at_point Tree.point_of_face Tree.first_face Tree.node_at_point Tree.wall_before_floor | that the one face has the wanted normal is false of the code (`wall_before_floor`); arithmetic is exact
C212 | partial | Shadow.occluded_iff Shadow.passes Shadow.solid_blocks Shadow.fence_blocks Shadow.limited_shadow_partial Shadow.intersect_nearest Shadow.isSky_iff Shadow.limited_liquid Shadow.fence_of_both Shadow.channels_block Shadow.faceAlpha_value Shadow.alpha_ignored Shadow.leaf_error | the documented meaning of the keys is false of the code in the cases of `limited_liquid`, `fence_of_both`, `channels_block`, `alpha_ignored`, `leaf_error`; which triangles lie on a ray is given
C213 | partial | Shadow.tinted_partial Shadow.never_brighter Shadow.switched_partial Shadow.last_pane_wins Shadow.last_switch_wins Shadow.glass_behind_sky | for several panes or switchable shadows the result depends on the order (`last_pane_wins`, `last_switch_wins`, `glass_behind_sky`)
C214 | partial | Mottle.mottle_range Mottle.mottle_seamless Mottle.mottle_defined Mottle.mottle_repeats Mottle.mottle_varies Mottle.mottle_debug | assertions of a debug build fail in some cells (`mottle_debug`); exact arithmetic for float
C215 | partial | Dirt.occlusion_range Dirt.occlusion_occluded Dirt.occlusion_pos Dirt.clear_partial Dirt.clear_axial Dirt.behind_clear Dirt.occlusion_mono Dirt.far_counts Dirt.cone_exceeded Dirt.ordered_vectors Dirt.inUse_iff | the depth is not the limit on oblique surfaces (`far_counts`), nor the angle the limit of random rays (`cone_exceeded`); exact arithmetic for float
C216 | partial | SunRay.faceSky_mem SunRay.sunColor_value SunRay.sunColor_twosided SunRay.skip_harmless SunRay.pointSun_value SunRay.grid_at_least SunRay.pointLight_value SunRay.pointSky_some SunRay.pointEntity_some SunRay.grid_ignores SunRay.unknown_texture SunRay.grid_channels | the light grid ignores suntexture and switchable shadows (`grid_ignores`) and channels (`grid_channels`), an unknown suntexture is ignored (`unknown_texture`); exact arithmetic for float
C217 | partial | Passes.entity_once Passes.steps_ordered Passes.result_value Passes.ignoring_dark Passes.lightFace_error_iff Passes.bad_face_ends Passes.good_faces Passes.bounce_debug_dark Passes.local_min_bounces Passes.nolighting_lights | false as documented for -bouncedebug, -nolighting, local minimum light and bad faces (the last four theorems and `bad_face_ends`)
C218 | partial | FaceKeys.surface_values FaceKeys.twosided_iff FaceKeys.nodirt_iff FaceKeys.decoupled_units FaceKeys.minimum_value FaceKeys.minimum_color FaceKeys.color_ignored FaceKeys.never_lower FaceKeys.quake2_lower | a minimum light or colour set for a model or face does not always take effect (`color_ignored`, `never_lower`, `quake2_lower`); exact arithmetic for float
C219 | partial | FaceKeys.mapScale_value FaceKeys.shifts_partial FaceKeys.scale_value FaceKeys.scales_forced FaceKeys.coarser_ignored FaceKeys.short_lump_ub FaceKeys.large_shift_ub FaceKeys.never_warns FaceKeys.modelOf_some FaceKeys.listOf_value FaceKeys.modelLists_ok | scales coarser than the map's are not used (`coarser_ignored`), short lumps and large shifts are undefined
C220 | partial | OnlyEnts.full_models OnlyEnts.only_models OnlyEnts.same_models_partial OnlyEnts.only_accepts OnlyEnts.merged_iff OnlyEnts.shifted_by_origin_brush OnlyEnts.shifted_by_trigger | false for entities of origin brushes only and with -notriggermodels (`shifted_by_origin_brush`, `shifted_by_trigger`)
C221 | partial | OnlyEnts.same_lump_partial OnlyEnts.written_iff OnlyEnts.origin_lost OnlyEnts.only_keeps_origin OnlyEnts.full_sets_origin OnlyEnts.scale_ignored OnlyEnts.rotate_case OnlyEnts.scaled_twice | false for origin brushes, scales and rotating entities (`origin_lost`, `scale_ignored`, `rotate_case`)
C222 | partial | BrushList.same_points BrushList.normalize_axial BrushList.normalize_normal BrushList.box_matters BrushList.contents_value BrushList.quake2_solid_liquids BrushList.quake2_contents BrushList.mem_fromGroups BrushList.models_listed BrushList.world_listed BrushList.listed_once_partial BrushList.bad_model_ends BrushList.world_twice | false for entities that name a model themselves (`world_twice`, `bad_model_ends`) and for liquids in Quake II; bounds are assumed to be the least box; exact arithmetic
C223 | partial | Ambient.soundOf_iff Ambient.levels_value Ambient.any_order Ambient.slime_silent Ambient.far_is_loud Ambient.no_cluster_ub | the distance has no effect (`far_is_loud`) and a leaf without a cluster is undefined behaviour (`no_cluster_ub`); boxes of faces given
C224 | proved | LeafBrush.leafs_name LeafBrush.brushes_written LeafBrush.written_iff_leaf LeafBrush.later_models_keep | contents of a fragment are those of its brush; the aligned vectors of a plane are a parameter
C225 | partial | Target.no_flag Target.one_flag Target.hexen_flag Target.two_flags Target.user_wins Target.hexen_hides Target.not_reset | two formats are not an error if one is Hexen II (`hexen_hides`)
C226 | partial | VisCull.entity_kept VisCull.liquid_kept VisCull.entity_skipped_iff VisCull.never_skipped VisCull.surface_skipped_iff VisCull.surface_kept_partial VisCull.surface_dropped | surface lights are skipped if any of their leafs is unseen (`surface_dropped`); leafs of sample points given
C227 | proved | TexValid.side_faithful TexValid.drawn_kept TexValid.edge_on_reset TexValid.hidden_reset | exact arithmetic for float
C228 | partial | Region.surface_walled Region.interior_free Region.wall_thick Region.region_filled Region.loaded_iff Region.antiregion_ignored Region.ents_partial Region.brush_entity_removed Region.last_entity_ub | false of the code for regions that are no boxes (`region_filled`), for anti-regions (`antiregion_ignored`) and for both (`brush_entity_removed`, `last_entity_ub`)
C229 | proved | LoadEnt.world_loaded LoadEnt.portals_differ LoadEnt.portal_of_many LoadEnt.region_unnumbered LoadEnt.renumbered | brushes as numbers; which are left out is C228
C230 | partial | LoadEnt.quarter_turns_partial LoadEnt.rotBounds_least LoadEnt.expanded_iff LoadEnt.corner_leaves | false of the code for turns other than quarter turns (`corner_leaves`)
C231 | partial | TreeBounds.bounds_hold_partial TreeBounds.bounds_tight TreeBounds.flat_leaf TreeBounds.flat_root_ub | false of the code for flat leafs (`flat_leaf`, `flat_root_ub`); exact arithmetic
C232 | proved | DivBounds.parts_held DivBounds.parts_least DivBounds.axial_metric DivBounds.nearer_better DivBounds.flat_unknown DivBounds.axial_outside | exact arithmetic; the choice among the planes by this measure is `BrushBsp.chooseMid`
C233 | proved | Flood.exits_found Flood.portal_leak_line Flood.longest_spec | the search for a shortest way is C84; the file is not modelled
C234 | partial | Projector.directions Projector.picture Projector.bad_fov Projector.outside Projector.aim_partial Projector.angles_dark | false for lights aimed with `angles`: they count as spotlights without a direction
C235 | proved | SunRay.sky_value SunRay.front_value SunRay.behind_dark SunRay.surfaces_mem SunRay.surfaces_all | exact arithmetic for float; what rays meet is a parameter
C236 | partial | Miptex.copied Miptex.not_copied Miptex.not_found Miptex.one_each Miptex.all_stored Miptex.size_known Miptex.readable_partial Miptex.any_file_copied Miptex.short_file_ub Miptex.long_names_alike | reading the entries needs files whose 16 bytes of the name have an end: any file of 40 bytes is taken for a texture
C237 | partial | VisCull.estimate_box VisCull.seen_not_skipped VisCull.addPoints_holds VisCull.surface_not_skipped VisCull.skipped_only VisCull.up_down VisCull.flat_space VisCull.seen_but_skipped | the last sentence is false: no ray is level, so lights between a floor and a ceiling do not reach further than 46.5 times the distance to them
C238 | proved | SurfLights.empty_line SurfLights.light_line SurfLights.bad_line SurfLights.lights_of_lines SurfLights.lights_of_file SurfLights.bad_file SurfLights.files_in_order | words without quotes; reading and writing numbers is a parameter
C239 | proved | NormalsLump.normals_read_back NormalsLump.always_written NormalsLump.kept_or_axis NormalsLump.hardly_moved NormalsLump.snapped | floats have values and bits (0 and -0 are the same value); no NaN; as many normals as edges for each face; fewer than 2^32 vectors
C240 | partial | Styles.arghrad_keys Styles.lights_loaded Styles.no_lights Styles.arghrad_again Styles.arghrad_again_differs | false for lighting again: the changed keys are written to the BSP file and changed once more; reading and writing numbers is given; no key of Arghrad occurs twice in an entity
C241 | partial | WalJson.numbers_given WalJson.animation_given WalJson.contents_given WalJson.flags_given_partial WalJson.flags_array WalJson.color_given WalJson.not_given WalJson.json_used WalJson.file_used WalJson.wal_not_read WalJson.light_lost | false in Quake II for what is not given: the .wal is looked for without textures/; false for arrays of flags, which are added to those of a .wal; parsing JSON and reading a .wal are given
C242 | proved | NodePortal.portal_in_region NodePortal.portal_edges NodePortal.portal_kept NodePortal.portal_fails | exact arithmetic; WindingIsTiny and the length of a vector are given functions
C243 | partial | DebugExpand.map_expanded DebugExpand.brush_contained DebugExpand.no_map DebugExpand.values_read DebugExpand.digit_file | false for the words behind the value: a file name that begins like a number is read as one; exact arithmetic; the text of the map is not modelled
C244 | partial | TexRemap.files_read TexRemap.face_remapped TexRemap.no_file TexRemap.order_free TexRemap.order_matters TexRemap.last_line_open TexRemap.empty_name | false for a last line without newline and for an empty quoted name: undefined behaviour; names in quotes are not covered otherwise, nor lines with one word or more than five
C245 | partial | Alias.files_read Alias.alias_replaced Alias.no_file Alias.no_entity Alias.order_free Alias.order_matters Alias.last_brace_open | false for a file that ends with the brace of an alias: undefined behaviour; keys of an alias are taken to be different and without blanks at their ends
