{"id": "C01", "title": "PVS row compression round-trips", "statement": "Writing a visibility row with the BSP zero-run-length encoder and reading it back with the decompressor yields exactly the original row, whatever data follows it in the visdata lump.", "quantifier": "every byte row of every length, every trailing data", "why_tests_cant": "rows are unbounded strings; runs of zeros around 255/256 bytes at every offset cannot be enumerated", "anchors": ["common/bsputils.cc:CompressRow", "common/bsputils.cc:DecompressVis"]}
{"id": "C02", "title": "PVS row decompression is memory safe on corrupt data", "statement": "Decompressing a visibility row from arbitrary (possibly corrupt or truncated) bytes terminates, never reads past the end of the lump, never writes past the row buffer, and leaves a buffer of exactly the row size.", "quantifier": "every input byte string, every row size", "why_tests_cant": "a malformed BSP may contain any bytes; tests cover a handful", "anchors": ["common/bsputils.cc:DecompressVis", "common/bsputils.cc:DecompressedVisSize"]}
{"id": "C03", "title": "vis state bitmap compression round-trips", "statement": "For every leaf bitmap, compressing it for the vis state file and decompressing (or raw-copying when the compressed form is not smaller) restores exactly the same bitmap.", "quantifier": "every leaf count and every bitmap", "why_tests_cant": "the number of bitmaps is exponential in the leaf count", "anchors": ["vis/state.cc:CompressBits", "vis/state.cc:DecompressBits", "vis/state.cc:CopyLeafBits"]}
{"id": "C04", "title": "vis state bitmap compression never overruns its buffer", "statement": "The compressed form of a leaf bitmap never occupies more bytes than the raw bitmap, and every write is inside the raw-size buffer.", "quantifier": "every leaf count and every bitmap", "why_tests_cant": "overflow depends on the exact alignment of runs with the end of the buffer", "anchors": ["vis/state.cc:CompressBits", "vis/state.cc:SaveVisState"]}
{"id": "C05", "title": "vis state file save/load round-trips", "statement": "Loading a state file written for the same map restores, for every portal, its finished visibility bitmap, its potential-visibility bitmap and counters; a portal that was in progress when the file was written is restarted.", "quantifier": "every portal set, every portal status and bitmap", "why_tests_cant": "states are unbounded histories of the flow threads", "anchors": ["vis/state.cc:SaveVisState", "vis/state.cc:LoadVisState"]}
{"id": "C06", "title": "vis state save is crash safe", "statement": "If vis is killed at any point while saving its state, the next run resumes from either the previously saved state or the new one, never from a partially written file.", "quantifier": "every crash point inside the save sequence, every previous file system state", "why_tests_cant": "crash points are between any two writes; a test kills the process at a few of them", "anchors": ["vis/state.cc:SaveVisState", "vis/state.cc:LoadVisState"]}
{"id": "C07", "title": "vis flows every portal exactly once under any thread schedule", "statement": "For any number of worker threads and any interleaving, every portal is handed to exactly one worker, is flowed exactly once, and is finished when the parallel loop ends; no run aborts with 'reflowed' or 'portal not done'.", "quantifier": "every number of portals, threads, and interleaving of their steps, including resumed states", "why_tests_cant": "thread schedules are unbounded and not controllable from a test", "anchors": ["vis/vis.cc:GetNextPortal", "vis/vis.cc:LeafThread", "vis/vis.cc:PortalCompleted", "vis/vis.cc:CalcPortalVis", "vis/flow.cc:PortalFlow"]}
{"id": "C08", "title": "vis hands out the cheapest portal first", "statement": "A worker asking for work gets an unstarted portal whose potential-visibility count is minimal among unstarted portals, and gets none only if no unstarted portal is left.", "quantifier": "every portal table", "why_tests_cant": "ties and already-taken portals give unboundedly many tables", "anchors": ["vis/vis.cc:GetNextPortal"]}
{"id": "C09", "title": "full vis never loses a genuinely visible leaf, in any schedule", "statement": "If a leaf can be reached from a portal through a chain of portals along which a line of sight survives all clipping, the leaf is in that portal's final visibility set, regardless of which other portals were finished first.", "quantifier": "every portal graph, every sound clipping oracle, every set of already finished portals", "why_tests_cant": "graphs and orders of completion are unbounded", "anchors": ["vis/flow.cc:RecursiveLeafFlow", "vis/flow.cc:PortalFlow", "vis/flow.cc:BasePortalThread", "vis/flow.cc:SimpleFlood"]}
{"id": "C10", "title": "full vis is at most the fast result", "statement": "The leaf set computed for a portal by the full flow is a subset of the portal's potential-visibility set, which is what -fast writes; so full vis never shows more than fast vis.", "quantifier": "every portal graph and schedule", "why_tests_cant": "as above", "anchors": ["vis/flow.cc:RecursiveLeafFlow", "vis/vis.cc:CalcPortalVis"]}
{"id": "C11", "title": "the base visibility flood is exactly graph reachability", "statement": "A leaf is in a portal's flood set iff it can be reached from the portal's far leaf by portals that pass the front test, and the flood visits every leaf at most once, so it terminates.", "quantifier": "every portal graph and front set", "why_tests_cant": "graphs are unbounded", "anchors": ["vis/flow.cc:SimpleFlood", "vis/flow.cc:BasePortalThread"]}
{"id": "C12", "title": "cluster visibility rows are the union of portal results", "statement": "After vis a cluster sees cluster j iff j is itself or some portal of the cluster sees j; with shared clusters (Q1 detail) a leaf's row has bit i set iff leaf i+1's cluster is seen.", "quantifier": "every portal/leaf/cluster table", "why_tests_cant": "tables are unbounded", "anchors": ["vis/vis.cc:ClusterFlow"]}
{"id": "C13", "title": "the potentially hearable set contains everything a visible cluster sees", "statement": "In Quake II a cluster's PHS row contains its own PVS row and the PVS row of each cluster in it.", "quantifier": "every number of clusters and every PVS", "why_tests_cant": "depends on the row width modulo the machine word", "anchors": ["vis/soundpvs.cc:CalcPHS"]}
{"id": "C14", "title": "portal file cluster numbering is a partition of the open leafs", "statement": "Numbering assigns every non-solid leaf exactly one cluster, solid leafs none outside detail groups, clusters are consecutive from 0 with none skipped, and all leafs of one detail group share a cluster.", "quantifier": "every BSP tree with detail separators", "why_tests_cant": "trees are unbounded", "anchors": ["qbsp/prtfile.cc:NumberLeafs_r"]}
{"id": "C15", "title": "portal file cluster mapping survives the file", "statement": "The leaf-to-cluster mapping written by qbsp in a PRT2 file is the mapping vis reads back: leaf i of the file belongs to cluster c iff qbsp numbered it c.", "quantifier": "every tree with detail separators", "why_tests_cant": "trees are unbounded", "anchors": ["qbsp/prtfile.cc:WritePTR2ClusterMapping_r", "common/prtfile.cc:LoadPrtFile"]}
{"id": "C16", "title": "loading a portal file never indexes outside the leaf table", "statement": "Every portal accepted by the portal file loader refers to two leafs inside the table allocated for the declared number of leafs; other files are rejected with an error.", "quantifier": "every portal file", "why_tests_cant": "malformed input space is infinite", "anchors": ["common/prtfile.cc:LoadPrtFile", "vis/vis.cc:LoadPortals"]}
{"id": "C17", "title": "entity key/value table behaves like an ordered map", "statement": "get returns the value of the last set for a key, other keys are unaffected, order of first insertion is kept, removal deletes the key, and renaming moves the value and leaves no duplicate key.", "quantifier": "every history of set/remove/rename/get calls", "why_tests_cant": "histories are unbounded", "anchors": ["common/entdata.cc:entdict_t::set", "common/entdata.cc:entdict_t::get", "common/entdata.cc:entdict_t::remove", "common/entdata.cc:entdict_t::rename"]}
{"id": "C18", "title": "entity lump text round-trips", "statement": "Writing a list of entities to the entity lump and parsing it back yields the same entities, key order and values.", "quantifier": "every list of entities whose strings are representable", "why_tests_cant": "strings and lists are unbounded; escapes and braces interact", "anchors": ["common/entdata.cc:EntData_Write", "common/entdata.cc:EntData_ParseInto", "common/parser.cc:parse_token"]}
{"id": "C19", "title": "entity keys lose only surrounding whitespace", "statement": "Parsing an entity trims leading and trailing whitespace of a key and otherwise keeps it.", "quantifier": "every key string", "why_tests_cant": "strings are unbounded", "anchors": ["common/entdata.cc:entdict_t::parse"]}
{"id": "C20", "title": "tokenizer never reads past the end of its input", "statement": "Tokenizing any NUL-terminated text reads only bytes up to and including the terminator, always terminates, and a successful call always makes progress.", "quantifier": "every NUL-terminated byte string, every flag combination", "why_tests_cant": "input space is infinite", "anchors": ["common/parser.cc:parser_t::parse_token"]}
{"id": "C21", "title": "peeking does not consume input", "statement": "A peek leaves position and line number unchanged and returns the token that the next real read returns.", "quantifier": "every text and position", "why_tests_cant": "input space is infinite", "anchors": ["common/parser.cc:parser_t::parse_token"]}
{"id": "C22", "title": "BSP lumps are laid out aligned, in bounds and disjoint", "statement": "Every lump of a written BSP file starts on a 4-byte boundary, lies inside the file and overlaps neither the header nor another lump.", "quantifier": "every list of lump contents and BSPX lumps", "why_tests_cant": "sizes are unbounded; padding depends on each size modulo 4", "anchors": ["common/bspfile.cc:bspfile_t::write_lump", "common/bspfile.cc:WriteBSPFile"]}
{"id": "C23", "title": "BSP file write then load restores every lump", "statement": "Reading a written BSP file gives back the bytes of each lump, and each BSPX extension lump under its name.", "quantifier": "every list of lump contents, every set of BSPX lumps with representable names", "why_tests_cant": "sizes and contents are unbounded", "anchors": ["common/bspfile.cc:WriteBSPFile", "common/bspfile.cc:LoadBSPFile", "common/bspfile.cc:bspfile_t::write_bspx"]}
{"id": "C24", "title": "BSPX loading never reads outside the file", "statement": "A BSPX directory entry is accepted only if its data lies inside the file.", "quantifier": "every file, every directory entry", "why_tests_cant": "malformed input space is infinite", "anchors": ["common/bspfile.cc:LoadBSPFile"]}
{"id": "C25", "title": "narrowing conversions are exact or rejected", "statement": "Converting a BSP structure field to a narrower integer type either preserves the value or raises an overflow error; no value is silently wrapped.", "quantifier": "every pair of integer types and every value", "why_tests_cant": "four signedness cases times boundary values for every width", "anchors": ["include/common/numeric_cast.hh:numeric_cast", "include/common/numeric_cast.hh:will_overflow"]}
{"id": "C26", "title": "format conversion is all-or-nothing", "statement": "Converting a BSP to another format either succeeds for every element of every array or fails leaving the in-memory BSP unchanged; after success, converting back gives the original values.", "quantifier": "every BSP content", "why_tests_cant": "one oversized element anywhere decides", "anchors": ["common/bspfile.cc:ConvertBSPFormat", "common/bspfile.cc:CopyArray"]}
{"id": "C27", "title": "Quake clipnode children round-trip through 16 bits", "statement": "A clipnode child index is either rejected as out of range or, after writing to the 16-bit format and loading, is exactly the original (negative contents values stay negative, indices above 32767 stay positive).", "quantifier": "every 32-bit child value", "why_tests_cant": "value space is large and the split point is unusual", "anchors": ["common/bspfile_q1.cc:bsp29_dclipnode_t::downcast", "common/bspfile_q1.cc:bsp29_dclipnode_t::upcast"]}
{"id": "C28", "title": "written bounding boxes contain the original boxes", "statement": "The integer bounding box of a node or leaf in the output file contains the floating-point box it was computed from.", "quantifier": "every box", "why_tests_cant": "rounding of every real value", "anchors": ["include/common/numeric_cast.hh:aabb_mins_cast", "common/bspfile_q1.cc:bsp29_dleaf_t", "common/bspfile_q2.cc:q2_dleaf_t"]}
{"id": "C29", "title": "Quake II vis lump offsets round-trip", "statement": "Writing the vis lump and reading it back restores cluster count, offsets and data, and a cluster's row is found at its offset.", "quantifier": "every number of clusters, offsets and data", "why_tests_cant": "unbounded", "anchors": ["common/bspfile_generic.cc:mvis_t::stream_read", "common/bspfile_generic.cc:mvis_t::stream_write", "common/bspfile_generic.cc:mvis_t::get_bit_offset"]}
{"id": "C30", "title": "texture lump round-trips", "statement": "Writing the miptex lump and reading it back gives the same number of textures, missing textures stay missing, and every texture's data is a 4-byte padded copy of the original.", "quantifier": "every list of textures", "why_tests_cant": "unbounded sizes; padding interacts with offsets", "anchors": ["common/bspfile_generic.cc:dmiptexlump_t::stream_read", "common/bspfile_generic.cc:dmiptexlump_t::stream_write"]}
{"id": "C31", "title": "little-endian scalars round-trip", "statement": "Every integer written to a little-endian stream is read back unchanged, for every width, and a whole record of fields is read back field by field.", "quantifier": "every width and value", "why_tests_cant": "value space is large", "anchors": ["include/common/cmdlib.hh:endian", "common/cmdlib.cc"]}
{"id": "C32", "title": "lit file loading returns exactly the file's payload", "statement": "Loading a .lit file yields exactly the bytes after the 8-byte header.", "quantifier": "every file", "why_tests_cant": "depends on stream end-of-file behaviour", "anchors": ["common/bsputils.cc:LoadLitFile"]}
{"id": "C33", "title": "BSPX brush list round-trips", "statement": "The BRUSHLIST extension lump written by qbsp is read back with the same models, brushes and planes.", "quantifier": "every list of models and brushes", "why_tests_cant": "unbounded; counts narrow to 16 bits", "anchors": ["common/bspxfile.cc:bspxbrushes::stream_write", "common/bspxfile.cc:bspxbrushes::stream_read"]}
{"id": "C34", "title": "Quake native contents round-trip", "statement": "Each valid Quake leaf contents value is reproduced by converting to internal flags and back; any other native value is rejected.", "quantifier": "every 32-bit integer", "why_tests_cant": "value space is large", "anchors": ["common/bspfile.cc:gamedef_q1_like_t::create_contents_from_native", "common/bspfile.cc:gamedef_q1_like_t::contents_to_native"]}
{"id": "C35", "title": "Quake II native contents round-trip", "statement": "Converting any 32-bit Quake II contents value to internal flags and back gives the same value.", "quantifier": "every 32-bit value", "why_tests_cant": "2^32 values", "anchors": ["common/bspfile.cc:gamedef_q2_t::create_contents_from_native", "common/bspfile.cc:gamedef_q2_t::contents_to_native"]}
{"id": "C36", "title": "strongest visible contents is well defined", "statement": "The visible contents of a volume is the highest-priority visible type present, or none if no visible type is present.", "quantifier": "every contents value", "why_tests_cant": "2^38 values", "anchors": ["include/common/bspfile_common.hh:contentflags_t::visible_contents"]}
{"id": "C37", "title": "combining contents does not depend on order", "statement": "Merging the contents of overlapping brushes, and of the leafs in a cluster, is commutative, associative and idempotent, so the result does not depend on brush or leaf order.", "quantifier": "every list of contents and permutation", "why_tests_cant": "unbounded lists", "anchors": ["common/bspfile.cc:combine_contents", "common/bspfile.cc:cluster_contents", "qbsp/portals.cc:ClusterContents"]}
{"id": "C38", "title": "see-through is symmetric and solids block", "statement": "Whether vis can see across a boundary does not depend on the side it is asked from, a solid on either side blocks, and two volumes with the same visible contents never block.", "quantifier": "every pair of contents, both transwater settings", "why_tests_cant": "2^76 pairs", "anchors": ["common/bspfile.cc:gamedef_q1_like_t::portal_can_see_through", "common/bspfile.cc:gamedef_q2_t::portal_can_see_through"]}
{"id": "C39", "title": "opaque liquids block sight, translucent ones do not", "statement": "With opaque water, a boundary between an opaque liquid and air blocks vis; a boundary between two volumes that both count as see-through never does; in both games.", "quantifier": "every pair of contents", "why_tests_cant": "2^76 pairs", "anchors": ["common/bspfile.cc:portal_can_see_through"]}
{"id": "C40", "title": "mirror-inside flag is tri-state", "statement": "Setting a brush's mirror-inside option to true/false/unset is read back as exactly that, for a brush whose option was unset before.", "quantifier": "every contents value and option", "why_tests_cant": "2^38 values", "anchors": ["common/bspfile_common.cc:contentflags_t::mirror_inside", "common/bspfile_common.cc:contentflags_t::set_mirrored"]}
{"id": "C41", "title": "every leaf qbsp exports to Quake has a representable contents type", "statement": "After export remapping, converting leaf contents to Quake native never fails and never turns a solid leaf non-solid.", "quantifier": "every contents value produced by combination of valid brushes", "why_tests_cant": "2^38 values", "anchors": ["common/bspfile.cc:contents_remap_for_export", "common/bspfile.cc:contents_to_native"]}
{"id": "C42", "title": "option sources obey precedence", "statement": "After any sequence of option assignments, an option's value is the latest one from the highest-priority source (command line over map over game over default).", "quantifier": "every history of assignments", "why_tests_cant": "histories are unbounded", "anchors": ["common/settings.cc:setting_base::change_source", "include/common/settings.hh:setting_value::set_value"]}
{"id": "C43", "title": "numeric options stay in range", "statement": "A numeric option's value is always inside its declared range and equals the clamp of the number given.", "quantifier": "every history, every numeric text", "why_tests_cant": "values are unbounded", "anchors": ["include/common/settings.hh:setting_numeric"]}
{"id": "C44", "title": "boolean options mean what their text says", "statement": "A boolean option given as '-name', '-name 1' is on, '-name 0' off, and '-noname' is its negation, on the command line and as a map key (with leading underscores allowed).", "quantifier": "every option name and spelling", "why_tests_cant": "spellings are unbounded", "anchors": ["common/settings.cc:setting_bool::parse", "common/settings.cc:setting_invertible_bool::parse"]}
{"id": "C45", "title": "splitting a polygon by a plane loses nothing and stays on its side", "statement": "Both parts of a split consist of original vertices and points on original edges; every vertex of the front part is in front of or on the plane (within epsilon), every vertex of the back part behind or on it; every original vertex is in a part.", "quantifier": "every polygon and plane over an ordered field", "why_tests_cant": "real-valued input space", "anchors": ["include/common/polylib.hh:winding_base_t::clip", "include/common/polylib.hh:winding_base_t::calc_sides"]}
{"id": "C46", "title": "clip_front and clip_back agree with clip", "statement": "The one-sided clip functions return the same front and back polygons as the two-sided one.", "quantifier": "every polygon, plane, epsilon", "why_tests_cant": "real-valued input space", "anchors": ["include/common/polylib.hh:winding_base_t::clip_front", "include/common/polylib.hh:winding_base_t::clip_back"]}
{"id": "C47", "title": "polygon storage keeps points intact", "statement": "A polygon's point container behaves like a growable array: reads return the last value written at that index, for every sequence of pushes, clears and resizes.", "quantifier": "every history of container operations", "why_tests_cant": "histories are unbounded; switching between inline and heap storage is history dependent", "anchors": ["include/common/polylib.hh:winding_storage_hybrid_t"]}
{"id": "C48", "title": "bounding box union and containment laws", "statement": "The union of boxes contains both and is the least such box, intersection contains exactly the common points, disjoint boxes share no point, and the empty box is neutral for union.", "quantifier": "every box", "why_tests_cant": "real-valued input space", "anchors": ["include/common/aabb.hh"]}
{"id": "C49", "title": "point lookup finds the unique leaf containing the point", "statement": "Walking the BSP for a point ends at a leaf all of whose half-space constraints the point satisfies; each point belongs to exactly one leaf.", "quantifier": "every tree and point", "why_tests_cant": "trees and points are unbounded", "anchors": ["common/bsputils.cc:BSP_FindLeafAtPoint_r", "common/bsputils.cc:Light_PointInSolid_r"]}
{"id": "C50", "title": "outside fill distances are shortest distances", "statement": "The flood from the void (or from occupied leafs) marks exactly the leafs reachable through non-sealing portals and records the minimal number of portals crossed.", "quantifier": "every portal graph", "why_tests_cant": "graphs are unbounded", "anchors": ["qbsp/outside.cc:FloodFillLeafsFromVoid", "qbsp/outside.cc:BFSFloodFillFromOccupiedLeafs"]}
{"id": "C51", "title": "a leak is reported iff an entity can reach the void", "statement": "Outside filling reports a leak exactly when some leaf containing an entity is connected to the void by non-sealing portals; otherwise filling proceeds.", "quantifier": "every portal graph, every occupied set, both fill directions", "why_tests_cant": "graphs are unbounded", "anchors": ["qbsp/outside.cc:FillOutside"]}
{"id": "C52", "title": "the leak line is a real path", "statement": "The portals of a reported leak line form a connected, loop-free shortest chain of passable portals between the leaking entity's leaf and the void, and the search terminates.", "quantifier": "every leaking graph", "why_tests_cant": "graphs are unbounded", "anchors": ["qbsp/outside.cc:FindPortalsToVoid", "qbsp/outside.cc:MakeLeakLine"]}
{"id": "C53", "title": "outside fill never fills playable space", "statement": "When no leak is found, a leaf reachable from any entity is never turned solid, every leaf that is turned solid was not sealing, and (filling outside-in) every non-sealing leaf reachable from the void is turned solid.", "quantifier": "every sealed portal graph", "why_tests_cant": "graphs are unbounded", "anchors": ["qbsp/outside.cc:OutLeafsToSolid_R"]}
{"id": "C54", "title": "Quake II areas partition the open leafs", "statement": "Area flooding gives every reachable non-solid, non-areaportal leaf one area, and two leafs have the same area iff they are connected without crossing an area portal.", "quantifier": "every portal graph", "why_tests_cant": "graphs are unbounded", "anchors": ["qbsp/portals.cc:FloodAreas_r", "qbsp/portals.cc:FindAreas_r"]}
{"id": "C55", "title": "pruning a BSP never changes what is solid", "statement": "After pruning, every point is in a solid leaf iff it was before, non-solid leafs keep their contents, and no remaining node has two solid leafs as children.", "quantifier": "every tree and point", "why_tests_cant": "trees are unbounded", "anchors": ["qbsp/tree.cc:PruneNodes_R", "qbsp/tree.cc:ConvertNodeToLeaf"]}
{"id": "C56", "title": "exported clip hull equals the in-memory tree", "statement": "Walking the exported clipnode array from the model's head node classifies every point with the same contents as the in-memory tree it was exported from, whatever was exported before.", "quantifier": "every tree, every point, every preceding array contents", "why_tests_cant": "trees are unbounded", "anchors": ["qbsp/writebsp.cc:ExportClipNodes", "common/bsputils.cc:FindClipnodeAtPoint_r"]}
{"id": "C57", "title": "exported draw tree equals the in-memory tree", "statement": "Walking the exported node array reaches, for every point, the exported record of the in-memory leaf containing it (or the shared solid leaf 0), and the leaf count recorded in the model equals the number of leafs exported for it.", "quantifier": "every tree, every point", "why_tests_cant": "trees are unbounded", "anchors": ["qbsp/writebsp.cc:ExportDrawNodes", "qbsp/writebsp.cc:ExportLeaf"]}
{"id": "C58", "title": "splitting faces with too many edges respects the limit and keeps every edge", "statement": "Every fragment of an over-long face has at most the permitted number of edges, each original edge appears in exactly one fragment, and splitting terminates.", "quantifier": "every face size, every permitted limit", "why_tests_cant": "sizes are unbounded", "anchors": ["qbsp/tjunc.cc:SplitFaceIntoFragments"]}
{"id": "C59", "title": "face merging terminates and conserves faces", "statement": "Merging a face list terminates and each merge replaces exactly two faces by one, so the number of faces plus the number of merges is unchanged.", "quantifier": "every face list and merge predicate", "why_tests_cant": "the loop restarts; lists are unbounded", "anchors": ["qbsp/merge.cc:MergeFaceToList", "qbsp/merge.cc:MergeFaceList"]}
{"id": "C60", "title": "T-junction fixing inserts exactly vertices on the edge, in order", "statement": "The vertices inserted on a face edge lie on that edge strictly between its endpoints, in strictly increasing order along it, and after insertion no candidate vertex remains strictly inside a resulting sub-edge.", "quantifier": "every edge and candidate list", "why_tests_cant": "recursion over unbounded lists", "anchors": ["qbsp/tjunc.cc:TestEdge"]}
{"id": "C61", "title": "CRC matches the CCITT polynomial", "statement": "The checksum computed with the lookup table equals bitwise CRC-16/CCITT division for every message.", "quantifier": "every byte string", "why_tests_cant": "messages are unbounded", "anchors": ["common/cmdlib.cc:CRC_Block"]}
{"id": "C62", "title": "case-insensitive hashing agrees with case-insensitive equality", "statement": "Strings equal ignoring case have equal hashes, and equality ignoring case is an equivalence relation.", "quantifier": "every pair of strings", "why_tests_cant": "strings are unbounded", "anchors": ["common/cmdlib.cc:string_iequals", "include/common/cmdlib.hh:case_insensitive_hash"]}
{"id": "C63", "title": "string replacement replaces all occurrences left to right and terminates", "statement": "Replacing all occurrences of a non-empty substring terminates and equals splitting at leftmost non-overlapping occurrences and joining with the replacement.", "quantifier": "every string and pattern", "why_tests_cant": "strings are unbounded", "anchors": ["common/cmdlib.cc:string_replaceall"]}
{"id": "C64", "title": "natural string ordering is a strict weak order", "statement": "The natural sort comparison used for ordering names is irreflexive, asymmetric and transitive.", "quantifier": "every triple of strings", "why_tests_cant": "strings are unbounded", "anchors": ["common/cmdlib.cc:natstrcmp"]}
{"id": "C65", "title": "tokenizing a loaded file never reads past its last byte", "statement": "Reading tokens from the contents of a file on disk or in an archive touches only bytes of that file, whatever the file ends with.", "quantifier": "every file content, every position and flag combination", "why_tests_cant": "input space is infinite; the bug only shows on particular last bytes and heap layouts", "anchors": ["common/parser.cc:parser_t::parse_token", "common/fs.cc:directory_archive::load", "qbsp/map.cc:LoadExternalMap"]}
{"id": "C66", "title": "tokens are verbatim pieces of the text", "statement": "A token returned by the tokenizer is a contiguous piece of the input, byte for byte: either what stands between two double quotes or a maximal run of non-blank bytes, and everything skipped before it is blanks and comments; no token is reported only when nothing but blanks and comments is left.", "quantifier": "every text, position and flags", "why_tests_cant": "input space is infinite", "anchors": ["common/parser.cc:parser_t::parse_token"]}
{"id": "C67", "title": "reported line numbers count newlines", "statement": "After any read the parser's line number is the starting line plus the number of newlines consumed.", "quantifier": "every text and position", "why_tests_cant": "input space is infinite", "anchors": ["common/parser.cc:parser_t::parse_token"]}
{"id": "C68", "title": "the rest of a command line is handed back intact", "statement": "When a command line is accepted, the arguments handed back to the tool are a suffix of the command line and do not start with an option.", "quantifier": "every command line and option set", "why_tests_cant": "command lines are unbounded", "anchors": ["common/settings.cc:setting_container::parse"]}
{"id": "C69", "title": "option aliases are interchangeable", "statement": "Giving an option under any of its names has the same effect, on the command line and as a map key.", "quantifier": "every option, value and pair of names", "why_tests_cant": "unbounded values", "anchors": ["common/settings.cc:setting_container::find_setting", "common/settings.cc:setting_container::set_setting"]}
{"id": "C70", "title": "group options set every member", "statement": "An option that stands for several boolean options sets each of them to what the command line says, takes its value word once, and changes nothing else.", "quantifier": "every option set and command line", "why_tests_cant": "unbounded", "anchors": ["common/settings.cc:setting_redirect::parse"]}
{"id": "C71", "title": "enumerated options hold a declared value", "statement": "After any text is given to an enumerated option, it holds one of its declared values; unknown texts are rejected.", "quantifier": "every text", "why_tests_cant": "texts are unbounded", "anchors": ["include/common/settings.hh:setting_enum::parse"]}
{"id": "C72", "title": "option texts never cause undefined behaviour", "statement": "Every command line and every map key/value is either accepted or rejected with an error.", "quantifier": "every command line, every key and value", "why_tests_cant": "texts are unbounded", "anchors": ["common/settings.cc:setting_container::parse", "common/settings.cc:setting_container::set_setting"]}
{"id": "C73", "title": "case-insensitive ordering is a strict weak order", "statement": "The case-insensitive less-than comparison is irreflexive, transitive and trichotomous, where the third case is case-insensitive equality.", "quantifier": "every triple of strings", "why_tests_cant": "strings are unbounded", "anchors": ["common/cmdlib.cc:case_insensitive_less", "common/cmdlib.cc:case_insensitive_equal"]}
{"id": "C74", "title": "memory streams stay inside their buffer", "statement": "Reading from or writing to a stream over a memory buffer touches only bytes of that buffer: a read returns exactly the bytes at the position or fails, a write replaces exactly the bytes at the position or fails, and the byte-counting stream reports the number of bytes written.", "quantifier": "every buffer, position, length and sequence of writes", "why_tests_cant": "positions and lengths are unbounded; the faulty case is a request that straddles the end", "anchors": ["common/cmdlib.cc:membuf::xsgetn", "common/cmdlib.cc:membuf::xsputn", "common/cmdlib.cc:omemsizebuf::xsputn"]}
{"id": "C75", "title": "FACENORMALS and DECOUPLED_LM lumps round-trip", "statement": "The per-vertex normals and the per-face decoupled lightmap records written to BSPX lumps are read back unchanged, each record under its own face.", "quantifier": "every table of normals, every list of faces, every face number", "why_tests_cant": "unbounded sizes", "anchors": ["common/bspxfile.cc:bspxfacenormals::stream_write", "common/bspxfile.cc:bspxfacenormals::stream_read", "common/bsputils.cc:BSPX_DecoupledLM", "common/bsputils.cc:BSPX_FaceNormals"]}
{"id": "C76", "title": "lit write then load restores the samples", "statement": "Loading a .lit file that light wrote gives the samples that were written, at their positions.", "quantifier": "every number of samples and contents", "why_tests_cant": "unbounded sizes", "anchors": ["light/write.cc:WriteLitFile", "common/bsputils.cc:LoadLitFile"]}
{"id": "C77", "title": "planes come in opposite pairs and plane numbers stay valid", "statement": "Whatever sequence of planes is asked for, the list of planes consists of pairs of opposite planes, the even-numbered one facing the positive direction of its main axis; the number returned refers for ever to a plane that agrees with the one asked for up to the tolerance; a plane is added only if none agrees with it; and the shortcut for the distance from an axial plane of the file is the true distance for every even-numbered plane.", "quantifier": "every sequence of planes with unit normals", "why_tests_cant": "sequences and planes are unbounded", "anchors": ["qbsp/map.cc:mapdata_t::add_plane", "qbsp/map.cc:mapdata_t::add_or_find_plane", "qbsp/qbsp.cc:qbsp_plane_t::normalize", "include/common/bspfile_generic.hh:dplane_t::distance_to_fast"]}
{"id": "C78", "title": "portals join the leafs on both sides", "statement": "Portalizing a tree never fails its assertions; each portal on the plane of a node joins a leaf in front of that node with a leaf behind it, the other portals join a leaf with the outside, and no portal joins a leaf with itself. In the portals for vis, detail clusters take the place of leafs.", "quantifier": "every tree with distinct nodes and every behaviour of the winding operations", "why_tests_cant": "trees are unbounded", "anchors": ["qbsp/portals.cc:MakeTreePortals_r", "qbsp/portals.cc:ClipNodePortalsToTree_r", "qbsp/portals.cc:SplitNodePortals", "qbsp/portals.cc:MakeHeadnodePortals"]}
{"id": "C79", "title": "the list of portals of a leaf is complete", "statement": "Walking the linked list of portals of a leaf ends, and visits exactly the portals with that leaf on one side, each once, the last one added first.", "quantifier": "every list of portals", "why_tests_cant": "linked lists of unbounded size", "anchors": ["qbsp/portals.cc:AddPortalToNodes", "qbsp/portals.cc:MakePortalsFromBuildportals"]}
{"id": "C80", "title": "detail filling fills exactly the enclosed space", "statement": "Detail filling ends; it turns into detail solid exactly the leafs that are not solid (or, in Quake, sky) and that no entity reaches without passing through solid of any kind, and it changes no other leaf.", "quantifier": "every portal graph and list of entities", "why_tests_cant": "graphs are unbounded", "anchors": ["qbsp/outside.cc:FillDetail", "qbsp/outside.cc:FillDetail_r"]}
{"id": "C81", "title": "a brush side is visible iff it faces open space", "statement": "After filling, a side of a brush is marked visible exactly if it is a hint side or it appears on a portal of a leaf that is neither solid (structural or detail) nor, in Quake, sky; other sides keep their marks.", "quantifier": "every portal graph and assignment of sides", "why_tests_cant": "graphs are unbounded", "anchors": ["qbsp/outside.cc:MarkBrushSidesInvisible", "qbsp/outside.cc:MarkVisibleBrushSides_R"]}
{"id": "C82", "title": "the leak trail follows the leak", "statement": "With a positive -leakdist, writing the points of the leak line ends; each leg between two corners is written as points of that spacing from the start of the leg on. Without -leakdist exactly both ends of every leg are written. With a negative distance the loop does not end.", "quantifier": "every leak line and distance", "why_tests_cant": "lines are unbounded", "anchors": ["qbsp/outside.cc:WriteLeakTrail", "qbsp/outside.cc:WriteLeakLine"]}
{"id": "C83", "title": "area portal records describe the areas they join", "statement": "The two areas of an area portal entity are the first two areas that lie beside its leafs; the record of each area in the file refers to exactly the area portals that bound it, each once, with the area on the other side, and both sides agree; after a leak, or for a region, there are no area portals and the entities lose their portal numbers.", "quantifier": "every portal graph and list of entities", "why_tests_cant": "graphs are unbounded", "anchors": ["qbsp/portals.cc:FloodAreas_r", "qbsp/portals.cc:SetAreaPortalAreas_r", "qbsp/portals.cc:EmitAreaPortals"]}
{"id": "C84", "title": "the leak path of an area portal is a shortest path", "statement": "The search for a path between two leafs ends; it finds nothing exactly if they are not connected, and otherwise a path that crosses as few portals as possible.", "quantifier": "every portal graph", "why_tests_cant": "graphs are unbounded", "anchors": ["qbsp/portals.cc:FindShortestPath"]}
{"id": "C85", "title": "fixing T-junctions leaves none", "statement": "After the vertices on the edges of a face are inserted, no vertex of any face that it is welded with lies strictly inside one of its edges, apart from vertices whose position was not on the edge within the tolerance.", "quantifier": "every tree of faces, every face and every tolerance", "why_tests_cant": "faces and trees are unbounded", "anchors": ["qbsp/tjunc.cc:CreateSuperFace", "qbsp/tjunc.cc:FindEdgeVerts_FaceBounds_R", "qbsp/tjunc.cc:TestEdge"]}
{"id": "C86", "title": "which faces are welded is symmetric", "statement": "Whether the vertices of one face are inserted into the edges of another depends on the contents of both in the same way in both directions, and a face always interacts with itself.", "quantifier": "every two contents and both game families", "why_tests_cant": "combinations of contents and options", "anchors": ["qbsp/tjunc.cc:HasTJuncInteraction", "qbsp/tjunc.cc:Welds"]}
{"id": "C87", "title": "the fragments of a face cover the face", "statement": "Whatever the level of T-junction fixing and the limit of edges, the fragments of a face are found without a failed assertion, have at least three vertices each, use only vertices of the face, and together have the outline and the area of the face, using as few triangles as possible.", "quantifier": "every polygon, level, limit and outcome of the geometric tests", "why_tests_cant": "polygons are unbounded; the loops restart on what is left", "anchors": ["qbsp/tjunc.cc:FixFaceEdges", "qbsp/tjunc.cc:mwt_face", "qbsp/tjunc.cc:RetopologizeFace", "qbsp/tjunc.cc:compress_triangles_into_fans"]}
{"id": "C88", "title": "rotated and triangulated faces have no degenerate triangles", "statement": "If some vertex of a face is the base of a fan without degenerate triangles then such a base is found; triangulation picks, among all triangulations without degenerate triangles, one with the smallest sum of perimeters.", "quantifier": "every polygon and every set of valid triangles", "why_tests_cant": "the number of triangulations is exponential", "anchors": ["qbsp/tjunc.cc:FixFaceEdges", "qbsp/tjunc.cc:minimum_weight_triangulation"]}
{"id": "C89", "title": "merging faces keeps them convex and keeps their area", "statement": "Only faces with the same plane, texture and light map scale on the same side of a sky border are merged; merging two convex faces yields a convex face, and its area is the sum of their areas.", "quantifier": "every two convex polygons", "why_tests_cant": "polygons are unbounded; geometry", "anchors": ["qbsp/merge.cc:TryMerge"]}
{"id": "C90", "title": "exported faces have the vertices and planes of the map's polygons", "statement": "Exporting a model adds exactly one face per polygon with at least three vertices, in tree order; read back through surfedges and edges, each face has the vertices of its polygon in the same order and its plane; each node is given the range of its own faces; faces, edges and surfedges already there keep their meaning; an edge is shared only backwards, within a model, between equal contents, and never used forwards twice.", "quantifier": "every tree of faces, every file so far, all contents and options", "why_tests_cant": "trees and vertex sequences are unbounded; edge reuse depends on everything exported before", "anchors": ["qbsp/faces.cc:EmitFaces", "qbsp/faces.cc:GetEdge", "qbsp/faces.cc:EmitFaceFragment", "common/bsputils.cc:Face_VertexAtIndex"]}
{"id": "C91", "title": "vertices are welded to a vertex at most half an epsilon away", "statement": "Every point of every face is given the number of a vertex of the file that was made from a point at most the tolerance away in each coordinate; vertices are points of faces; no two vertices were made from points within the tolerance; vertices never change once written; equal points are given equal vertices.", "quantifier": "every list of faces and every order in which the spatial map yields entries", "why_tests_cant": "depends on the whole history of points", "anchors": ["qbsp/faces.cc:EmitVertex", "qbsp/map.cc:mapdata_t::find_emitted_hash_vector"]}
{"id": "C92", "title": "texinfos are shared exactly when equal, and animations are followed to the end", "statement": "Asking for a texinfo returns the number of one with the requested vectors, texture, flags and value; asking again, after any other requests, returns the same number; different texinfos have different numbers; the texinfo of an animated texture leads to that of the next frame; and the search ends however the animation is linked.", "quantifier": "every history of requests and every animation graph", "why_tests_cant": "unbounded history; animation graphs may be cyclic", "anchors": ["qbsp/map.cc:FindTexinfo"]}
{"id": "C93", "title": "exported texinfos are those of the map, animation links included", "statement": "Exporting the texinfos of all faces and brush sides gives each one the number of a record with its contents, or -1 exactly if it is one that is left out; different texinfos get different records; no record is superfluous; the link of each record is the record of the next frame; and the export ends even if the animation is a circle.", "quantifier": "every list of texinfos and every sequence of references", "why_tests_cant": "unbounded, links may be cyclic", "anchors": ["qbsp/writebsp.cc:ExportMapTexinfo"]}
{"id": "C94", "title": "building the BSP tree ends for every list of brushes", "statement": "Building the tree of any non-empty list of brushes ends without an error; the tree is not deeper than the number of different planes of the brushes, no plane is used twice on a way from the root to a leaf, and every node is on the plane of a side of a brush.", "quantifier": "every list of brushes, also with broken polygons, every metric, every option", "why_tests_cant": "termination for all inputs; recursion with splitting creates new brushes", "anchors": ["qbsp/brushbsp.cc:BrushBSP", "qbsp/brushbsp.cc:BuildTree_r", "qbsp/brushbsp.cc:SelectSplitPlane", "qbsp/brushbsp.cc:SplitBrushList", "qbsp/brushbsp.cc:SplitBrush"]}
{"id": "C95", "title": "the contents of a leaf are those of the brushes around the point", "statement": "A point off the planes it passes ends in a leaf whose contents combine, in the order of the brushes, the contents of exactly the brushes that hold the point; no brush that holds the point is lost, however often it was cut.", "quantifier": "every list of closed convex brushes and every point, as long as the cuts on its way are not affected by the tolerances", "why_tests_cant": "brushes are cut recursively without a bound; points range over space", "anchors": ["qbsp/brushbsp.cc:BrushBSP", "qbsp/brushbsp.cc:SplitBrush", "qbsp/brushbsp.cc:LeafNode", "qbsp/brushbsp.cc:TestBrushToPlanenum", "qbsp/brushbsp.cc:BoxOnPlaneSide"]}
{"id": "C96", "title": "the polygons made for the sides of a brush close it", "statement": "For a convex brush in the world, making the polygons of its sides gives convex polygons that lie in their planes, are part of the brush and together hold every point of its border; the bounds hold all of it. For any brush the function ends without undefined behaviour.", "quantifier": "every brush given by half-spaces", "why_tests_cant": "real coordinates, any number of sides", "anchors": ["qbsp/brush.cc:CreateBrushWindings", "include/common/polylib.hh:from_plane"]}
{"id": "C97", "title": "structural planes come first, and a leaf is made only when no plane is left", "statement": "A plane of a detail brush is chosen only if no usable structural plane cuts the volume, and the node is marked as separating detail exactly if its plane was chosen for a detail brush; a leaf is made only if no usable plane cuts the volume; a plane that splits a hint side is chosen only for a hint side.", "quantifier": "every list of brushes, every volume, every option", "why_tests_cant": "a search over unbounded lists with a heuristic value", "anchors": ["qbsp/brushbsp.cc:SelectSplitPlane", "qbsp/brushbsp.cc:ChooseMidPlaneFromList", "qbsp/brushbsp.cc:TestBrushToPlanenum"]}
{"id": "C98", "title": "the test of a split agrees with the split", "statement": "The test whether a plane cuts the volume of a node in two says yes exactly if cutting it makes two brushes.", "quantifier": "every brush and every plane", "why_tests_cant": "real coordinates, any number of sides", "anchors": ["qbsp/brushbsp.cc:CheckSplitBrush", "qbsp/brushbsp.cc:SplitBrush"]}
{"id": "C99", "title": "clipping and separating planes of vis never cut off what a line sees", "statement": "Clipping a convex winding by a plane keeps all its inner points in front of the plane. A plane found between two windings has every line through both of them in front of it beyond the second and behind it beyond the first, so clipping the target by it keeps the points such lines reach.", "quantifier": "every convex winding, plane, pair of windings and line", "why_tests_cant": "points and lines range over space; windings have any number of points", "anchors": ["vis/vis.cc:ClipStackWinding", "vis/flow.cc:ClipToSeparators"]}
{"id": "C100", "title": "full vis marks every leaf that a straight line leads to", "statement": "If a straight line goes through the portals of a walk, one after the other, the finished visibility of the first portal has the leaf behind the last one, whatever the order in which threads finish portals and however often vis was interrupted.", "quantifier": "every map of convex leafs, every line, every test level, every schedule and every chain of interrupted runs", "why_tests_cant": "lines, walks and schedules are unbounded", "anchors": ["vis/flow.cc:RecursiveLeafFlow", "vis/flow.cc:TargetChecks", "vis/flow.cc:VisTests", "vis/flow.cc:ClipToSeparators", "vis/vis.cc:ClipStackWinding", "vis/flow.cc:BasePortalThread"]}
{"id": "C101", "title": "fast vis marks every leaf that a straight line leads to", "statement": "If a straight line goes through the portals of a walk, fast vis marks the leaf behind the last portal for the first one; with a distance limit a portal may be left out only if it is farther away than the limit.", "quantifier": "every map of convex leafs, every line", "why_tests_cant": "lines and walks are unbounded", "anchors": ["vis/flow.cc:BasePortalThread", "vis/flow.cc:SimpleFlood", "include/vis/vis.hh:distFromPortal"]}
{"id": "C102", "title": "chopping of brushes ends", "statement": "Chopping any list of closed convex brushes ends, after at most the number of brushes times 2 to the power of twice the number of their sides rounds.", "quantifier": "every list of closed convex brushes whose cuts are clean, every option", "why_tests_cant": "termination for all inputs; pieces are cut again without a bound", "anchors": ["qbsp/brushbsp.cc:ChopBrushes", "qbsp/brushbsp.cc:SubtractBrush", "qbsp/brushbsp.cc:SplitBrush"]}
{"id": "C103", "title": "chopping keeps the points of the brushes", "statement": "A point is in a brush after chopping exactly if it was in one before; the same holds for the solid brushes and for the solid brushes that are not detail.", "quantifier": "every list of closed convex brushes, every point, every option", "why_tests_cant": "brushes are cut recursively without a bound; points range over space", "anchors": ["qbsp/brushbsp.cc:ChopBrushes", "qbsp/brushbsp.cc:SubtractBrush", "qbsp/brushbsp.cc:SplitBrush", "qbsp/brushbsp.cc:BrushGE"]}
{"id": "C104", "title": "chopped brushes do not overlap", "statement": "When fragmentation is allowed, no two solid brushes of the result that may be chopped have a common point strictly inside both.", "quantifier": "every list of closed convex brushes", "why_tests_cant": "pairs of pieces of any number of brushes", "anchors": ["qbsp/brushbsp.cc:ChopBrushes", "qbsp/brushbsp.cc:SubtractBrush", "qbsp/brushbsp.cc:SplitBrush", "qbsp/brushbsp.cc:BrushesDisjoint"]}
{"id": "C105", "title": "chopping leaves other brushes alone and obeys the ban of fragments", "statement": "Brushes that are not solid or are excluded from chopping stay as they are, in their order; every resulting brush has the contents and origin of an input brush; without fragmentation the number of brushes does not grow.", "quantifier": "every list of brushes, also with broken polygons", "why_tests_cant": "any number of brushes and pieces", "anchors": ["qbsp/brushbsp.cc:ChopBrushes", "qbsp/brushbsp.cc:SubtractBrush", "qbsp/brushbsp.cc:SplitBrush"]}
{"id": "C106", "title": "lightmaps are found at their offsets", "statement": "After lighting, whatever the order of the parallel tasks, the bytes of all lightmaps of a face stand one after the other at the offset recorded for the face, in the greyscale, the coloured and the direction data.", "quantifier": "every list of faces, every set of options, every interleaving of the parallel loops", "why_tests_cant": "schedules and sizes are unbounded", "anchors": ["light/write.cc:SaveLightmapSurfaces", "light/write.cc:SaveLightmapSurface", "light/write.cc:CalculateLightmapStyles", "light/write.cc:GetFileSpace"]}
{"id": "C107", "title": "lightmaps of different faces do not share bytes", "statement": "The ranges of the lightmap data of two lit faces are disjoint.", "quantifier": "every list of faces, every set of options, every interleaving", "why_tests_cant": "schedules are unbounded", "anchors": ["light/write.cc:SaveLightmapSurfaces", "light/write.cc:SaveLightmapSurface", "light/write.cc:CalculateLightmapStyles", "light/write.cc:GetFileSpace"]}
{"id": "C108", "title": "the lightmap lump is reproducible", "statement": "Two runs on the same input write the same lightmap data and offsets.", "quantifier": "every list of faces, every pair of executions", "why_tests_cant": "a test sees only some schedules", "anchors": ["light/write.cc:SaveLightmapSurfaces", "light/write.cc:SaveLightmapSurface", "light/write.cc:CalculateLightmapStyles", "light/write.cc:GetFileSpace"]}
{"id": "C109", "title": "lightmaps can be saved", "statement": "Saving the lightmaps of a map whose data fits into the lump ends without error and without undefined behaviour.", "quantifier": "every list of faces, every interleaving", "why_tests_cant": "sizes near the limits of int", "anchors": ["light/write.cc:SaveLightmapSurfaces", "light/write.cc:SaveLightmapSurface", "light/write.cc:CalculateLightmapStyles", "light/write.cc:GetFileSpace"]}
{"id": "C110", "title": "the brightest styles are kept", "statement": "A face keeps as many lightmaps as the limit of styles allows, the brightest ones first; only lightmaps without light are dropped otherwise.", "quantifier": "every list of lightmaps of a face, every limit of styles", "why_tests_cant": "lists of any length with any brightness", "anchors": ["light/write.cc:CalculateLightmapStyles", "light/write.cc:Lightmap_AvgBrightness"]}
{"id": "C111", "title": "the styles of a face are those of its lightmaps", "statement": "A program that reads the styles of a face gets the styles of the stored lightmaps, in their order; a face without lightmap has no offset and no style.", "quantifier": "every list of faces, every interleaving", "why_tests_cant": "lists of any length", "anchors": ["light/write.cc:SaveLightmapSurfaces", "light/write.cc:SaveLightmapSurface", "light/write.cc:CalculateLightmapStyles", "light/write.cc:GetFileSpace"]}
{"id": "C112", "title": "extended lumps repeat the styles and offsets", "statement": "A program that knows the lumps LMSTYLE, LMSTYLE16 and LMOFFSET reads all styles and the right offset for every lit face.", "quantifier": "every list of faces, every limit of styles, every interleaving", "why_tests_cant": "lists of any length with any styles", "anchors": ["light/light.cc:LightWorld", "include/light/write.hh:facesup_t"]}
{"id": "C113", "title": "faces stay lit for programs that do not know the extended lumps", "statement": "With extended lumps, every lit face also refers to a lightmap in the standard size, unless that is switched off, and the two lightmaps do not disturb each other or those of other faces.", "quantifier": "every list of faces, every interleaving", "why_tests_cant": "schedules and scales are unbounded", "anchors": ["light/write.cc:SaveLightmapSurfaces", "light/write.cc:SaveLightmapSurface", "light/write.cc:CalculateLightmapStyles", "light/write.cc:GetFileSpace"]}
{"id": "C114", "title": "lit files of version 2 hold all samples", "statement": "A lit file of version 2 contains all samples of the coloured lightmaps and of the directions.", "quantifier": "every amount of lightmap data before and after, every set of options", "why_tests_cant": "sizes are unbounded", "anchors": ["light/write.cc:WriteLitFile", "light/write.cc:SaveLightmapSurfaces"]}
{"id": "C115", "title": "hidden samples are filled", "statement": "Before a lightmap is saved, samples that could not see anything take over the light of visible samples near them: the process ends, visible samples keep their light, every sample has light afterwards (unless none had before), and no channel leaves the range of the visible samples.", "quantifier": "every size of lightmap, every pattern of hidden samples, every light", "why_tests_cant": "patterns of hidden samples are unbounded; the loop of the program has no bound", "anchors": ["light/write.cc:FloodFillTransparent"]}
{"id": "C116", "title": "the bytes of a lightmap are right", "statement": "A lightmap with light between 0 and 255 is saved without an exception and undefined behaviour, with the number of bytes that its size asks for; the greyscale byte is the largest one of the colour; and no byte leaves the range of the computed samples, with any -extra, -soft and -highlightseams.", "quantifier": "every size of lightmap and of the output, every light, every set of options", "why_tests_cant": "sizes and values are unbounded", "anchors": ["light/write.cc:WriteSingleLightmap", "light/write.cc:BoxBlurImage", "light/write.cc:IntegerDownsampleImage", "light/write.cc:HighlightSeams"]}
{"id": "C117", "title": "light stays at its place", "statement": "The colour that is saved for a place of a face depends only on the samples of that place and those that -soft reaches from it.", "quantifier": "every size of lightmap and of the output, every light, every place", "why_tests_cant": "sizes and values are unbounded", "anchors": ["light/write.cc:WriteSingleLightmap", "light/write.cc:BoxBlurImage", "light/write.cc:IntegerDownsampleImage"]}
{"id": "C118", "title": "scaling gives light that can be saved", "statement": "Whatever light was computed, after scaling it is between 0 and 255, it respects _maxlight, and the channels keep their ratio unless gamma or colour scaling is asked for; so saving cannot fail.", "quantifier": "every computed light, every setting of range, gamma, _maxlight and _lightcolorscale", "why_tests_cant": "values are unbounded", "anchors": ["light/write.cc:LightFace_ScaleAndClamp"]}
{"id": "C119", "title": "the standard lightmap beside a decoupled one shows the same light", "statement": "With -world_units_per_luxel, the lightmap for programs that do not know the extension is saved without undefined behaviour and its light is between the samples of the decoupled one.", "quantifier": "every size, every light, every position of the samples", "why_tests_cant": "sizes and positions are unbounded", "anchors": ["light/write.cc:WriteSingleLightmap_FromDecoupled"]}
{"id": "C120", "title": "-litonly matches the BSP file", "statement": "With -litonly the colours of a lightmap stand in the .lit file exactly where the BSP file has the greyscale lightmap of the same face and style, whatever the order of the parallel tasks; after a normal run with the same light, the .lit data is the same as the one of that run.", "quantifier": "every list of faces, every interleaving of the parallel loop", "why_tests_cant": "schedules and sizes are unbounded", "anchors": ["light/write.cc:SaveLitOnlyLightmapSurface", "light/write.cc:SaveLightmapSurfaces"]}
{"id": "C121", "title": "the light grid lump gives back what was computed", "statement": "A program that reads the LIGHTGRID_OCTREE lump and descends its octree finds for every grid point exactly what light computed for it: that the point is occluded, or else its styles with their colours rounded to the nearest bytes; the lump has no bytes left over, and its header has the size of the grid.", "quantifier": "every size of grid with less than 2^31 points, every pattern of occluded points, all samples", "why_tests_cant": "grids, patterns of occlusion and colours are unbounded; the self-check of the program is compiled out", "anchors": ["light/lightgrid.cc:MakeOctreeLump"]}
{"id": "C122", "title": "the leafs of the octree divide the grid", "statement": "No grid point is stored twice and none that has light is left out: the leafs lie in the grid, have no common points, and hold one sample for each of their points; the printed numbers of stored and left-out points add up to the size of the grid.", "quantifier": "every size of grid with less than 2^31 points, every pattern of occluded points", "why_tests_cant": "grids and patterns of occlusion are unbounded", "anchors": ["light/lightgrid.cc:MakeOctreeLump"]}
{"id": "C123", "title": "the light grid shows the light at the right places", "statement": "With -lightgrid, the lump says for every grid point what was computed at the place lowest corner + index * distance, whatever the number of threads and the order of their work; the number of styles in the header is the largest one of any point.", "quantifier": "every map bounds, every -lightgrid_dist, every light, every schedule", "why_tests_cant": "schedules and sizes are unbounded", "anchors": ["light/lightgrid.cc:LightGrid", "light/lightgrid.cc:lightgrid_raw_data"]}
{"id": "C124", "title": "the light grid covers the map", "statement": "Every place within the bounds lies between grid points: there is a grid point at most one distance below it, and one at most one distance above it, on every axis.", "quantifier": "every bounds, every positive distance, every place", "why_tests_cant": "places are unbounded", "anchors": ["light/lightgrid.cc:LightGrid"]}
{"id": "C125", "title": "a grid point has the sum of all light of each style", "statement": "The samples of a grid point have at most four styles, each of them once; the colour of a style is the sum of all light of that style that reaches the point; if there are more than four, the brightest ones are kept.", "quantifier": "every sequence of contributions of light", "why_tests_cant": "sequences are unbounded", "anchors": ["light/ltface.cc:lightgrid_samples_t::add", "light/ltface.cc:lightgrid_samples_t::used_styles"]}
{"id": "C126", "title": "the colours of the light grid can be written", "statement": "Whatever light reaches a point, after scaling its channels are between 0 and 255, respect _maxlight, and keep their ratio without gamma; so its bytes are defined.", "quantifier": "every light, every setting of range, gamma and _maxlight", "why_tests_cant": "values are unbounded", "anchors": ["light/ltface.cc:LightPoint_ScaleAndClamp", "light/ltface.cc:CalcLightgridAtPoint", "light/ltface.cc:lightgrid_sample_t::round_to_int"]}
{"id": "C127", "title": "archives give back their files", "statement": "A pak or wad archive whose directory and files lie within it gives for every name, case ignored, exactly the bytes its directory points to, the last entry if a name occurs twice, and nothing for names that are not in the directory; whatever was loaded before.", "quantifier": "every archive of any size, every sequence of loads, every name", "why_tests_cant": "archives and histories are unbounded", "anchors": ["common/fs.cc:pak_archive", "common/fs.cc:wad_archive", "common/fs.cc:archive_like::load"]}
{"id": "C128", "title": "damaged archives are refused", "statement": "A pak or wad file that is cut short or has a broken directory is refused with an error, and a file that is cut off does not change what other files load as.", "quantifier": "every sequence of bytes taken for an archive", "why_tests_cant": "files are unbounded", "anchors": ["common/fs.cc:pak_archive", "common/fs.cc:wad_archive", "common/fs.cc:addArchive"]}
{"id": "C129", "title": "files are found in the documented order", "statement": "A search answers with the first place that has the file: the path itself, the registered directories, the registered archives, the last registered first; or archives before directories unless loose files are preferred; a path through an archive answers with that archive; what is answered can be loaded.", "quantifier": "every disk, every set of registered directories and archives, every path", "why_tests_cant": "disks and registrations are unbounded", "anchors": ["common/fs.cc:where", "common/fs.cc:splitArchivePath", "common/fs.cc:load", "include/common/fs.hh:where"]}
{"id": "C130", "title": "directories and archives are registered once", "statement": "However often addArchive is called, each directory and archive is registered once, in the order of first registration, and stays registered with its contents until clear; what cannot be opened is not registered.", "quantifier": "every sequence of calls, every disk", "why_tests_cant": "sequences are unbounded", "anchors": ["common/fs.cc:addArchive", "common/fs.cc:clear"]}
{"id": "C131", "title": "looking for files changes nothing", "statement": "Searching or loading a file again gives the same answer, and does not change what other searches find.", "quantifier": "every sequence of calls, every disk, every pair of paths", "why_tests_cant": "sequences are unbounded", "anchors": ["common/fs.cc:where", "common/fs.cc:load", "common/fs.cc:splitArchivePath"]}
{"id": "C132", "title": "extracted textures can be read back", "statement": "From the wad that bsputil --extract-textures writes, every texture that has data in the BSP file can be loaded under its name with exactly the bytes it has there, and nothing else is in the wad.", "quantifier": "every list of textures, every history of loads", "why_tests_cant": "lists of textures are unbounded", "anchors": ["bsputil/bsputil.cc:ExportWad", "bsputil/bsputil.cc:lumpinfo_t", "common/fs.cc:wad_archive"]}
{"id": "C133", "title": "switchable lights share a style exactly if they share a name", "statement": "light gives every light entity with a targetname, and every entity with a switchable shadow, a style between compilerstyle_start and compilerstyle_max; two of them have the same style exactly if they have the same targetname, and shadows without one have a style of their own; it stops with an error exactly if there are not enough styles; and it can tell the name for a style.", "quantifier": "every list of entities, every range of styles", "why_tests_cant": "lists of entities are unbounded", "anchors": ["light/entities.cc:LightStyleForTargetname", "light/entities.cc:TargetnameForLightStyle", "light/entities.cc:LoadEntities"]}
{"id": "C134", "title": "styles of surface lights do not depend on threads", "statement": "With any number of threads, surface lights with a targetname get the style of that name, the same in every run.", "quantifier": "every schedule of any number of threads, every table of styles", "why_tests_cant": "schedules are unbounded", "anchors": ["light/surflight.cc:MakeSurfaceLight", "light/surflight.cc:MakeRadiositySurfaceLights", "light/entities.cc:LightStyleForTargetname"]}
{"id": "C135", "title": "light keeps the entities", "statement": "Apart from the styles it sets, light keeps all keys of entities and changes values only by reading \\b escape sequences; lightmap_scale becomes _lightmap_scale with the same value; lighting a BSP file again gives the same entities.", "quantifier": "every list of entities", "why_tests_cant": "lists of entities are unbounded", "anchors": ["light/entities.cc:LoadEntities", "light/entities.cc:ParseEscapeSequences", "common/entdata.cc:entdict_t::remove"]}
{"id": "C136", "title": "Surface flags arrive in light", "statement": "Once qbsp has numbered the texinfos of a map and written the BSP file and its .texinfo.json, light, reading both, has for every texinfo of the BSP file each surface flag (nodraw, hint, no dirt, no shadow, no bounce, no minlight, no phong, phong angles and group, minlight, maxlight, colours, alpha, two-sidedness, surface light settings, luxel size, channel mask) with the value qbsp gave it. A file left by an earlier run has no effect, and with -noextendedsurfflags light has the default flags.", "quantifier": "all lists of texinfos with any flags, all export orders, any file left by an earlier run", "why_tests_cant": "Twenty-six members with different defaults go through two lists of names kept by hand in two programs; a test compares a few members of a few maps, and the failing values (marks, infinities, bytes that are not UTF-8) are rare ones.", "anchors": ["qbsp/writebsp.cc: WriteExtendedTexinfoFlags", "light/light.cc: LoadExtendedTexinfoFlags", "common/bspfile_common.cc: surfflags_t::needs_write", "include/common/json.hh: to_json, from_json"]}
{"id": "C137", "title": "A file of surface flags that does not match is ignored", "statement": "If the .texinfo.json names a texinfo that the BSP file does not have, light says that it ignores the file, and then behaves as if there was none.", "quantifier": "all files and all numbers of texinfos", "why_tests_cant": "Depends on files that belong to another compile of the map; the reset is by bytes, and its effect on every member has to be considered.", "anchors": ["light/light.cc: LoadExtendedTexinfoFlags", "include/common/bspfile_common.hh: surfflags_t"]}
{"id": "C138", "title": "Each key of a brush entity sets the flags it is documented for and no others", "statement": "The surface flags of a face are determined by its texture, its contents, the options of qbsp and the documented keys of its entity: each flag depends on its own keys only, no other key has an effect, an entity with none of them gets the default flags, -1 or 1 switch dirt, bounce light, minlight, shadows and light as documented, numbers are brought into their ranges, and _phong, _phong_angle and _surflight_minlight_scale fall back to worldspawn.", "quantifier": "all entities, all values of worldspawn, all faces and options", "why_tests_cant": "There are some forty keys, and a wrong one read for a flag shows only in maps that use both; independence of all other keys is a statement over all entities.", "anchors": ["qbsp/map.cc: SurfFlagsForEntity"]}
{"id": "C139", "title": "Surface flags are defined for every map", "statement": "Whatever values a map gives to the keys of a brush entity, qbsp turns them into surface flags without undefined behaviour.", "quantifier": "all texts as values of all keys", "why_tests_cant": "Undefined conversions happen for values no test uses, and give no error.", "anchors": ["qbsp/map.cc: SurfFlagsForEntity", "common/entdata.cc: entdict_t::get_int"]}
{"id": "C140", "title": "The clipping hull of a brush keeps the player out of the brush", "statement": "At every place at which the bounding box of the player would meet a brush, the place is inside the brush of the clipping hull, up to the option epsilon and the tolerance of the table of planes; bevels are added without undefined behaviour. It holds for brushes with volume none of whose faces has a texture that forbids growing.", "quantifier": "all brushes with volume, all hull sizes, all places of the player", "why_tests_cant": "It ranges over all convex brushes and all places around them; a wrong bevel lets the player into a corner only at particular angles.", "anchors": ["qbsp/map.cc: AddBrushBevels", "qbsp/map.cc: CalculateBrushBounds", "qbsp/brush.cc: LoadBrush"]}
{"id": "C141", "title": "The clipping hull of a brush blocks the player nowhere else", "statement": "If no tolerance plays a role, the place of the player is inside the brush of the clipping hull only if no plane parts the brush from the box of the player there: there are no invisible walls. It holds for brushes whose faces along the axes all have polygons.", "quantifier": "all brushes with volume, all hull sizes, all places of the player", "why_tests_cant": "That the bevels along the axes and the edges suffice is a fact of geometry about all convex polyhedra.", "anchors": ["qbsp/map.cc: AddBrushBevels", "qbsp/brush.cc: LoadBrush"]}
{"id": "C142", "title": "Bevels change nothing for points", "statement": "The brush that is used for drawing and for point-sized collisions has exactly the faces of the map, whatever bevels were added for the clipping hulls.", "quantifier": "all lists of faces", "why_tests_cant": "A bevel taken for a face shows only where it cuts the brush.", "anchors": ["qbsp/map.cc: AddBrushBevels", "qbsp/brush.cc: LoadBrush"]}
{"id": "C143", "title": "The size found for the world has every brush in it, whatever the threads do", "statement": "If the option worldextent is not given, the size that qbsp chooses is large enough for every bounded brush of the map, scaled, and for every place at which the box of a hull meets it; it is the same for every order in which the threads run, and the threads end.", "quantifier": "all lists of brushes with at least two faces, all scales above 0, all hull sizes, all interleavings of the threads, spurious failures of the exchange included", "why_tests_cant": "A lost update of the shared maximum shows only under particular schedules; that corners bound a convex body is a fact about all of them.", "anchors": ["qbsp/map.cc: GetBrushExtents", "qbsp/map.cc: CalculateWorldExtent"]}
{"id": "C144", "title": "The brushes of an external map come to where the keys say", "statement": "A misc_external_map with positive scale gives brushes that consist of exactly the points of the external map's brushes, scaled, rolled, pitched, yawed and moved as the keys say, and every face has at the moved point the texture coordinates that it had before.", "quantifier": "all brushes, all points, all keys with positive scale", "why_tests_cant": "A wrong order of the turns or a wrong sign of a texture shift shows only at particular angles and points.", "anchors": ["qbsp/map.cc: ProcessExternalMapEntity", "qbsp/map.cc: ScaleMapFace", "qbsp/map.cc: RotateMapFace", "qbsp/map.cc: TranslateMapFace", "common/mathlib.cc: RotateAboutX"]}
{"id": "C145", "title": "The option -scale scales the map", "statement": "With -scale every brush consists of the scaled points of the brush of the map, in all hulls, the texture goes with it, and brushes of an entity with an origin stay where they are relative to it.", "quantifier": "all brushes, all scales above 0, all origins", "why_tests_cant": "Whether a plane is taken from stale points shows only for brushes with bevels and for entities with an origin.", "anchors": ["qbsp/map.cc: ProcessMapBrushes", "qbsp/map.cc: ScaleMapFace", "qbsp/brush.cc: LoadBrush"]}
{"id": "C146", "title": "Texture definitions mean what the editors mean", "statement": "A point of a face has the texture coordinates that the editor which wrote the map shows: for QuakeEd's numbers the projected point turned, scaled and shifted; for Valve 220 the distances along the axes divided by the scale and shifted; for QuArK's comments the texture spans the three points of the face; for brush primitives the matrix applied to the point in the axes of the face.", "quantifier": "all planes, all points, all texture definitions of the four formats, with and without -oldaxis", "why_tests_cant": "A wrong sign or a wrong choice of the axis shows only for some directions of the face and some rotations.", "anchors": ["qbsp/map.cc: SetTexinfo_QuakeEd", "qbsp/map.cc: SetTexinfo_Valve220", "qbsp/map.cc: SetTexinfo_QuArK", "qbsp/map.cc: SetTexinfo_BrushPrimitives", "qbsp/map.cc: TextureAxisFromPlane", "qbsp/map.cc: ComputeAxisBase"]}
{"id": "C147", "title": "The option -convert keeps the texturing", "statement": "A face that is written in another format has the same texture at each of its points, up to whole repetitions of the texture, whenever the format can express the texturing of the face.", "quantifier": "all planes, all points of the face, all texturings, all sizes of textures", "why_tests_cant": "The conversion solves for rotation, scale and signs; whether it is right for each of them cannot be seen from examples.", "anchors": ["qbsp/map.cc: TexDef_BSPToQuakeEd", "qbsp/map.cc: Reverse_QuakeEd", "qbsp/map.cc: normalizeShift", "qbsp/map.cc: TexDef_BSPToValve", "qbsp/map.cc: TexDef_BSPToBrushPrimitives"]}
{"id": "C148", "title": "What -convert writes can be read again", "statement": "The map file that the option -convert writes is read back as the same entities in the same order, with the same keys and values, brushes, points, texture names, texture definitions and surface info; in brush primitives a face without surface info comes back with three zeros.", "quantifier": "all lists of entities with keys, values and names that can stand in the text, all brushes, the three kinds of texture definitions, with and without surface info", "why_tests_cant": "A missing space, a line end in the wrong place or a brace too few shows only for some combination of format, keys, brushes and surface info.", "anchors": ["qbsp/map.cc: ConvertMapFile", "qbsp/map.cc: ConvertEntity", "qbsp/map.cc: ConvertMapBrush", "qbsp/map.cc: ConvertMapFace", "qbsp/map.cc: LoadMapFile", "qbsp/map.cc: ParseEntity", "qbsp/map.cc: ParseBrush", "qbsp/map.cc: ParseBrushFace", "qbsp/map.cc: ParseTextureDef", "qbsp/map.cc: ParseExtendedTX"]}
{"id": "C149", "title": "Reading a map file stays within the file", "statement": "Whatever the bytes of a map file are, reading it ends, either with entities or with an error, and never reads beyond the file. White space around a key is removed at both ends.", "quantifier": "all files, all keys", "why_tests_cant": "The parser is fed files made by hand and by many editors; undefined behaviour shows for malformed ones, which are without number.", "anchors": ["qbsp/map.cc: LoadMapFile", "qbsp/map.cc: ParseEntity", "qbsp/map.cc: ParseEpair", "qbsp/map.cc: ParseBrush", "common/parser.cc: parser_t::parse_token"]}
{"id": "C150", "title": "Texture images are what their files say", "statement": "Loading a texture gives an image of the size in its header, whose pixels are the colours of the palette for the bytes at the place the header names, the last palette entry being transparent; when the bytes are not within the file there are no pixels. Nothing outside the file is read. The palette of Quake II is the last 768 bytes of its colormap; Half-Life textures bring their own.", "quantifier": "all bytes of files, all sizes and offsets in headers, all palettes", "why_tests_cant": "Offsets and sizes are 32-bit numbers from files by other programs; sums that wrap around and truncated files are found only by looking at all of them.", "anchors": ["common/imglib.cc: load_mip", "common/imglib.cc: load_wal", "common/imglib.cc: load_stb", "common/imglib.cc: LoadPCXPalette", "common/imglib.cc: init_palette", "common/imglib.cc: convert_paletted_to_32_bit"]}
{"id": "C151", "title": "Fences and glass are looked up in the repeated image", "statement": "For every texture that was loaded and every texture coordinates, negative ones too, light takes the pixel of the image as if it were repeated in both directions for ever, scaled when a replacement image has another size, and never reads outside the image.", "quantifier": "all BSP files with their textures, replacements and metadata, all coordinates below 2^32 pixels", "why_tests_cant": "The coordinate is rounded and reduced differently for both signs; a wrong pixel at the border or a read beyond the last row shows for single coordinates only.", "anchors": ["light/trace.cc: SampleTexture", "light/trace.cc: clamp_texcoord", "common/imglib.cc: ConvertTextures", "common/imglib.cc: AddTextureName"]}
{"id": "C152", "title": "Projected textures are interpolated within the image", "statement": "A light that projects a texture shines in each direction within its frustum with twice the colour of the image interpolated between the four pixels around the place, left to right and top to bottom, between 0 and 510, and with none outside; only pixels of the image are read.", "quantifier": "all textures, all projected points", "why_tests_cant": "The four reads touch the border of the image for some points only.", "anchors": ["light/ltface.cc: LightFace_SampleMipTex", "light/entities.cc: LoadEntities"]}
{"id": "C153", "title": "The average colour of a texture is a mean", "statement": "The average colour of a texture, which bounced light and light from surfaces take on, is the mean of its pixels that are not transparent, component by component, hence between the least and the largest of them; a colour in the metadata replaces it; with -tex_saturation_boost it moves towards the more saturated colour. It is defined for every texture.", "quantifier": "all images, all boosts from 0 to 1", "why_tests_cant": "Sums over all pixels and their division have to be right for each image, and for images in which no pixel counts.", "anchors": ["common/imglib.cc: calculate_average", "common/imglib.cc: increase_saturation", "common/imglib.cc: AddTextureName", "common/imglib.cc: ConvertTextures"]}
{"id": "C154", "title": "Skipping a light for a face loses nothing", "statement": "The light entities that light skips for a whole face, because they are behind it or too far away, would not have lit any sample of it by more than the gate: the rays cast with skipping are those cast without. A light on other channels than the face casts none.", "quantifier": "all lights, faces, samples, settings", "why_tests_cant": "Culling is decided once for a face, with bounds over all of its samples; that nothing visible is lost has to hold for each light, face and sample.", "anchors": ["light/ltface.cc: CullLight", "light/ltface.cc: LightFace_Entity", "light/ltface.cc: GetLightContrib"]}
{"id": "C155", "title": "Lights fade as documented", "statement": "With each of the formulas of `delay`, a light fades with the distance, never changes its sign, and fades faster with a larger `wait` or `-dist`; it has the strength given by `light` at the distance documented, and linear lights and lights with `falloff` end where they should. What is out of range in the map is replaced by a value in range, and the number of jittered lights shares the strength.", "quantifier": "all lights, distances and settings over the reals", "why_tests_cant": "A formula with a wrong sign, a wrong power or a wrong end shows at some distances only.", "anchors": ["light/ltface.cc: GetLightValue", "light/entities.cc: CheckEntityFields"]}
{"id": "C156", "title": "A spotlight lights its cone", "statement": "A spotlight casts nothing outside the cone with the diameter `angle`, its full light within the soft cone, and in between less and less from the soft cone to the edge. Without `angle` the diameter is the default of the game.", "quantifier": "all directions, all cones up to 360 degrees", "why_tests_cant": "Cosines, signs and the two radii combine; the edge of the cone is a set of measure zero.", "anchors": ["light/ltface.cc: GetLightValueWithAngle", "light/entities.cc: SetupSpotlights"]}
{"id": "C157", "title": "Dirt only darkens", "statement": "Dirt multiplies a light by a number from 0 to 1, 1 where nothing is near or where dirt is switched off for the light, the face or the map, less the more is occluded. Within the inner dirt radius of a light there is none, beyond the outer one all of it.", "quantifier": "all occlusions, scales, gains, radii, distances", "why_tests_cant": "Gain, scale, limits and radii are applied in sequence, and each has values at which another takes over.", "anchors": ["light/ltface.cc: Dirt_GetScaleFactor", "light/ltface.cc: fraction"]}
{"id": "C158", "title": "Each style gets its own light", "statement": "While a face is lit, what arrives at a sample in a light style is added to that sample in that style, and the sum over all rays is what the sample holds in the end, in any order of lights, with switchable shadows, surface lights and `_addmin`; no other style and no other sample changes, and no style has two light maps.", "quantifier": "all sequences of lights, rays, styles", "why_tests_cant": "A light map is reused when nothing was saved in it, and the current one is kept between rays of the same style; a stale one shows only with the right sequence of styles.", "anchors": ["light/ltface.cc: Lightmap_ForStyle", "light/ltface.cc: Lightmap_Save", "light/ltface.cc: LightFace_Entity", "light/ltface.cc: LightFace_Sky", "light/ltface.cc: LightFace_SurfaceLight", "light/ltface.cc: LightFace_Min"]}
{"id": "C159", "title": "Surface lights light what is in front of them", "statement": "An emissive surface, or a face that bounces light, casts no light behind it or on faces turned away, less light the further away, and at most its strength over the square of the hot spot distance. What is skipped is at most the gate; with the highest quality nothing is. All its points together are as strong as the surface.", "quantifier": "all surfaces, faces, samples, settings", "why_tests_cant": "Culling is decided once for a face, with bounds over all of its samples; that nothing visible is lost has to hold for each light, face and sample.", "anchors": ["light/ltface.cc: GetSurfaceLighting", "light/ltface.cc: SurfaceLight_SphereCull", "light/ltface.cc: LightFace_SurfaceLight", "light/surflight.cc: MakeSurfaceLight", "light/bounce.cc: MakeBounceLight"]}
{"id": "C160", "title": "Minimum light is a floor", "statement": "Minimum light raises each component of a sample to the minimum where it is below and leaves it where it is above; it never darkens, it does not touch other styles or the samples it is not meant for, and giving it twice is giving it once.", "quantifier": "all light maps, all minimum lights and samples", "why_tests_cant": "Light maps that nothing was saved in and samples that are already bright enough are handled apart.", "anchors": ["light/ltface.cc: Light_ClampMin", "light/ltface.cc: LightFace_Min", "light/ltface.cc: LightFace_LocalMin"]}
{"id": "C161", "title": "The lightmap of a face covers the face", "statement": "For every scale, the lightmap that light makes for a face has the size and the offset that engines compute from the texture vectors, every point of the face has a coordinate inside it, coordinates and points of the plane of the face correspond one to one, unless the texture is projected along the face, and the bounding sphere contains the face.", "quantifier": "all faces with any number of corners, all texture vectors, planes and scales", "why_tests_cant": "Rounding at both ends, four matrices and an inverse by cofactors have to fit together for all texture projections; a face at a whole luxel is a special case.", "anchors": ["common/bsputils.cc: faceextents_t", "common/bsputils.cc: WorldToTexSpace", "common/qvec.cc: inverse"]}
{"id": "C162", "title": "Lightmaps in world units", "statement": "With `_world_units_per_luxel`, a lightmap does not depend on the texture: seen along the main axis of the face, a luxel has the given size, on the face it is stretched by the square root of 3 at most, it is not mirrored, every coordinate has a point, and the data written for engines describes the same lightmap.", "quantifier": "all faces, normals and sizes", "why_tests_cant": "The axis, its sign and the order of the tangents give six cases, and ties between axes more.", "anchors": ["common/bsputils.cc: faceextents_t", "include/common/qvec.hh: MakeTangentAndBitangentUnnormalized", "include/common/qvec.hh: indexOfLargestMagnitudeComponent", "light/write.cc: SaveLightmapSurface"]}
{"id": "C163", "title": "Samples surround their luxels", "statement": "The samples light takes for a luxel, one, four or sixteen, lie within the luxel, their middle is the luxel, they are one unit in front of the face, and every point of the face is within half the distance of two samples of one, in both directions.", "quantifier": "all faces, luxels and numbers of samples", "why_tests_cant": "A wrong half or a wrong step moves all light a little, which no picture shows clearly.", "anchors": ["light/ltface.cc: CalcPoints", "common/bsputils.cc: LMCoordToWorld"]}
{"id": "C164", "title": "Lightmap images show every face once", "statement": "bspinfo and the preview put the lightmaps of all faces into one image for each light style: each face has a place of its own, where the image shows the samples of the face for this style, all other pixels are transparent, and the texture coordinates of the face stay half a pixel within its place.", "quantifier": "all sets of faces, sizes, styles and light data", "why_tests_cant": "Places depend on all faces before; an overlap needs particular sizes.", "anchors": ["common/bspinfo.cc: build_lightmap_atlas"]}
{"id": "C165", "title": "A decompiled map has the solids of the compiled one", "statement": "Decompiling a model writes one brush for each leaf that is not empty: every point inside the bounds of the model that the tree puts into such a leaf is in the brush of that leaf, every point inside a brush belongs to the leaf and the contents it was made from, brushes of different leafs do not overlap, and a sound tree is decompiled without an error. The same holds for the clip nodes of a hull.", "quantifier": "all trees and clip node trees of any depth, all points", "why_tests_cant": "The planes of a leaf depend on the way to it; a plane facing the wrong way shows only in leafs below that node.", "anchors": ["common/decompile.cc: DecompileNode", "common/decompile.cc: DecompileLeaf", "common/decompile.cc: DecompileClipNode", "common/decompile.cc: AddMapBoundsToStack"]}
{"id": "C166", "title": "Leaving out redundant planes keeps the brush", "statement": "The planes of a decompiled brush that are left out as redundant do not change the points it takes up, and no plane is kept that lies outside of another.", "quantifier": "all sets of planes with a bounded region that is not flat", "why_tests_cant": "Whether a plane is redundant depends on all others; the test runs over a list that is being compacted, which matters only for some orders.", "anchors": ["common/decompile.cc: RemoveRedundantPlanes", "common/decompile.cc: BuildInitialBrush_Q2"]}
{"id": "C167", "title": "Cutting a brush by its textures keeps the brush", "statement": "A decompiled brush with more than one texture on a side is cut into brushes with one texture on each side, which do not overlap, make up the brush, and have no textures on a side that were not there.", "quantifier": "all brushes, faces and edge planes", "why_tests_cant": "The cuts are chosen by counting faces, in any number of rounds; the brush is dropped when no cut is found.", "anchors": ["common/decompile.cc: SplitDifferentTexturedPartsOfBrush_R", "common/decompile.cc: SuggestSplit", "common/decompile.cc: SideNeedsSplitting"]}
{"id": "C168", "title": "The sides of a decompiled brush have its planes and textures", "statement": "The three points and the Valve axes written for a side of a decompiled brush give the plane of the side and the texture coordinates of its face back, moved with the entity. Sides without a texture get the one of the side that faces most the other way, or a default if no side has one.", "quantifier": "all planes, texture vectors, offsets, points and lists of sides", "why_tests_cant": "Points are chosen by the largest component of the normal; a texture slides only when it is scaled and moved.", "anchors": ["common/decompile.cc: compiled_brush_t::write", "common/decompile.cc: NormalDistanceToThreePoints", "common/decompile.cc: texdef_valve_t", "common/decompile.cc: DecompileEntity"]}
{"id": "C169", "title": "Decompiled entities keep their keys", "statement": "A decompiled entity has the keys of the entity in the file in their order, without the number of its model and, if it has brushes, with its origin turned into a move of its brushes. An entity without brushes keeps its origin. An area portal gets the brush its style names.", "quantifier": "all entities, values and orders of keys", "why_tests_cant": "The effect of a key depends on the keys before it.", "anchors": ["common/decompile.cc: DecompileEntity"]}
{"id": "C170", "title": "Faces are cut to the size of a lightmap", "statement": "With -subdivide above 16 (and texture scales at which the clipping tolerance is at most 14 units), cutting a face ends, and leaves convex pieces with the plane, texture, contents and side of the face that are at most as long as asked for in both directions of the texture, do not overlap and together make up the face, up to the tolerance at the cuts, of which there is one less than there are pieces. Faces that are not drawn, hints and faces of special textures stay whole. With -subdivide between 1 and 16 a longer face is never cut and qbsp does not end.", "quantifier": "all convex faces, texture vectors, settings, tolerances", "why_tests_cant": "How often a face is cut depends on its size and its textures; a piece that is lost or too large shows only for some.", "anchors": ["qbsp/faces.cc: SubdivideFace", "qbsp/faces.cc: SubdivideNodeFaces", "qbsp/csg.cc: SplitFace"]}
{"id": "C171", "title": "Leafs list the faces that they touch", "statement": "Every leaf in which there is a point of a face, on the side to which it faces and farther than the tolerance from the planes of the tree, has the face in its list; a leaf that has a face in its list is on that side and holds, up to the tolerance, a polygon that is a part of the face; no leaf lists a face twice.", "quantifier": "all trees, convex faces, points and tolerances", "why_tests_cant": "A face that a leaf does not list is not drawn from there; it takes a tree in which a face crosses several nodes.", "anchors": ["qbsp/faces.cc: MakeMarkFaces", "qbsp/faces.cc: AddMarksurfaces_r", "qbsp/csg.cc: SplitFace"]}
{"id": "C172", "title": "Nodes have the faces that are seen through their portals", "statement": "The faces of a node are, in the order of the leafs, one for each portal on the node and each leaf beside it that is not solid and from which a side is seen: with the side's plane turned to the leaf, the portal's polygon running around it accordingly, and the contents of the leaf in front. They are merged and cut once, after all leafs below the node.", "quantifier": "all trees and portals", "why_tests_cant": "Merging before all leafs have been seen, or a face turned the wrong way, shows only in maps with portals between leafs far apart in the tree.", "anchors": ["qbsp/faces.cc: MakeFaces_r", "qbsp/faces.cc: FaceFromPortal", "qbsp/csg.cc: UpdateFaceSphere"]}
{"id": "C173", "title": "Faces are smoothed within the phong angle", "statement": "With phong angles up to 180 degrees, light smooths a face with exactly those other faces that share a vertex with it, if both ask for phong shading and neither is barred from it, they have the same smoothing group and the same of the surface flags that matter (such as warping), and the angle between their normals is at most the phong angle of either, where _phong_angle_concave counts if the joint is concave. Smoothing is mutual. The second sentence is false where a joint is concave as seen from one face only, and angles over 180 degrees, which qbsp lets through, smooth less.", "quantifier": "all BSP files, surface flags and angles", "why_tests_cant": "Which faces are smoothed depends on the angles between all pairs of faces that touch, and on which of them stands in front of the other.", "anchors": ["light/phong.cc: CalculateVertexNormals", "light/phong.cc: Q2_FacePhongValue", "common/bspfile.cc: surfflags_may_phong"]}
{"id": "C174", "title": "The phong angle of a model", "statement": "A face is shaded with the phong angle of its model, if that has one, and else with the angle that qbsp took from its brush's entity. This is false: the angle of a model goes to all faces, also of other models, that have the same texinfo, and an angle of the world replaces those of the detail brushes and groups in it. What is true: a texinfo gets the angle of the last model with an angle that uses it, rounded to a whole number up to 255, and keeps its own if there is none.", "quantifier": "all models, faces and angles", "why_tests_cant": "It takes maps in which models share textures to see an angle spread to faces that did not ask for it.", "anchors": ["light/phong.cc: CalculateVertexNormals", "light/light.cc: modelinfo_t::getResolvedPhongAngle"]}
{"id": "C175", "title": "Phong normals", "statement": "Every face with three or more vertices gets a normal at each of them: the direction of the sum of the normals of the face and of the faces that it is smoothed with, weighed by their areas and their angles at the vertex, or the face's own normal where the sum is zero. They have length one and are within the face's phong angle of its normal, if that is at most 90 degrees; a face that is smoothed with no other has its own normal everywhere; and faces that are smoothed with the same faces at a vertex have the same normal there.", "quantifier": "all BSP files, surface flags and vertices", "why_tests_cant": "The sums depend on all faces around a vertex; a seam or a normal that turns away shows at some vertices only.", "anchors": ["light/phong.cc: CalculateVertexNormals", "light/phong.cc: AngleBetweenPoints", "light/phong.cc: GetSurfaceVertexNormal"]}
{"id": "C176", "title": "The face across an edge", "statement": "Across an edge of a face, light continues on the first other face that has the same edge in the other direction and is smoothed with the face or lies on the same side of the same plane, also if a face has repeated vertices or an edge is used by several faces, and on none only if there is no such face.", "quantifier": "all BSP files, faces and edges", "why_tests_cant": "Edges used by more than two faces and faces with repeated vertices come from odd maps.", "anchors": ["light/phong.cc: MakeEdgeToFaceMap", "light/phong.cc: Face_EdgeIndexSmoothed"]}
{"id": "C177", "title": "Phong normals do not depend on the threads", "statement": "However the threads that compute phong normals take turns, when they are done each face has the normals computed for it in the order of its vertices, and reading the normal of a vertex gives its own; faces with less than three vertices have none and read as zero.", "quantifier": "all schedules of any number of threads", "why_tests_cant": "Threads take turns differently in each run.", "anchors": ["light/phong.cc: CalculateVertexNormals", "light/phong.cc: GetSurfaceVertexNormal"]}
{"id": "C178", "title": "The normal between the vertices of a smoothed face", "statement": "On a face that is shaded smoothly, the normal at a sample is a mix, with weights of sum one, of the normals of three of the face's vertices: the same mix of these vertices is the point of the face below the sample. So a face with equal normals at its vertices has this normal everywhere. Every sample over the face, and up to 0.05 units past its edges, gets a normal, unless the face has tiny edges or triangles. The mix is a direction of length one; this is false: it is not normalized, and shorter between vertices with different normals.", "quantifier": "all polygons, vertex normals and points", "why_tests_cant": "Which three vertices are used, and whether any are, depends on the shape of the polygon and the place of the sample, with tolerances.", "anchors": ["common/mathlib.cc: InterpolateNormal", "common/mathlib.cc: MakeInwardFacingEdgePlanes", "common/mathlib.cc: FaceNormal", "include/common/qvec.hh: Barycentric_FromPoint"]}
{"id": "C179", "title": "The place of a light sample", "statement": "A light sample that is not marked as occluded is outside of all solids, at a place within the tolerances of a face that is reached from its own across at most three edges, or moved half a unit along each axis from such a place that is in a solid, and has the normal of that face there. A sample over its own face stays on it, one unit in front, and is occluded only if this place and the eight around it are in solids. A sample past the border of a face without a face to continue on is moved to the nearest point of the border, if that is at most one luxel away, and is occluded otherwise.", "quantifier": "all faces, sample points, neighbouring faces and solids", "why_tests_cant": "Samples near corners and thin walls are the ones that go wrong, and there is no end of ways to make such a place.", "anchors": ["light/ltface.cc: CalcPointNormal", "light/ltface.cc: PositionSamplePointOnFace"]}
{"id": "C180", "title": "The nearest point of a polygon's border", "statement": "The point found nearest to a point on the border of a polygon is on the edge that is named with it, and no point on any edge is nearer, also if an edge has no length.", "quantifier": "all polygons with a vertex, and points", "why_tests_cant": "It must hold for all points and shapes; an error shows only for points past the ends of edges.", "anchors": ["common/mathlib.cc: ClosestPointOnPolyBoundary", "common/mathlib.cc: ClosestPointOnLineSegment", "common/mathlib.cc: FractionOfLine"]}
{"id": "C181", "title": "The edge that a sample outside of its face crosses", "statement": "A sample outside of its face is looked up on the face across the edge, among those that it is behind of, whose ends it is the least past. This is false where it is past the second end of an edge: the length of the edge is added to the distance. What is true: if it is not past the second end of any of these edges, the edge is chosen as stated, and there is one unless the sample is in front of all edges.", "quantifier": "all polygons and points", "why_tests_cant": "The error shows only beyond the corners of a face, where the edge that is left first by going around is disregarded.", "anchors": ["light/ltface.cc: CalcPointNormal", "common/mathlib.cc: FractionOfLine"]}
{"id": "C182", "title": "Which places count as solid", "statement": "A light sample counts as in a solid if it is in the solid parts of its own model, or in those of the world if its model is on the default channel, or of an opaque model that casts shadows on the same channel. This is false for models that are moved by an origin: the model itself is asked about the place without regard to its origin. It is true for models without one.", "quantifier": "all models, channels and places", "why_tests_cant": "It takes a model with an origin, and a place where the model would be without it.", "anchors": ["light/ltface.cc: Light_PointInAnySolid"]}
{"id": "C183", "title": "The suns of a penumbra", "statement": "A sun with a penumbra is split into `-sunsamples` suns, any other is one sun. With any random numbers they share its light equally and look as it does, and the first shines in its direction. The others are off by no more than the penumbra. This is false: they are drawn from a square of angles, not a disc, because the test that is to reject draws compares radians with degrees and never rejects any. What is true: the cosine of the angle is not less than twice that of the penumbra less one.", "quantifier": "all directions, penumbras up to 180 degrees and random numbers", "why_tests_cant": "The draws are random: that none is rejected, and how far off a direction can be, cannot be seen from any number of runs.", "anchors": ["light/entities.cc: SetupSun", "light/entities.cc: AddSun", "light/entities.cc: Dirt_ResolveFlag"]}
{"id": "C184", "title": "Suns from entities and worldspawn keys", "statement": "Setting up the lights ends, whatever the random numbers. The suns together have the light of the sun entities and of the two suns of worldspawn. A sun or dome does not shine as a light of its own, and no other light is changed. A sun entity shines towards its target, or, if it has neither target nor angles, towards the origin of the map. It shines along the angles of its `mangle` key: this is false, the angles are taken for a direction. Its light is that of its key: this is false with deviance and a formula other than the linear one, where it is divided by `_samples`.", "quantifier": "all lists of lights, worldspawn keys and random numbers", "why_tests_cant": "It is a statement about the sum over all entities; the errors need certain keys together.", "anchors": ["light/entities.cc: SetupSuns", "light/entities.cc: SetupLights", "light/entities.cc: CheckEntityFields", "include/common/qvec.hh: vec_from_mangle"]}
{"id": "C185", "title": "Domes of suns", "statement": "The dome of `_sunlight2` consists of 4k\u00b2+1 suns, at most 4k+3 more or fewer than `-sunsamples`. They have the light of the dome together and equal shares of it, look as it does and shine down; the horizontal parts of their directions cancel. The dome of `_sunlight3` is its mirror image. The two do not depend on each other. An entity that is a dome is switched off and gives a dome with its light.", "quantifier": "all lights of the two hemispheres, all numbers of samples from 8 on, all lists of lights", "why_tests_cant": "The numbers of rings and suns depend on the number of samples, by rounding; that the dome has no lateral bias must hold for all of them.", "anchors": ["light/entities.cc: SetupSkyDome", "light/entities.cc: SetupSkyDomes"]}
{"id": "C186", "title": "Jittered lights", "statement": "Every light that is not a sun gets one copy less than it has samples. The copies are like it but for their place, and are not written to the map; together with it they have the light of its key for the formulas that fade with the distance or not at all. A copy is within the deviance: this is false, it is only so along each axis, the copies fill a cube. An entity that is a dome has the light of its key: this is false with a deviance, as each of its copies becomes a dome.", "quantifier": "all lists of lights, keys and random numbers", "why_tests_cant": "The places are random; that none is ever too far cannot be tested, and that the sum is right must hold for every number of samples.", "anchors": ["light/entities.cc: JitterEntity", "light/entities.cc: JitterEntities", "light/entities.cc: DuplicateEntity"]}
{"id": "C187", "title": "The target of a light", "statement": "The target of a light is the first entity whose `targetname` is the light's `target`, without regard to case. Without such an entity or such a key there is no target.", "quantifier": "all lists of entities and lights", "why_tests_cant": "It must hold for all names and orders of entities.", "anchors": ["light/entities.cc: MatchTargets"]}
{"id": "C188", "title": "Lights in walls", "statement": "A light in a wall is moved two units along one axis to a place that is not in a wall, if one of the six is not. All other lights stay, and so do lights that are off, that ask for it or that are not on the default channels. Nothing but the place changes.", "quantifier": "all lists of lights and solids", "why_tests_cant": "It must hold for all shapes of walls around a light.", "anchors": ["light/entities.cc: FixLightOnFace", "light/entities.cc: FixLightsOnFaces"]}
{"id": "C189", "title": "The side that gives a portal its texture", "statement": "For each direction in which a portal is to get a face, the side chosen is one that lies along the portal (no bevel, no point of the portal more than 0.1 off its plane), of a brush in one of the two leafs it separates that makes a face in that direction. A side on the plane of the portal's node is preferred: the last brush of the first leaf that has one, then the last of the second leaf. If there is none, the side closest in angle is chosen for every face its brush makes. Nothing is looked for if and only if the contents seen through the portal are empty. The search does not fail as long as sides on the node's plane face away from their leaf.", "quantifier": "all portals, pairs of leafs, lists of brushes and sides, and all rules of the game", "why_tests_cant": "Which brush wins depends on the order and the planes of all brushes in two leafs.", "anchors": ["qbsp/portals.cc: FindPortalSide", "include/common/polylib.hh: max_dist_off_plane"]}
{"id": "C190", "title": "Every face that is to be made gets a side", "statement": "If a brush makes a face in a direction and has a side along the portal that is not perpendicular to it, a side is chosen for that direction. This is false: the best angle is shared by both directions, so that a closer side of a brush that makes a face only the other way leaves the face out (for example two `_noclipfaces` fences that touch). It holds if every brush there that makes a face at all makes this one.", "quantifier": "all portals, pairs of leafs, lists of brushes and sides", "why_tests_cant": "The missing face needs two inexact sides, with the closer one on the other side.", "anchors": ["qbsp/portals.cc: FindPortalSide"]}
{"id": "C191", "title": "Which sides count as visible", "statement": "After the visible sides are marked, a side of a brush is visible if and only if it is a hint or was chosen for a portal around a leaf that is not empty. A portal that is met twice shows the same sides both times.", "quantifier": "all trees, portals, brushes and flags before", "why_tests_cant": "It ranges over all trees and portals; the memory of earlier searches must not change the result.", "anchors": ["qbsp/portals.cc: MarkVisibleSides", "qbsp/portals.cc: MarkVisibleSides_r", "qbsp/outside.cc: MarkBrushSidesInvisible"]}
{"id": "C192", "title": "Cutting faces into surface lights", "statement": "A face that emits light is cut into pieces. Every piece is narrower than the subdivision size plus 16 along each axis, and lies inside the face; the areas of the pieces add up to the area of the face; a face narrower than 16 stays whole; cutting always ends. It should be safe for every face, but a face with more than 64 corners, or with 64 that has to be cut, overruns the arrays on the stack (qbsp writes faces with up to 64 corners by default, and without a limit for Quake II).", "quantifier": "all polygons in a plane, all subdivision sizes", "why_tests_cant": "It ranges over all polygons; the overrun needs faces with 64 corners.", "anchors": ["light/entities.cc: SubdividePolygon", "light/entities.cc: GL_SubdivideSurface", "light/entities.cc: BoundPoly"]}
{"id": "C193", "title": "Which surface lights are made", "statement": "Lights are made of a face if and only if it belongs to a model and some leaf lists it, other than the wet side of a translucent face. It gets them once, however many leafs list it: on each of its pieces, for each template meant for it (same kind of surface light, same group unless one has none, the name of its texture), one light in the middle of the piece, lifted by the offset along the normal and moved with the model, with the light of the template. A light entity with `_surface` becomes such a template with its own light and shines no more itself; other lights stay as they are.", "quantifier": "all lists of leafs, faces, templates and lights", "why_tests_cant": "A face can be listed by any number of leafs, dry and wet, in any order.", "anchors": ["light/entities.cc: MakeSurfaceLights", "light/entities.cc: MakeSurfaceLightsThread", "light/entities.cc: CreateSurfaceLightOnFaceSubdivision", "light/entities.cc: CreateSurfaceLight"]}
{"id": "C194", "title": "Patches of a face that emits light", "statement": "With high quality a face that emits or bounces light is cut into patches. With a size of 1 or more the cutting ends; no patch is wider than the size plus 2 along any axis; all lie inside the face; every corner of the face is a corner of a patch; the middle of a patch lies inside it.", "quantifier": "all polygons and sizes", "why_tests_cant": "The cutting recurses on any polygon; its end depends on sizes and bounds.", "anchors": ["include/common/polylib.hh: winding_base_t::dice", "include/common/polylib.hh: winding_base_t::center"]}
{"id": "C195", "title": "Settings of surface lights", "statement": "A face emits light if and only if it is emissive, has an area of at least 1 and some source with any light in it: its own flag and value in Quake II, or a light template meant for it. It gets one setting per such source, in order; style, direction and rescaling follow the brush's keys first, then the source. Its points lie over the face, moved with its model and lifted by its normal: over the middle, with more quality over corners or patches too, without those in the void.", "quantifier": "all faces, sources and keys", "why_tests_cant": "It is a cascade of overrides over any number of sources and patches.", "anchors": ["light/surflight.cc: MakeSurfaceLight", "light/surflight.cc: MakeSurfaceLightsThread", "light/surflight.cc: IsSurfaceLitFace"]}
{"id": "C196", "title": "Strength of surface lights", "statement": "All points of a surface light together give off its area times its colour times its value. This holds only when the brightest component is above 1: below, the light is multiplied by it once more, so dim surfaces are too dark, and surfaces with a negative value shine instead of taking light away.", "quantifier": "all faces, colours and values", "why_tests_cant": "It ranges over all colours and values; tests use bright lights.", "anchors": ["light/surflight.cc: MakeSurfaceLight"]}
{"id": "C197", "title": "Bounced light of a face", "statement": "In each pass a face that bounces takes the light collected in its light maps of the styles that are bounced, leaves the others, and gives off the average of it, tinted by its texture, over its area, in one setting per style, tagged with the pass. Faces that do not bounce are left alone. This holds only when the brightest component of the light is above 1: below, the light is multiplied by it once more. The points should lie over the face where its model is, but the model's offset is not added.", "quantifier": "all faces, light maps, styles and passes", "why_tests_cant": "Any number of styles and passes; tests look at single faces.", "anchors": ["light/bounce.cc: MakeBounceLightsThread", "light/bounce.cc: MakeBounceLight", "light/bounce.cc: Face_ShouldBounce"]}
{"id": "C198", "title": "Bounced light does not depend on threads", "statement": "After a pass over all faces by any number of threads, each face is as if it had been treated alone, and another pass follows if and only if a face bounced light. The last part fails under some schedules: a face without light can load the shared flag before, and store it after, another face has set it, and then all indirect light is skipped. If the pass reports bounced light, some face bounced; if tasks run one after the other, in any order, the report is right.", "quantifier": "all numbers of faces and all schedules of their tasks", "why_tests_cant": "The failing schedules are rare; a test with one schedule cannot show their absence.", "anchors": ["light/bounce.cc: MakeBounceLights", "light/light.cc: LightWorld"]}
{"id": "C199", "title": "Saving and loading maps with maputil", "statement": "What `maputil --save` writes is read by maputil as the same entities in the same order, with the same keys, values, brushes, points, textures, texture definitions and surface info. It holds for the definitions of Quake's and Valve's editors. The comment that marks a definition of QuArK is glued to the number before it, so it is lost on reading; brush primitives can neither be read nor written; surface info of fewer than three numbers is undefined; quoted names lose their quotes; and some maps that qbsp reads are refused.", "quantifier": "all maps", "why_tests_cant": "A round trip over all maps; tests try a few.", "anchors": ["common/mapfile.cc: map_file_t::parse", "common/mapfile.cc: map_file_t::write", "common/mapfile.cc: brush_side_t::parse_extended_texinfo", "common/mapfile.cc: brush_side_t::write"]}
{"id": "C200", "title": "Converting maps with maputil", "statement": "`maputil --convert` changes only texture definitions, leaves those that have the wanted style, and keeps the texture coordinates of every point of the other faces. It holds for Valve's style except for the angle, which is never set and then written; for Quake's style only where the axes of a plane that is never set agree with those of the face: other textures are moved by a constant. Converted brush primitives cannot be written, and nothing can be converted to QuArK's style.", "quantifier": "all maps, faces and projections", "why_tests_cant": "The conversion must be right for every projection and plane.", "anchors": ["common/mapfile.cc: brush_side_t::convert_to", "common/mapfile.cc: map_file_t::convert_to", "common/mapfile.cc: brush_side_t::validate_texture_projection"]}
{"id": "C201", "title": "Commands of maputil", "statement": "maputil executes its commands in the order of the arguments, each on what the ones before have left, until one fails, and reads no argument past the end. Stripping and saving writes the same map without surface info. The last argument is never a command: `--strip_extended_info` there is ignored.", "quantifier": "all arguments and maps", "why_tests_cant": "All sequences of commands.", "anchors": ["maputil/maputil.cc: maputil_main"]}
{"id": "C202", "title": "What bsputil --check reports", "statement": "`bsputil --check` reports each reference of a loaded map that is outside the table it refers to, and nothing else, and what is used by nothing. It holds for faces, marked surfaces, edges' use, texture data, leafs and children of nodes; but unlit faces and leafs without visibility data (offset -1) are reported as out of range, an edge that refers to the vertex just past the end is not reported, and the planes of nodes and clip nodes are never checked.", "quantifier": "all loaded maps", "why_tests_cant": "All maps, with wrong numbers in all places.", "anchors": ["bsputil/bsputil.cc: CheckBSPFile"]}
{"id": "C203", "title": "bsputil --check on wrong maps", "statement": "`bsputil --check` ends for every map it can load, prints the height of the tree and the numbers of nodes on each level, and lists just the corners that are off the planes of their faces. It holds for trees; a map in which a node is below itself, or has a child that does not exist, makes the check itself undefined, as does a face with a plane or an edge that does not exist, just after it has been reported.", "quantifier": "all loaded maps, trees and faces", "why_tests_cant": "Trees of every shape, and damaged ones.", "anchors": ["bsputil/bsputil.cc: CheckBSPFile", "bsputil/bsputil.cc: Node_Height", "bsputil/bsputil.cc: CheckBSPFacesPlanar"]}
{"id": "C204", "title": "bsputil --scale: planes, nodes, faces and brushes", "statement": "After `bsputil --scale x y z` each face and brush side has the image of its plane, facing the same side, and looking up the image of a point finds the leaf that looking up the point found before. It holds up to the tolerance within which planes become one if none, one or all three factors are negative; with exactly two negative factors all planes are reversed, and clip nodes keep the old numbers of planes that have got new ones.", "quantifier": "all maps, factors and points", "why_tests_cant": "All planes and factors; the unit tests have no case of scaling.", "anchors": ["bsputil/bsputil.cc: bsputil_main", "bsputil/bsputil.cc: planelist_t", "bsputil/bsputil.cc: planepoints"]}
{"id": "C205", "title": "bsputil --scale: corners, bounds, textures, light grid and entities", "statement": "After `bsputil --scale x y z` the corners of faces are the images of the old ones, in an order that keeps the side they face; bounds of models are the images of the old ones, those of leafs and nodes the least whole-number boxes that hold the images; texture coordinates of images are those of the points, the points of the light grid are images, and of the entities only origin, lip and height change. In mirror images the edges of a face no longer join, and the points of the light grid are misplaced.", "quantifier": "all maps, factors and points", "why_tests_cant": "All maps and factors.", "anchors": ["bsputil/bsputil.cc: bsputil_main"]}
{"id": "C206", "title": "bsputil --replace-entities on a map", "statement": "`bsputil --replace-entities file.ent map.map` writes the entities of the file, in their order, with their keys and values except the origins of those with brushes and the styles of named lights and area portals; the world and each entity that names a model get the brushes of the same model in the map, byte for byte, and the command fails if they don't match. It holds for the order and the keys; but the brushes go by order and not by the names of the models, entities for which no brushes are left are written without, an empty file is undefined, and maps with brush primitives can't be read.", "quantifier": "all maps and entity files", "why_tests_cant": "All entity lists in all orders, and all texts; there is no unit test of it.", "anchors": ["bsputil/bsputil.cc: bsputil_main", "bsputil/bsputil.cc: LoadMapOrEntFile", "bsputil/bsputil.cc: ParseEntity", "bsputil/bsputil.cc: ParseEpair"]}
{"id": "C207", "title": "The commands of bsputil, alone and in sequence", "statement": "bsputil carries out the commands of its command line one after the other, each on the result of those before; each writes its own file and no other, and a missing word is an error. It holds for a single command, and for any sequence of commands that only read. But of several changes only the first is ever in a map that is written: a second one fails, is undefined, or writes the first result again (a second conversion under the name of the other format); after an extraction the changed map is written over the extracted file; a file is emptied before the conversion is known to fit; and missing words of --scale and of the commands for BSPX lumps are undefined or taken from the name of the file.", "quantifier": "all command lines, maps and lumps", "why_tests_cant": "All sequences of commands; unit tests call the parts and not the command line.", "anchors": ["bsputil/bsputil.cc: bsputil_main", "common/bspfile.cc: ConvertBSPFormat", "common/bspfile.cc: WriteBSPFile"]}
{"id": "C208", "title": "The textures a map lists and the frames of its animations", "statement": "Whatever the faces of a map name, qbsp lists each texture once, without regard to case and path; a face's number stays the number of its texture while others are listed; of an animated texture (`+1slip`) all lower frames are listed too, and those of its frames that are in the wads are added at the end; nothing else is listed, and a bad frame character is refused. It holds, except: a frame is listed before the lower frames, although the comment wants those first; the lower frames of a name of more than fifteen characters are cut; and the texture `+` is accepted and then written behind its end.", "quantifier": "all sequences of texture names, and all contents of the wads", "why_tests_cant": "All names and orders of faces; unit tests compile a few maps.", "anchors": ["qbsp/map.cc: AddAnimTex", "qbsp/map.cc: FindMiptex", "qbsp/qbsp.cc: AddAnimationFrames"]}
{"id": "C209", "title": "Animation chains of Quake 2 textures", "statement": "For Quake 2 no two listed textures have the same name, flags and value; a face gets a texture of its name with the flags and value the map gives or else those of the file; what is listed keeps its number; and the frames of an animation are listed with the flags and value of the face, each followed by the next one and the last by the first. It holds for chains that return to their first frame or end; but with a chain that runs into a circle without its first frame qbsp never ends, and a still texture that is the last frame of another animation gets animated.", "quantifier": "all files, chains, faces and tables reached", "why_tests_cant": "All chains of files, including circles, and all orders of faces.", "anchors": ["qbsp/map.cc: FindMiptex", "qbsp/map.cc: LoadTextureData", "include/common/imglib.hh: texture_meta"]}
{"id": "C210", "title": "The wads of a map", "statement": "Every wad of the list of the world (`_wad`, else `wad`, cut at semicolons) that is there is registered: at its absolute path, or below the first wad path that has it, or in the working directory; if there is none, the wad with the name of the map is; nothing registered before is lost; the options -wadpath and -xwadpath give each path once, the first one counts, and their order makes no difference. But a wad below a second wad path is not found if the working directory has one of its name, which is then taken for one of the first path (and not embedded, if that is an -xwadpath), and an empty part of the list registers the wad path itself as a directory and so keeps the wad with the name of the map from being tried.", "quantifier": "all files, lists, options and registrations before", "why_tests_cant": "All contents of the disk and all lists; unit tests have one wad.", "anchors": ["qbsp/map.cc: LoadTexturePath", "qbsp/map.cc: EnsureTexturesLoaded", "qbsp/qbsp.cc: setting_wadpathset", "common/fs.cc: addArchive"]}
{"id": "C211", "title": "The faces and the node at a point", "statement": "Asked for the faces of a model at a point, the library reports exactly the faces of those nodes to which the point leads, up to the tolerance of 0.1, whose edges it is within and which do not look away from the wanted normal; every point of a convex face, and every point at most 0.1 above or below one, is found to be at the face, whatever the other planes of the tree; asked for one face or node it returns one of them, and none only if there is none. But the one face need not have the wanted normal even if a face at the point has it: near a corner the wall is returned for a point of the floor.", "quantifier": "all trees, faces, points and normals", "why_tests_cant": "All trees and points, also those within the tolerance of many planes; the unit tests rely on the function themselves.", "anchors": ["common/bsputils.cc: BSP_FindFacesAtPoint", "common/bsputils.cc: BSP_FindFaceAtPoint", "common/bsputils.cc: BSP_FindNodeAtPoint", "bsputil/bsputil.cc: FindFaces"]}
{"id": "C212", "title": "What stops a ray of light", "statement": "Whatever the order in which the ray tracer meets the triangles on a ray, and however often it meets them, a ray is blocked exactly if one of them blocks: an ordinary face of the world or of a model with _shadow always does; a face of a model without any shadow key, a face exempted from shadows, a face without a common channel with the light, a model with a switchable shadow, glass and liquids of the world never do; a fence does where its texel is opaque; a model with _shadowself or _shadowworldonly shadows only itself or the world. The nearest hit a ray is told is a nearest one of the blocking triangles. But liquids and sky of a model with _shadowself or _shadowworldonly shadow everything, fences of a model with _shadow and _shadowself shadow only the model, hidden faces and liquids of the world block once their channels were set, in Quake 2 an alpha without flags is ignored, and a light with a shadow mask of its own fails on a model without faces.", "quantifier": "all models, faces, keys, flags, masks, texels, triangles on a ray, and orders of the calls of the filters", "why_tests_cant": "The order of the calls is up to the ray tracer and differs from run to run; all combinations of keys, flags and masks.", "anchors": ["light/trace_embree.cc: Embree_TraceInit", "light/trace_embree.cc: Embree_FilterFuncN", "light/trace_embree.cc: PerRay_FilterFuncN", "light/trace_embree.cc: CreateGeometry", "include/light/trace_embree.hh: raystream_occlusion_t", "include/light/trace_embree.hh: raystream_intersection_t"]}
{"id": "C213", "title": "Glass and switchable shadows on a ray of light", "statement": "Light that passes no glass keeps its colour; light that passes one pane from its front is mixed with its product with the colour of the glass by the opacity, which is that of the texel or else that of the face, between 0 and 1; glass never makes light brighter or negative, in whatever order panes are met. Light of style 0 that passes a switchable shadow gets its style, any other light keeps its own. But of two panes, or of two switchable shadows, only the one met last counts, so that the result depends on the order in which the ray tracer meets them, and a pane behind the sky may tint the light of the sun.", "quantifier": "all models, faces, texels, colours, styles, triangles on a ray, and orders of the calls of the filters", "why_tests_cant": "The order of the calls is up to the ray tracer and differs from run to run.", "anchors": ["light/trace_embree.cc: AddGlassToRay", "light/trace_embree.cc: AddDynamicOccluderToRay", "light/trace_embree.cc: Embree_FilterFuncN", "include/light/trace_embree.hh: getPushedRayColor"]}
{"id": "C214", "title": "The noise of minimum light", "statement": "The noise added to the minimum light of Quake 2 maps is from 0 to 48 everywhere and depends on the place alone; it is the interpolation of a lattice of 16 units, less than 144/255 below it, so that it has no seams: it changes by at most 3 per unit of distance apart from the rounding. It repeats after 4096 units, and differs at any two of 256 neighbours of the lattice on a line along the first axis. It is defined for every place whose cell numbers are integers. But a debug build ends in an assertion for places in a cell whose number is a negative multiple of 256.", "quantifier": "all places in space", "why_tests_cant": "Continuity and range over all places; the failing cells are far from the origin.", "anchors": ["light/ltface.cc: Mottle", "light/ltface.cc: mod_round_to_neg_inf", "include/common/mathlib.hh: mix"]}
{"id": "C215", "title": "The occlusion used for dirt", "statement": "The occlusion of a sample is from 0 to 1, is 1 for a sample inside a solid, does not decrease if more is solid, and is above 0 exactly if something solid is on one of its 48 rays within the depth, measured in lengths of the direction. What lies behind the surface never occludes, in both modes and for all angles allowed. On a surface parallel to an axis nothing as far as the depth or farther occludes. The ordered rays have 16 directions with elevations of a sixth, a half and five sixths of the angle. Dirt is calculated exactly if it is on, or if it was not switched off on the command line and minimum light, sunlight or some light asks for it. But on oblique surfaces the tangents are not perpendicular and directions are longer or shorter than one: something farther than the depth (up to a factor of the root of 3/2) occludes, and random rays leave the cone of the angle.", "quantifier": "all points, unit normals, depths, angles, modes, random numbers and worlds", "why_tests_cant": "Ranges over all directions and all geometry; the error depends on the direction of the surface.", "anchors": ["light/ltface.cc: LightFace_CalculateDirt", "light/ltface.cc: SetupDirt", "light/ltface.cc: GetDirtVector", "light/ltface.cc: TransformToTangentSpace", "include/common/qvec.hh: MakeTangentAndBitangentUnnormalized"]}
{"id": "C216", "title": "Sunlight on faces, suns and lights in the light grid", "statement": "A sun lights exactly those samples of a face that are not inside a solid, for which its light is over the gate and from which the first thing met towards it is sky, of its `suntexture` if it has one; what is added is its share for the angle, after glass, in its own style or that of a switchable shadow. Skipping flat faces that are turned away loses no light if the angle scale is 1. In the light grid a sun or light counts as on a face turned to it, times a factor from one over the root of three to one that depends only on the direction; no face at a point gets more than the root of three times this. But the light grid ignores `suntexture`, switchable shadows and light channels, and a sun whose `suntexture` is not found shines through any sky.", "quantifier": "all suns, lights, faces, samples, points and worlds", "why_tests_cant": "Ranges over all directions, geometry and combinations of keys.", "anchors": ["light/ltface.cc: LightFace_Sky", "light/ltface.cc: LightPoint_Sky", "light/ltface.cc: LightPoint_Entity", "light/entities.cc: AddSun"]}
{"id": "C217", "title": "Which lights are cast on a face, how often and in which order", "statement": "On every lightmapped face each static light that is no local minimum is cast exactly once if its light is not zero, unless the face or its model ignores lights; faces that ignore lights get minimum light only. Everything that adds light comes before everything that takes light, and minimum light (the greater of that of the face and of the world) comes between, so that a sample has the maximum of the minimum light and all that was added, less what negative lights take. But local minimum light comes before bounced light, which is added on top; with -nolighting positive lights are still cast; -bouncedebug writes no light at all; and a lightmapped face without three edges, without a model or with bad texture axes, which the program means to skip, ends the run.", "quantifier": "all lists of lights and suns, faces, options and numbers of bounces", "why_tests_cant": "Ranges over all combinations of lights, faces and options; order only shows with negative lights and minimum light together.", "anchors": ["light/light.cc: LightWorld", "light/ltface.cc: DirectLightFace", "light/ltface.cc: IndirectLightFace", "light/ltface.cc: PostProcessLightFace", "light/ltface.cc: CreateLightmapSurface"]}
{"id": "C218", "title": "The settings of a face come from its model, its texture info and the world", "statement": "Minimum light, its colour and noise, maximum light, the scale of colours and dirt of a face are those of its model if set there, else those of the face, else those of the world; channels of the face come before those of the model. Light comes from both sides on translucent models, on faces that ask for it and on liquids that do not refuse; liquids have no dirt. The minimum light applied is the greater of the face's and the world's in Quake. But its colour is the world's unless the face has greater minimum light than the world, so a colour alone has no effect; a model cannot have less minimum light than the world; and in Quake II the two are compared in different units, so that there it can.", "quantifier": "all models, texture infos, faces and options", "why_tests_cant": "Ranges over all combinations of settings on three levels.", "anchors": ["light/ltface.cc: Lightsurf_Init", "light/ltface.cc: PostProcessLightFace"]}
{"id": "C219", "title": "Lightmap scales, and the models that cast shadows", "statement": "A map has lightmap scale 16 or that of its key; a negative one is an error. The supplementary scales of faces are powers of two by the bytes of the LMSHIFT lump, as an engine reads them. The model of a face is the first that contains it. `light` goes on exactly if every model but the world has an entity and every switchable shadow a style; then each model is on one list of shadow casters at most: switchable before `_shadow` before `_shadowself` before `_shadowworldonly`. But a face with a coarser scale than the map's in the lump is lit with the map's, while an engine uses the lump; a short lump is read behind its end; shifts of 32 or more are undefined; and the warning about scales that are not powers of two is never printed.", "quantifier": "all lumps, keys, numbers of faces and models and their settings", "why_tests_cant": "Ranges over all lumps a file can contain and all lists of models.", "anchors": ["light/light.cc: FindModelInfo", "light/light.cc: LightWorld", "light/light.cc: ModelInfoForFace", "light/ltface.cc: Lightsurf_Init"]}
{"id": "C220", "title": "`-onlyents` gives entities the models they have in the compiled map", "statement": "When only the entities of a map are replaced, each gets the number of the model a full compile made for it: entities with brushes that are not added to the world are numbered in their order from 1, external maps included, and whatever a full compile accepts is accepted. It holds if no option drops triggers and every entity with brushes has one that is not an origin brush; it fails for entities with nothing but origin brushes and with `-notriggermodels`, where all later entities get the model of another.", "quantifier": "all lists of entities, with brushes, origin brushes, triggers and external maps, and all options", "why_tests_cant": "Ranges over all maps.", "anchors": ["qbsp/qbsp.cc: UpdateEntLump", "qbsp/qbsp.cc: ProcessEntity", "qbsp/map.cc: ProcessMapBrushes", "qbsp/map.cc: ProcessExternalMapEntity"]}
{"id": "C221", "title": "`-onlyents` writes the entities a full compile writes", "statement": "The entities written with `-onlyents` are those a full compile of the map writes: not those without keys and not those whose brushes the world got, without the keys of the editor. With no origin brush, rotating entity, scale, `-lmscale` or `-notriggermodels` the two are the same, key by key. But an entity with an origin brush gets no origin, so that its model moves; `-scale` is ignored; `rotate_` is only known in lower case; and in a full compile with `-scale` the origin of a rotating entity is scaled twice or once, by the order of the entities.", "quantifier": "all lists of entities and all options", "why_tests_cant": "Ranges over all maps and options.", "anchors": ["qbsp/qbsp.cc: UpdateEntLump", "qbsp/map.cc: ProcessMapBrushes", "qbsp/map.cc: WriteEntitiesToString", "qbsp/brush.cc: FixRotateOrigin"]}
{"id": "C222", "title": "The list of brushes written for engines is the map's", "statement": "With `-wrbrushes` each model is listed with all its brushes: the world with its own and those of groups and of details that can be touched, each other entity with a model with its own. A listed brush, which has no planes along the axes but a box, has exactly the points of the brush of the map, and its contents are clip, solid, sky, lava, slime, water or empty, as an engine knows them. Each model is listed once if no entity calls the world its model or has the model of another. But an entity with a `model` of `*0` lists the world again; one with `*` and no number ends qbsp with an exception; and in Quake II liquids are listed as solid.", "quantifier": "all entities, brushes with any planes and contents, all points", "why_tests_cant": "Ranges over all maps and all points of space.", "anchors": ["qbsp/qbsp.cc: BSPX_CreateBrushList", "qbsp/qbsp.cc: BSPX_Brushes_AddModel", "qbsp/qbsp.cc: qbsp_plane_t::normalize"]}
{"id": "C223", "title": "Ambient sounds are those of the textures a leaf sees", "statement": "`vis` gives each leaf of a Quake map the level of each ambient sound: water, slime and lava textures and skies, by the first letters of their names in any case, are heard in every leaf that sees a leaf with such a face, unless an option turns the sound off; all else is silent, other leafs and fields are kept, and the result is the same for every order in which threads do the leafs. But the level is 255 at any distance: the distance to the face is computed and thrown away. Slime sounds like water, so its own level is always 0, and a leaf without a cluster makes `vis` read before the rows.", "quantifier": "all leafs, faces, textures, rows of visibility, options and orders of the parallel loop", "why_tests_cant": "Ranges over all maps and schedules.", "anchors": ["vis/soundpvs.cc: CalcAmbientSounds"]}
{"id": "C224", "title": "The brushes in a Quake II file", "statement": "After qbsp wrote the brushes of all models of a Quake II map, each leaf that is not empty in the file names exactly the brushes that lie in it, in order; a brush of the map is in the file if and only if it lies in such a leaf, and then once, with its contents in the form of the file; its sides are those of the brush, in order, with the record of their plane and of a texinfo with the same flags, texture and value, whose vectors are those of the side or those aligned to its plane, and with none exactly for textures that are not written; the sides of all brushes follow each other without gaps. What is written for one model stays right when more are written.", "quantifier": "all trees of models, brushes, leafs, planes, texinfos and games' contents, and whatever the export of faces adds in between", "why_tests_cant": "Ranges over all maps, all trees and all ways in which brushes are shared between leafs.", "anchors": ["qbsp/qbsp.cc: ExportBrushList, ExportBrushList_r"]}
{"id": "C225", "title": "The format that qbsp writes follows the flags", "statement": "With no flag of a format qbsp writes Quake's, with one flag that format, and two are an error; `-q2rtx` counts as a flag of Quake II if no flag of Quake II was given a value, and `-hexen2` turns Quake, BSP2 and 2PSB into the formats of Hexen II. The options that depend on the target (`software`, `includeskip`, `maxedges`, `subdivide`, `chop`) get their other defaults exactly if the user did not set them, and what the user set is kept. But `-hexen2` together with `-q2bsp`, `-qbism` or `-hlbsp` is no error: the other flag is ignored.", "quantifier": "all values and sources of the flags and options", "why_tests_cant": "The combinations of flags, sources and option values are not enumerable for integer options, and the tests use a handful.", "anchors": ["qbsp/qbsp.cc: qbsp_settings::postinitialize, set_target_version"]}
{"id": "C226", "title": "Culling by visibility drops no light that is seen", "statement": "With `-visapprox vis`, `light` skips a light for a face only if, by the rows that `vis` wrote, no leaf of the face sees the leaf of the light, and exactly then if all leafs of the face have rows and the contents let no other light through; faces in liquids, files without visibility, lights on other channels and lights in solid, sky or liquid leafs are never skipped. The rows are read without undefined behaviour whatever the file has. But a face that gives light (an emissive or bouncing surface) is skipped as soon as one of its leafs is not seen, although others are: such faces lose their light even on faces in the same leaf.", "quantifier": "all files, leafs, rows, faces of the world and of other models, and lights", "why_tests_cant": "Ranges over all maps and visibility data.", "anchors": ["light/ltface.cc: CalcPvs, Mod_LeafPvs, VisCullEntity, SurfaceLight_VisCull", "common/bsputils.cc: Pvs_LeafVisible, DecompressAllVis, DecompressedVisSize"]}
{"id": "C227", "title": "No side of a brush gets a texture that is seen edge-on", "statement": "Whatever texture vectors a map file gives for a side of a brush, qbsp goes on with vectors with which different points of the side have different texture coordinates, and never stops on an assertion. Those of a drawn side are the vectors of the file, with every number that is nearer than 0.0001 to an integer rounded to it, unless the texture is seen edge-on (the cosine between its normal and that of the side is less than 0.0001); then, and on sides that are not drawn (nodraw, hint, hintskip), the texture is projected along the nearest axis at scale 1; on the latter the axis is chosen as with -oldaxis.", "quantifier": "all texture vectors, all unit normals, all flags", "why_tests_cant": "Ranges over all vectors and normals.", "anchors": ["qbsp/map.cc: IsValidTextureProjection, ValidateTextureProjection, ParseBrushFace", "common/mapfile.cc: brush_side_t::set_texinfo"]}
{"id": "C228", "title": "A region compiles what is in it, closed by walls", "statement": "If the world has a region brush, qbsp compiles of the world, and of the entities merged into it, exactly the brushes whose bounds meet those of the region, keeps of the entities without brushes those in the region, and closes the region by walls 16 units thick that cover its whole surface and leave its inside free; with anti-regions it leaves out what is in them. This is so for regions all of whose sides have an opposite side, such as boxes, and as long as there are not both a region and anti-regions. But the wall of a side without an opposite one fills the whole region; anti-regions do not remove any brush; and with both, an entity with brushes that follows a removed entity may be removed too, and memory behind the last entity is read.", "quantifier": "all region brushes, points, brushes, entities, regions and anti-regions", "why_tests_cant": "Ranges over all convex region brushes and all lists of entities.", "anchors": ["qbsp/map.cc: ParseBrush, ProcessMapBrushes", "qbsp/brush.cc: Brush_LoadEntity", "include/common/aabb.hh: disjoint, containsPoint"]}
{"id": "C229", "title": "Groups are merged into the world and area portals are numbered", "statement": "The brushes qbsp loads for the world are those of the world and then those of all func_group, func_detail* , func_illusionary_visblocker and func_areaportal entities, in the order of the map, whatever the case of the class. In Quake II the area portals are numbered from 1 in their order, each with a number of its own, which becomes their key style; no other key of any entity changes. An area portal that is not a single brush stops the compile; with a region or anti-regions none is numbered. In games with clipping hulls every hull numbers them anew, from where the last one ended.", "quantifier": "all lists of entities with their keys and brushes", "why_tests_cant": "Ranges over all maps.", "anchors": ["qbsp/brush.cc: Brush_LoadEntity", "qbsp/map.cc: ProcessAreaPortal, IsWorldBrushEntity, IsNonRemoveWorldBrushEntity"]}
{"id": "C230", "title": "The bounds of rotating brushes hold all their rotations", "statement": "In games other than Hexen II, for hulls, the bounds of each brush of an entity that rotates in the way of Hipnotic and has an origin are the smallest cube around the origin that holds it, so that they hold it after every quarter turn. They are meant to hold it after any turn; but they do not: a corner of a square leaves its bounds when it turns.", "quantifier": "all brushes, points and rotations", "why_tests_cant": "Ranges over all brushes and angles.", "anchors": ["qbsp/brush.cc: LoadBrush"]}
{"id": "C231", "title": "The bounds of nodes and leafs hold what is below them", "statement": "After the portals of a tree are made, qbsp gives every leaf the smallest box around its portals and every node the smallest box around its children, so that the bounds of a node hold the portals of all leafs below it. This holds for the leafs with a volume and for all nodes above them. But a leaf or node that is flat along the first axis gets the corner of the bounds its parent had before, wherever it is, and so the bounds of the nodes above it become too large; and if the whole tree is flat, a null pointer is used.", "quantifier": "all trees with the points of the portals of their leafs", "why_tests_cant": "Ranges over all trees.", "anchors": ["qbsp/portals.cc: CalcTreeBounds_r, CalcNodeBounds, CalcTreeBounds"]}
{"id": "C232", "title": "A plane in the middle of a node has the best measure", "statement": "When qbsp takes a plane from the middle of a node, it finds the bounds of the parts of the node on both sides of each plane. They hold the whole part on their side, for axial and sloping planes, and are no larger than needed if the plane meets the node. The measure is how much the volumes of both differ, so that of two planes along the same axis the one nearer to the middle is taken. A sloping plane has no measure, and is never taken, if the node is flat along an axis.", "quantifier": "all boxes with a volume and all planes whose type fits their normal", "why_tests_cant": "Ranges over all boxes, planes and points.", "anchors": ["qbsp/brushbsp.cc: DivideBounds, SplitPlaneMetric"]}
{"id": "C233", "title": "The leak line of an area portal joins its two sides", "statement": "When an area portal does not separate two areas, qbsp finds every way out of it: each portal that leads from one of its leafs, or of the area portal leafs joined to it, into a leaf that is neither solid nor an area portal, once. With fewer than two there is no line. Otherwise the line is a shortest way, through no solid and no area portal, from the first way out to the one that is furthest from it; it has no points if none of the others can be reached.", "quantifier": "all sets of leafs with contents and portals, and all area portal leafs", "why_tests_cant": "Ranges over all graphs of leafs and portals.", "anchors": ["qbsp/portals.cc: FindAreaPortalExits, FindAreaPortalExits_R, DebugAreaPortalBothSidesLeak, FindShortestPath"]}
{"id": "C234", "title": "A light with a projected texture is a projector", "statement": "A light with _project_texture throws its image like a projector: into the direction of project_mangle, or else of mangle, or else of angles, the longer side of the image spans project_fov and pixels are square; a point shows the place of the image that is as far from its middle, to the right and upwards as seen from the light. What is outside of these angles or less than 16 units ahead gets no light. A project_fov outside of 1 to 179 is an error. This is false for angles: such a light casts no light at all.", "quantifier": "all angles, places, sizes of images and angles of view, and all points", "why_tests_cant": "Ranges over all angles and points.", "anchors": ["light/entities.cc: LoadEntities, Matrix4x4_CM_MakeModelViewProj, Matrix4x4_CM_ModelViewMatrix, Matrix4x4_CM_Projection_Inf, CalcFov, SetupSpotlights", "light/ltface.cc: Matrix4x4_CM_Project, LightFace_SampleMipTex, GetLightValueWithAngle"]}
{"id": "C235", "title": "Emissive surfaces and bounced light in the light grid", "statement": "Every point of every emissive surface that vis does not exclude adds its light to a point of the light grid once for each of its styles, with emitted and bounced light in passes of their own, if that light is over the gate and nothing is in between. In front of the surface it is what a face turned to the surface would get there, times a factor from 0.577 to 1 that depends only on the direction; sky surfaces light in all directions; behind any other surface there is no light.", "quantifier": "all surfaces, styles, points of the grid and geometries", "why_tests_cant": "Ranges over all positions, directions and sets of surfaces.", "anchors": ["light/ltface.cc: LightPoint_SurfaceLight, GetSurfaceLighting"]}
{"id": "C236", "title": "Textures in the BSP file", "statement": "qbsp stores one entry per listed texture, in the order of the list. A texture whose file is found and may be copied is stored byte for byte; with `-notex`, or from a WAD that is not to be copied, only a header with the name (cut to 15 bytes) and the size in the file is stored, from which light takes the size; a missing texture has no entry, or a header of size 0 with `-missing_textures_as_zero_size`. The other tools can read all entries.", "quantifier": "all lists of textures, files, archives and options", "why_tests_cant": "Ranges over all names and contents of files.", "anchors": ["qbsp/qbsp.cc: LoadTextureData", "common/imglib.cc: load_texture", "common/bspfile_generic.cc: dmiptex_t::stream_write"]}
{"id": "C237", "title": "Lights without visibility data", "statement": "In a map without visibility data light estimates what each light can see with 1024 rays of all directions, without failing. The estimate is the smallest box around the light and the ends of the rays, and a quarter more on each side; a light or an emissive surface is skipped only at faces outside its box, never with channels of its own, and never at faces that a ray reached. Faces in plain view of a light are not skipped.", "quantifier": "all lights, surfaces, faces and scenes", "why_tests_cant": "Ranges over all positions of lights and all geometries.", "anchors": ["light/entities.cc: EstimateVisibleBoundsAtPoint, UniformPointOnSphere", "light/ltface.cc: CullLight, SurfaceLight_SphereCull", "light/light.cc: light_main (visapprox)"]}
{"id": "C238", "title": "Files with lights of textures", "statement": "Every line of a `.rad` file with a texture, three numbers and a brightness makes faces with that texture emit light of that colour and brightness: one light per line, in the order of the lines, of `lights.rad`, the file of the map and `-radlights`. Empty lines, comments and further words have no effect; missing files are no error; a line without three numbers ends the program.", "quantifier": "all files and lines", "why_tests_cant": "Ranges over all texts.", "anchors": ["light/entities.cc: ParseLightsFile", "light/light.cc: light_main, light_settings::postinitialize", "common/parser.cc: parser_t::parse_token"]}
{"id": "C239", "title": "The normals that light writes for faces", "statement": "With `-wrnormals`, a reader of the BSPX lump FACENORMALS finds for every vertex of every face, in their order, the normal, the tangent and the bitangent that light used, except that vectors close to an axis (a number within 0.000001 of 1 or -1) are that axis; no vector of length 1 is moved by more than 0.0015. No vector is stored twice, none is stored that no vertex has, and writing never fails.", "quantifier": "all faces with all normals", "why_tests_cant": "Ranges over all lists of faces and all normals.", "anchors": ["light/light.cc: WriteNormals", "include/common/qvec.hh: Snap", "common/bsputils.cc: BSPX_FaceNormals"]}
{"id": "C240", "title": "Which entities become lights, and the keys of Arghrad", "statement": "Exactly the entities whose class starts with `light` become lights, in their order; with `-nolighting` only those with a style or with the style of a shadow, with `-nolights` none. With `-arghradcompat` a light with `_falloff`, `_distance`, `_fade`, `_angfade` or `_angwait` has these as `delay`, `_falloff`, `wait` and half the `_anglescale`, between 0 and 1, unless the map gives the key itself; all other keys and all other entities stay as they are. Lighting the file again gives the same lights.", "quantifier": "all lists of entities, all options", "why_tests_cant": "Ranges over all entities.", "anchors": ["light/entities.cc: LoadEntities", "common/entdata.cc: entdict_t::rename"]}
{"id": "C241", "title": "Metadata of textures in .wal_json files", "statement": "A `.wal_json` file gives or overrides the metadata of a texture: each of `width`, `height`, `value`, `animation`, `contents`, `flags` and `color` that it gives is used, an array of contents or flags standing for all bits of its numbers and names; what it does not give is that of the `.wal` file next to it, or 0. A file without valid JSON is ignored.", "quantifier": "all JSON values, all files", "why_tests_cant": "Ranges over all JSON values and all directories of textures.", "anchors": ["common/imglib.cc: load_wal_json_meta, load_texture_meta", "docs/qbsp.rst: .wal_json"]}
{"id": "C242", "title": "The portal of a node covers the node's plane within its region", "statement": "The portal that a node of the tree makes has the node's plane and lies on it. It stays within the region of the node: on the right side of the plane of every node above it (up to 0.001) and of every portal around it (up to 0.1). It ends nowhere inside the region: each edge lies along one of those planes or is part of the border of the square of the plane, and no point of that border well within the region is lost unless the portal is tiny. Making it fails only for a portal that is not linked to the node.", "quantifier": "all trees with unit normals, all nodes, all lists of portals, all extents", "why_tests_cant": "Ranges over all trees and all real coordinates.", "anchors": ["qbsp/portals.cc: BaseWindingForNode, MakeNodePortal", "include/common/polylib.hh: from_plane, clip_front, clip_back"]}
{"id": "C243", "title": "-debugexpand writes the world's brushes grown by a hull", "statement": "`-debugexpand` with the number of a hull or with six numbers writes a map with the brushes and faces of the world in their order: each face keeps its texture, its three points span a plane, and behind that plane is exactly what one reaches from behind the original face by a vector of the hull; so each brush contains all that one reaches from the original brush. The number of a hull that the game does not have is an error, and the words behind the value of the option are not read as part of it.", "quantifier": "all maps with unit normals, all hulls, all values of the option", "why_tests_cant": "Ranges over all real planes and boxes, and all points.", "anchors": ["qbsp/map.cc: WriteMapBrushMap, ProcessMapBrushes", "qbsp/qbsp.cc: setting_debugexpand::parse", "include/common/polylib.hh: from_plane"]}
{"id": "C244", "title": "Files of -texturedefs replace textures", "statement": "Each line of the files of `-texturedefs` has a name of a texture, the name that replaces it and, if given, contents, flags and value; lines may be empty and end with comments. The last line for a name counts, over all files in the order in which they are read; that order is not the one of the command line, but it does not matter if no two files have a line for the same name. A face whose texture has that name gets the new name, and the contents, flags and value if the line gives them; all other faces stay as they are. A file that is not there is an error.", "quantifier": "all files, all lines, all names", "why_tests_cant": "Ranges over all texts.", "anchors": ["qbsp/qbsp.cc: load_texture_def, qbsp_settings::postinitialize", "qbsp/map.cc: ParseTextureDef", "docs/qbsp.rst: -texturedefs"]}
{"id": "C245", "title": "Files of -aliasdef replace classnames", "statement": "The files of `-aliasdef` give classnames, each followed by an entity; blanks, newlines and comments may be between all words, and words may be in quotes. The last entity for a classname counts, over all files in the order in which they are read; that order is not the one of the command line, but it does not matter if no two files have an alias for the same classname. An entity of the map with that classname gets the classname of the alias, if the alias has one, and the values of all keys that the alias gives and the entity does not; its own values of other keys stay. Aliases are not applied to the result again. Entities without an alias stay as they are. A file that is not there is an error, and so is a classname that no entity follows.", "quantifier": "all files, all aliases, all entities", "why_tests_cant": "Ranges over all texts and entities.", "anchors": ["qbsp/qbsp.cc: load_entity_def, qbsp_settings::postinitialize", "qbsp/map.cc: ParseEntity", "docs/qbsp.rst: -aliasdef", "include/common/settings.hh: setting_set"]}
