# Formal model of ericw-tools in Lean 4 — design

## Layout

* `properties.jsonl` — the properties in English.
* `lean/Verif/<Area>/…` — per area: the model (executable definitions, every one with a comment that cites the file and
  lines of `/repo` and names simplifications), `*Spec.lean` (a small independent specification, where the property needs
  vocabulary beyond the standard library), `*Lemmas.lean` (helpers), `*Props.lean` (the theorems named in
  `MANIFEST.json`, each followed by a concrete `example` that meets its hypotheses).
* `MANIFEST.json` — claim per property; generated from `tools/claims.txt` by `tools/manifest.py`.
* `COVERAGE.md` — the lines of `/repo` that are modelled; generated from the comments by `tools/coverage.py`.
* `AXIOMS.txt` — the output of `#print axioms` for every theorem of the manifest.
* `seeded/LOG.jsonl` — wrong programs that were tried, and the theorems that failed.

## Conventions

* Byte buffers are lists of bytes; positions are remaining suffixes or indices.
* `FError`, `throw`, failed `Q_assert` are explicit outcomes (`none`, `Except`, `Outcome.error`), and undefined behaviour
  (out-of-bounds access, `front()` of an empty string, conversion of NaN, overflow that the code relies on) is a separate
  explicit outcome (`Outcome.ub`). Nothing is totalised silently; where a fallback value is needed to write a definition
  the theorems show that it is not reached or carry the hypothesis that says so.
* Loops are structural or well-founded recursion, so termination is part of acceptance. Where the loop of the code may not
  end, the model takes fuel and the theorems say for which fuel there is a result, or that there is none for any fuel.
* Floating point is modelled over an arbitrary linearly ordered field (exact arithmetic); rounding is out of scope unless
  a parameter (`rnd`) stands for it. Floats that are only copied or stored are bit patterns.
* Thread programs are nondeterministic interleavings of atomic steps at the granularity of the mutex-protected regions.
  Unprotected reads may see any earlier value that the code can have written (monotone bits), as an oracle.
* Geometry that is not modelled (portal windings in qbsp, tests on triangles) is a parameter; every
  theorem is for all values of the parameter, and what it needs is a named hypothesis.
* Where the code violates the property, the negation is proved with a concrete witness or in general, and a `_partial`
  theorem states what does hold.

## Properties: what is modelled, how it is proved

| id | modelled | proof |
|----|----------|-------|
| C01 | CompressRow / DecompressVis over byte lists | induction on the row with run lemma |
| C02 | DecompressVis with explicit input bounds | length invariant |
| C03, C04 | CompressBits / DecompressBits over the byte image of a leafbits | run decomposition; output counter invariant |
| C05 | SaveVisState/LoadVisState byte format over a record list | record codec round-trip, induction over portals |
| C06 | file-system state machine (state file, temporary file) with every crash prefix | case analysis on the prefix; negation for the first save |
| C07, C08 | LeafThread/GetNextPortal/PortalFlow/PortalCompleted as interleaved steps | inductive invariant over executions, decreasing measure |
| C09-C11 | RecursiveLeafFlow/SimpleFlood over an abstract portal graph with a clipping oracle | invariants over the recursion; conservativeness by induction on the sight chain |
| C12 | ClusterFlow bit operations | extensional characterisation of the rows |
| C13 | CalcPHS loop over bytes with the word-size rounding | characterisation and negation for the tail bytes |
| C14, C15 | NumberLeafs_r, WritePTR2ClusterMapping_r, WritePortals_r, LoadPrtFile on trees and texts | structural induction, printer/parser round-trip |
| C16 | checks of LoadPrtFile and the tables vis builds from it | negation witnesses and exact characterisation |
| C17 | entdict_t operations over an association list | refinement to a finite map |
| C18-C21, C65-C67 | parse_token byte by byte, entdict_t::parse, EntData_* | induction on the text |
| C22-C24 | write_lump / WriteBSPFile / LoadBSPFile byte layout, BSPX directory | fold invariant |
| C25-C28 | numeric_cast, conversion of all lumps, box casts | arithmetic (`omega`), lifting to lists |
| C29-C33, C74-C76 | stream codecs, memory streams, BSPX lumps, lit files | parser/printer round-trip |
| C34-C41 | contents as bit vectors, brush contents from texture names, leaf export | bitwise extensionality, case analysis |
| C42-C44, C68-C72 | settings machine with sources, parsers of the option kinds | induction over histories |
| C45-C48 | polylib clip, winding storage, aabb over ordered fields | list induction, refinement to an array |
| C49 | BSP walks over the file's arrays | induction on the tree the arrays describe |
| C50-C53, C78-C82 | portals of a tree, outside and detail filling, leak trail, visible sides | invariants of the floods, refinement to reachability and distance |
| C54, C83, C84 | areas, area portals, path search | same |
| C55-C57, C77 | PruneNodes, ExportClipNodes, ExportDrawNodes, plane table | structural induction on trees, array extension lemmas |
| C58, C60, C85-C88 | tjunc.cc | well-founded recursion, sums over edges (outline and area), dynamic programming optimum |
| C59, C89 | merge.cc | induction; exact geometry of convex polygons |
| C90-C93 | EmitVertices, EmitFaces, FindTexinfo, ExportMapTexinfo as state machines over the lists of the file | invariants of the lists, extension lemmas; fuel bounds for the recursion |
| C94 | brushbsp.cc as a recursion with fuel over lists of brushes | the number of planes of sides that are on no node decreases in both children |
| C95 | brushbsp.cc with exact polygons | each brush is tracked by a solid: polygons on its border, cut by the planes passed; clipping keeps convex hulls; induction over the tree |
| C96 | CreateBrushWindings, from_plane with a parameter for the square root | clipping a base polygon that spans the world keeps the points of the brush in the plane |
| C97 | SelectSplitPlane as passes over the sides with the list of tested planes | invariants of the search state; parts of brushes through the tree |
| C98 | CheckSplitBrush and SplitBrush | case analysis; parts of polygons stay in the world |
| C99 | ClipStackWinding, ClipToSeparators over an ordered field | clipping keeps convex hulls; the distance to a separating plane is a multiple of a turn in the source; a distance along a line is affine |
| C100 | VisTests, the tests of RecursiveLeafFlow and TargetChecks with the planes kept in a frame | invariant: every line through the walk goes through both windings of the frame and is in front of the planes kept; lines form a sight relation of C09 |
| C101 | tests of BasePortalThread | a line in the hull of a winding has a vertex on its side; C09's flood |
| C102 | ChopBrushes as rounds over a list with a position | the number of planes that go through a brush: 2 to that power, summed, decreases in every round |
| C103 | SubtractBrush with exact polygons | a clean cut parts the points of a closed body; induction over sides and rounds |
| C104 | the same | invariant: what is before the position is clear of what follows; a counterexample with three boxes |
| C105 | the same | case analysis of a round, induction |
| C106, C107, C109 | two parallel loops: reservations with an atomic counter, then stores to shared byte arrays; executions are interleavings of the tasks | reservations are disjoint and ordered; a store outside the range of a face does not change it |
| C108 | the same | counterexample; the sum of the reservations is invariant under permutation |
| C110 | selection of lightmaps of a face | sorted list, permutation |
| C111, C112 | style arrays of faces and extended lumps | induction on lists, bounds on the widest list of styles |
| C113, C114 | the same; sizes of the lit file | general negative statements and witnesses |
| C115 | rounds of filling with in-place update | potential: every round that does not end the process fills a hidden sample at the border; invariant on ranges |
| C116, C117 | pipeline of seams, filling, blur, downsampling, conversion to bytes | averages stay between bounds; index bounds |
| C118 | scaling of one sample over the rationals, power function as parameter | order reasoning; witnesses |
| C119 | bilinear interpolation over the rationals | convex combinations; witness |
| C120 | parallel loop of stores at the offsets of the BSP file | disjoint ranges, as for C106; composition with the theorems about the first run |
| C121, C122 | construction of the octree with its arrays, and the bytes of the lump; a separate reader of the lump | induction on the depth: what a call adds to the arrays stands for its box; number of nodes bounded by the depth; byte round trips |
| C123 | the parallel loop in any order, the octree | every index is written once; index and grid point determine each other; composition with C121 |
| C124 | numbers of grid points | floor and ceiling |
| C125 | slots of styles at a grid point | invariant: used slots with different styles before unused ones; witness |
| C126 | scaling over the rationals | order reasoning; witness |
| C127, C128 | reading of pak and wad files with a stream that can fail; a separate description of their layout | induction over the directory; invariant that the stream has not failed; witnesses |
| C129, C130, C131 | registered directories and archives, search, load, over an abstract disk | case analysis of the search; induction over calls; witnesses |
| C132 | the wad writer; the reader of C127 | induction over the textures, composition with C127; witness |
| C133 | the table of styles and the first pass over the entities | the pass as a sequence of requests; invariant of the table: styles are counted up, names occur once; counting of distinct names |
| C134 | an interleaving of threads that call the function without a lock | invariant over all schedules; witnesses |
| C135 | the same pass | a pass over its own result sets what is there; witnesses |
| C136 | `TexFlags/*`: `needs_write`, the members as pairs, their way through JSON text, the sorted file, the loop that reads it | member by member, for objects with distinct names; the pairs of the file are a permutation of the numbered texinfos; composed with the export of texinfos (C93) |
| C137 | same | induction over the pairs of the file |
| C138 | `TexFlags/EntModel`: one function for each member of `surfflags_t`, and `SurfFlagsForEntity` | by cases on the keys present |
| C139 | same, with the conversion of `float` to `uint8_t` on bits | same |
| C140 | `Hulls/Model`: `CalculateBrushBounds`, `AddBrushBevels`, the part of `LoadBrush` that moves sides, over an ordered field | a bevel has all points of the brush behind it, hence their hull; the corner of the box is the farthest in each direction |
| C141 | same | a direction that parts is in the cone of the normals at a farthest point; it is a positive sum of faces and bevels there (`Hulls/Cone`) or can be turned until it is |
| C142 | same | the loop permutes the faces and appends bevels, which are skipped |
| C143 | `World/Model`: the corners of a brush from triples of planes, the loop over them, the threads and their compare-and-exchange as steps | a bounded brush is in the hull of its corners (walk along edges, `World/Vertex`); an invariant of the shared maximum over all runs; a measure for termination |
| C144 | `Place/Model`: `set_planepts`, the three functions that move a face, the keys, over an ordered field | a volume is multiplied by the determinant, so the distance to the plane keeps its sign; dot products are kept by turns |
| C145 | same, with `Hulls/Model` and `BrushBsp/Windings` for the clipping hulls | same; the plane of a scaled bevel has no direction, and nothing is in front of it |
| C146 | `TexDef/Model`: the four `SetTexinfo` functions and the choice of the axes, over an ordered field; sine, cosine and root are parameters with their laws, which real numbers meet | unfold, cases on the six base axes, ring |
| C147 | same, with the three functions that go back; `float` is a rounding with four laws, and the division of `normalizeShift` is on 32-bit words | the matrix is unique because the projected face is not a line; a guess of signs that is accepted and wrong needs both rows shorter than 1/2000 |
| C148 | `MapText/Model`: the reader of map files from the loop over entities down to each token, over `Parser/Model`, and the writer of `-convert`, both on bytes | induction over faces, brushes, pairs and entities; each piece of text that is written leaves the parser at the blank behind it |
| C149 | same; loops have as many rounds as there are bytes left, and running out of rounds would be undefined | each function of the reader leaves a text whose tokens are ended and that is not longer; each round reads a token |
| C150 | `Textures/Model`: the loaders over `Stream/Model`, with 32-bit arithmetic and undefined reads | reading a header of known length; the bytes at an offset; the palette as a list of colours |
| C151 | same: the cache entries and `SampleTexture`, over an ordered field with floor | the index for both signs is the floor modulo the size; what loaders return fills the image |
| C152 | same: `LightFace_SampleMipTex` | the place is below the last row and column |
| C153 | same: average, saturation and mixing | sums of bytes; quotients of naturals as floors |
| C154 | `Illum/Model`: the light of an entity at a sample, and the two ways to skip it, over the reals | light fades, and the sphere is nearer than the sample |
| C155 | same: `GetLightValue`, `CheckEntityFields` | monotonicity of each formula |
| C156 | same: spotlights with cosines | cosine is monotone on 0 to π |
| C157 | same: `Dirt_GetScaleFactor` with real powers | ranges of each step |
| C158, C160 | `Illum/Maps`: the light maps of a face as a list, colours in any commutative monoid | invariant: no two maps for a style, unsaved maps are blank; induction over the rays |
| C159 | `Illum/Surface`: points of surfaces, gates and culling over the reals | the angle factor is between 0 and 1; inverse squares decrease; sums over the points |
| C161 | `Extents/Model`: the three constructors of `faceextents_t` over an ordered field with floor, matrices as sixteen values, the inverse by cofactors | the adjugate times the matrix is the determinant (`ring`); affine values on a convex face |
| C162 | same | six cases of the snapped normal; determinants |
| C163 | same: `CalcPoints` up to the correction of the point | arithmetic with sums |
| C164 | `Atlas/Model`: sorting, packing with fuel, images as lists of pixels with undefined accesses | invariant of the current tile; writes to different indices commute |
| C165 | `Decompile/Model`: the walk over nodes and clip nodes with fuel, planes on the way | induction on the fuel, the region of the way |
| C166 | same: `remove_if` over a list that is being compacted, clipping as in `Geom` | a point on a side of the brush survives the clipping (hulls of convex polygons); a plane that holds on the brush and touches the inside of a side is its plane |
| C167 | same: recursion with fuel, the brushes that are dropped kept apart | induction on the fuel |
| C168 | same: points, axes, the loop over the sides | cross products (`ring`), invariant of the loop |
| C169 | same: a fold over the keys | induction over the keys |
| C170 | `Surfaces/Model`: the loop over two lists with fuel, `SplitFace` with its test of the ball | the face in front begins later by a fixed length; an invariant of both lists; a polygon whose vertices turn one way in any order of three keeps this when clipped with a tolerance (points inserted, points dropped), and keeps its points off the tolerance |
| C171 | same: the leafs reached by the parts of a face | induction over the tree with the same facts on clipping |
| C172 | same: lists of nodes as a map from turns to faces | induction over the tree, leafs below one child put nothing on nodes below the other |
| C173 | `Phong/Model`: the sets of faces built by the loops over vertices and the faces at them; cosine and length are parameters, set to those of the reals | membership in the sets by induction over the loops; the cosine falls between 0 and 180 degrees |
| C174 | same: the loop over models that writes the flags of texinfos | induction over the models |
| C175 | same: the map of vertices to sums | the sum for a vertex in closed form; the length of a sum is at most the sum of the weights; sets of faces as permutations |
| C176 | same: the faces listed for one edge | induction over the faces with the order of their numbers |
| C177 | same: a machine whose steps record one normal of some face | the recorded and the remaining normals of a face together do not change |
| C178 | `Samples/Model`: edge planes, barycentric coordinates and the loop over the fan of a polygon, over an ordered field with a length | barycentric coordinates as distances from edges; along the fan, the side of the diagonal that the point is on changes once |
| C179 | same: the search for a face, snapping, the moves out of solids; the face across an edge, the test for solids and the distance in luxels are parameters | induction over the depth; edge planes of a well-formed face in closed form |
| C180 | same: the loop over edges | the square of the distance along an edge; induction over the edges |
| C181 | same: the loop over edges that compares distances past their ends | induction over the edges; a square for the negation |
| C182 | same: `pointInAnySolid` with models as sets of places | unfolding; a moved model for the negation |
| C183 | `Suns/Model`: `SetupSun` with a sequence of draws and `atan2` as the argument of a complex number; the loop with fuel | the first draw is always taken; polar coordinates of a unit vector |
| C184 | same: the loop over entities, worldspawn's suns, `setupLights`; keys through `Illum.checkFields` | induction over the entities |
| C185 | same: the two loops of `SetupSkyDome` with the angles as they are added up | suns half a turn apart cancel; permutation of the two hemispheres |
| C186 | same: `copies`, three draws each | induction over the copies |
| C187 | same: `findTarget` | first match in a list |
| C188 | same: the six places tried in order | case analysis |
| C189, C190 | `PortalSides/Model`: `FindPortalSide` with its early exits and the assertion | the search as one fold over the sides looked at; first match and maximum |
| C191 | same: `MarkVisibleSides` with `sidefound` as a partial map | invariant: what is remembered is what would be found |
| C192 | `SurfLights/Model`: the cutting of a polygon with its fixed arrays | the boundary with the crossings put in; twice the area as a sum along the boundary minus a potential that vanishes on the cut |
| C193 | same: leafs, faces, templates, the list of faces visited | invariant over the visited faces |
| C194 | `Radiosity/Dice`: axis, plane, recursion with fuel | induction on fuel with the clipping lemmas; a measure for the end |
| C195 | `Radiosity/Model`: sources, overrides, points | fold over the sources; independent specification of colour and brightness |
| C196 | same | algebra; witnesses |
| C197 | same: light maps, pass over a face | fold over light maps with distinct styles; witness for the offset |
| C198 | `Radiosity/Race`: small steps of load and store, any schedule | invariant over all schedules; witness |
| C199 | `MapUtil/Model`: parser and writer of common/mapfile.cc | printer and parser by induction; witnesses by evaluation |
| C200 | same: conversions, on top of `TexDef` | inversion of the conversion; the theorems of `TexDef`; algebra for the constant |
| C201 | same: loop over the arguments | refinement of a specification by recursion |
| C202 | `BspUtil/Check`: CheckBSPFile as a list of warnings | membership in each loop; witnesses by evaluation |
| C203 | same: Node_Height, the breadth-first walk, CheckBSPFacesPlanar, with undefined behaviour | trees as an inductive relation; induction on the levels |
| C204 | `BspUtil/Scale`: planes through scaled points, the list of planes, nodes, faces, brush sides | algebra for the image of a plane; invariant of the list (pairs); induction on the walk |
| C205 | same: edges, bounds, texture vectors, light grid, keys | reversal of disjoint parts by induction; order arguments; algebra |
| C206 | `BspUtil/Replace`: LoadMapOrEntFile with the parser's model; the pairing of brushes and entities, the removal of keys | places of targets as a list without repeats; induction on the map's entities; suffixes of the text |
| C207 | `BspUtil/Commands`: the loop over the words, the path, the form of the map and the lumps; files written as events | induction on the words; invariant: the map is the loaded one, or fixed in a format |
| C208 | `Miptex/Model`: the list of names, the search in it, the lower frames, the frames of the wads | invariant of the list: unique and closed under lower frames; induction on the requests |
| C209 | `Miptex/Chain`: the list with flags, value, animation and next frame; the loop over the chain with fuel | invariant of the list, induction along the chain; a run that needs any fuel for an endless chain |
| C210 | `Archive/TexPaths`: the set of wad paths, the search below them, the list of the world, the default wad | induction on the wad paths and the parts; order of paths for the set; concrete disks for the negations |
| C211 | `Tree/FindFace`: the walk with the tolerance, the faces of a node, the planes of the edges | induction on the tree; Cauchy-Schwarz for points near a face; convexity for points of a face |
| C212 | `Shadow`: the geometry a face is put into, the data of a triangle, both filters, a ray as calls of the filters in any order | where a face is put and what a filter does, in the words of the specification; induction on the order of the calls |
| C213 | `Shadow`: the notes on a ray, its colour and its style | induction on the order of the calls |
| C214 | `Mottle`: reduction of the cell numbers, table, interpolation on bytes | interpolation is Lipschitz on each axis; each cut off fraction loses less than one; the table is injective |
| C215 | `Dirt`: the tangents of a normal, the table of directions, the rays and their average | the tangents are at most 30 degrees from perpendicular, so lengths are within 1/2 and 3/2 (squared); sums over the rays against a tracer given by the solid points |
| C216 | `SunRay`: a sample, a face and a point of the light grid; what rays meet is a parameter | membership both ways; the longest of six colours is that of the axis nearest the direction |
| C217 | `Passes`: the steps made on a face by the three passes | counting, order by place, and the fold of the steps in closed form |
| C218 | `FaceKeys`: the settings of a face from three levels, and the minimum light | cases on the settings; the order of precedence as a list in the specification |
| C219 | `FaceKeys`: the scale of the map, the LMSHIFT lump, the lists of models | induction over faces and models |
| C220 | `OnlyEnts`: the passes of a full compile over the entities, and the one of `-onlyents` | induction over the entities, beside a numbering in the specification |
| C221 | `OnlyEnts`: the keys set by both, and what is written | the two passes side by side |
| C222 | `BrushList`: the models, brushes, contents and planes that are listed | a point of the brush attains each side of its box; induction over the entities |
| C223 | `Ambient`: the sounds of textures, the loops over leafs and faces, the parallel loop as any order of rounds | invariant of the distances over the loops; leafs agree but for levels |
| C224 | `LeafBrush`: the recursion over trees, the numbers of brushes, sides with the real models of planes (`Tree`) and texinfos (`Emit`) | invariant over the recursion; what was written is a prefix of what is written later |
| C225 | `Target`: the flags in order, the target version as a state, side effects as `set_value` with sources | case analysis over flags; each option by a lemma on defaults |
| C226 | `VisCull`: the map of decompressed rows over the verified decompressor of C01, the merge over leafs, the tests | invariant of the map of rows; the merge as a disjunction of bits |
| C227 | `TexValid`: rounding, the test of the projection with its normalization, the repair by the model of the editor's texture definition | determinant of the axes and the normal; the largest component of a unit normal bounds the cosine |
| C228 | `Region`: walls as lists of planes, the filter of brushes over the boxes of C48, the loop that erases entities with its stale reference | sets of points of half-spaces; induction over the list of entities |
| C229 | `LoadEnt`: the loop over the entities with the count of area portals | induction over the entities |
| C230 | `LoadEnt.rotBounds` over the boxes of C48 | largest coordinate; a turn by 3-4-5 |
| C231 | `TreeBounds.bounds`: the recursion over the tree with the bounds the parent had before, over the boxes of C48 | induction over the tree |
| C232 | `DivBounds.divide`: the cuts of the four edges along each axis, folded with the clamps | the extreme corner for a point; the extreme cut is attained |
| C233 | `Flood.findExits`: the recursion with its visited leafs, with fuel; `Flood.bothSidesLeak` over `findShortestPath` | an invariant of the loop over the portals inside an induction on the leafs left |
| C234 | `Projector.matrixFor`, `Projector.project`: the matrices with their 16 numbers, products and the projection of a point, over the reals; `Projector.projAngles`, `Projector.spotVec`: the keys | the product of matrices is the composition; the rotations give the three directions of the frame; tangents of the angles of view |
| C235 | `SunRay.pointGlow`, `SunRay.pointSurfaces`: the six directions of a point over `Illum.surfaceLighting` (C159), and the loops over surfaces, points and styles | the colours of the six directions are multiples of one colour, so the longest is the largest multiple |
| C236 | `Miptex.loadTextureData`: what qbsp stores per texture, over `Textures.loadMip` (C150) and the texture lump of C30; finding files is a parameter | bytes of the header; cases of the search; induction on the list |
| C237 | `VisCull.estimate`, `VisCull.surfaceBox`, `VisCull.raysSkip`: the rays and boxes of `-visapprox rays`; where rays end is a parameter | the fold over rays keeps the smallest box; the 32 heights are odd multiples of 1/31, so the slope of a ray is at least that |
| C238 | `SurfLights.radFile`: lines and tokens (C20) of `.rad` files, the lights that they make; the files that are read | the next token of a line is its next word; induction on the lines |
| C239 | `NormalsLump.writeNormals`: the set of vectors, their numbers, the bytes; read with `BspFile.loadFaceNormals` (C75) | the set is sorted, so that the number of a vector is its place; C75 for the bytes |
| C240 | `Styles.secondPass`, `Styles.arghrad`: the entities that become lights and the renamed keys | the keys after one renaming, five times; induction on the entities |
| C241 | `WalJson.jsonMeta`, `WalJson.textureMeta`: the values that a JSON object gives, the files that are read | cases of JSON values; induction on arrays |
| C242 | `NodePortal.fromPlane`, `NodePortal.baseWinding`, `NodePortal.nodePortal`: the square of a plane and the loops that clip it | induction over the list of planes that clip, with the lemmas of C45 for one clip |
| C243 | `DebugExpand.parse`, `DebugExpand.expandedMap`: the numbers of the option, the moved planes and their three points | algebra of the cross product; cases of the signs of the normal; induction on brushes and faces |
| C244 | `TexRemap.loadFile`, `TexRemap.loadFiles`, `TexRemap.remap`: the loop over the words of a file with the model of the parser, the table, its use for a face | the parser on one word, on the end of a line and on lines without words; induction on lines and files |
| C245 | `Alias.loadFile`, `Alias.loadFiles`, `Alias.replaceAlias`: the loop over the aliases of a file with the parser of C01 ff. and the reader of entities, the table, its use for an entity | the parser on gaps with comments and on words with and without quotes; induction on gaps, pairs, aliases and files |
| C61-C64, C73 | CRC table, string helpers | table check lifted by linearity; list induction |

## Where the code does not do what the property says

The negation is proved in each case; the theorem is named. What does hold is in the `_partial` theorem of the claim.

| id | finding | theorem |
|----|---------|---------|
| C06 | a crash during the first save leaves a torn temporary file, which the next start resumes from | VisState.crash_unsafe_first_save |
| C13 | the last `leafbytes % sizeof(long)` bytes of a PHS row are never or-ed | Vis.Rows.phs_misses_last_bytes |
| C14 | a detail group with only solid leafs takes a cluster number without a leaf | Prt.empty_cluster |
| C15 | then the mapping can be lost in the file, or vis stops with an error | Prt.mapping_lost, Prt.empty_cluster_is_an_error |
| C16 | leaf number equal to the count is accepted; a truncated file is read for ever; a short header leaves variables uninitialised; the PRT1-AM table is too small | Prt.leaf_beyond_table, Prt.truncated_hangs, Prt.short_header_undefined, Prt.am_map_outside |
| C17 | renaming a key onto a present one leaves a duplicate | EntData.rename_leaves_duplicate |
| C18 | an empty entity string is undefined behaviour; keys ending in a backslash do not come back | EntData.empty_entity_string_undefined, EntData.key_ending_in_backslash_breaks |
| C19 | a key that ends in white space is undefined behaviour | EntData.trailing_space_undefined |
| C23 | a Quake file without models is loaded as Hexen II | BspFile.quake_loaded_as_hexen2 |
| C24 | 32-bit overflow of offset plus length; a negative lump end makes the loader read before the file | BspFile.bspx_wraps, BspFile.bspx_before_file |
| C26 | a NaN box end converted to 16 bits is undefined behaviour | BspFile.box_nan_undefined |
| C28 | the upper corner of Quake II leaf boxes is rounded down | BspFile.q2_leaf_box_shrinks |
| C30 | a texture shorter than its header or with an unterminated name is undefined behaviour | BspFile.tex_short_ub, BspFile.tex_name_ub |
| C32 | one byte too many is loaded from a lit file | BspFile.lit_not_exact |
| C33 | the face count of a BSPX brush is cut to 16 bits | BspFile.brush_faces_lost |
| C39 | Quake II: the last comparison of portal_can_see_through is inverted | Contents.q2_opaque_water_does_not_block, Contents.q2_see_through_volumes_block |
| C43 | NaN passes the range check; integers from 2^31 on are truncated before it | Settings.nan_escapes_the_range, Settings.big_number_not_clamped |
| C44 | `_noname` as a map key does not invert | Settings.underscore_no_is_not_inverted |
| C47 | points left in the vector after clear come back | Geom.Storage.storage_stale |
| C48 | the empty box on the right is not neutral for union | Geom.Box.union_empty_right |
| C51 | only one leaf on the rim is checked, a leak elsewhere is missed | Flood.leak_missed |
| C54 | without a fill there are no areas | Flood.areas_none |
| C57 | the head node of a model that is a single leaf refers to no node of it | Tree.draw_export_leaf_head |
| C58 | only the first face of the list is ever split | Faces.limit_not_applied |
| C61 | the CRC of an empty entity lump is taken over a negative count | Cmdlib.crcBlock_negative |
| C62 | string_iequals and the hash differ on strings with NUL bytes | Cmdlib.container_equal_hash_nul |
| C64 | natural ordering is not transitive with leading zeros | Cmdlib.natural_not_transitive |
| C65 | the parser reads past the end of a file that is not terminated | Parser.file_read_past_end |
| C67 | newlines inside quotes are not counted | Parser.newlines_in_quotes_not_counted |
| C71 | an enumerated option takes any integer | Settings.enum_takes_undeclared_value |
| C72 | a lone `-` and an empty value are undefined behaviour | Settings.stray_hyphen_undefined, Settings.empty_key_undefined |
| C74 | reads and writes that straddle the end of a memory stream go outside | Stream.memory_stream_overread, Stream.memory_stream_overwrite |
| C77 | the fast distance of an odd-numbered axial plane is wrong | Tree.fast_distance_odd_wrong |
| C82 | a leak trail with a negative spacing does not end | Flood.leak_endless |
| C87 | retopology with a cut behind its seed loses a triangle | Faces.retopology_hole |
| C91 | the same point on two faces can be given two vertices | Emit.shared_point_false |
| C96 | a closed brush with corners outside of the world makes CreateBrushWindings read an empty optional | BrushBsp.Ex2.windings_undefined |
| C97 | a middle plane of a detail brush does not mark its node as a separator of detail | BrushBsp.Ex.mid_unmarked |
| C97 | a leaf is made although a usable plane cuts the volume, when about 100 brushes reach less than a unit through it | BrushBsp.Ex.leaf_not_done |
| C97 | a plane that splits a hint side is chosen for a side that is no hint, unless the hint brush is the last | BrushBsp.Ex.hint_split |
| C98 | a volume that touches the end of the world is said to be cut, and cutting it makes nothing | BrushBsp.Ex.check_not_split |
| C100, C101 | a leaf seen through a slit narrower than 0.1 is lost, by fast and by full vis | Vis.vis_loses_leaf, Vis.keeps_false |
| C103 | a brush that reaches 0.05 out of another one is swallowed, the slice is in no brush afterwards | BrushBsp.Ex.chop_loses_points |
| C104 | when the current brush is replaced by its pieces, the position is set behind them, so they are never compared with later brushes and overlap them | BrushBsp.Ex.chopped_brushes_overlap |
| C108 | the offsets of lightmaps depend on the order in which threads take the faces | Light.Ex.layout_varies |
| C109 | `lightofs * 3` overflows for offsets above INT_MAX / 3, before the size is checked | Light.Ex.offset_overflow |
| C110 | styles above 255 are dropped although LMSTYLE16 could hold them | Light.Ex.style_256_dropped |
| C111 | style 255 is taken for the end of the list; faces without lightmap keep old offsets when extended lumps are written | Light.Ex.style_255_lost, Light.Ex.stale_offset |
| C113 | the offset of the face is copied before it is set, so it is always -1 | Light.sup_face_unlit |
| C113 | lightmaps in two sizes are written to the same place; with a coarser own size, lightmaps of other faces are overwritten or an assertion fails | Light.Ex.vanilla_lost, Light.Ex.neighbour_destroyed, Light.Ex.coarse_fails |
| C114 | the number of samples is taken from the lightmap data of the old file; directions are read from an empty array | Light.Ex.lit2_empty, Light.Ex.lit2_no_directions |
| C118 | `_lightcolorscale` above 1 and a negative `_maxlight` give negative light, whose conversion to a byte is undefined | Light.ImgEx.colorscale_undefined, Light.ImgEx.maxlight_undefined |
| C119 | positions are truncated towards zero, so samples before the first one are extrapolated | Light.ImgEx.decoupled_undefined |
| C119 | the greyscale data of the standard lightmap is never written | Light.decoupled_black |
| C120 | with -litonly, sizes are not compared with those of the BSP file | Light.ImgEx.litonly_undefined |
| C123 | `-lightgrid_dist` with a zero divides by zero, and 2^31 or more grid points overflow `int` | LightGrid.light_grid_zero_distance, LightGrid.light_grid_too_large |
| C124 | the number of grid points is the rounded-up quotient instead of one more, so nothing lies at or beyond the upper limit of the map | LightGrid.grid_never_reaches_top |
| C125 | a fifth style replaces the dimmest of four styles even if it is dimmer itself | LightGrid.brighter_style_lost |
| C126 | a negative `_maxlight` divides by zero at points without light, and the result is converted to a byte | LightGrid.scale_negative_limit |
| C128 | a pak or wad with a header or directory cut short uses uninitialised memory; an entry name that fills its field is read past its end; a cut-off file leaves the stream failed, so that all later files load as zeros | Archive.truncated_pak_ub, Archive.long_name_ub, Archive.cut_file_spoils_others |
| C129 | `fs::where(p)` searches archives before loose files, contrary to include/common/fs.hh:71-80; a subdirectory is answered for a file and then cannot be loaded | Archive.default_order_differs, Archive.directory_hides_file |
| C131 | loading a file through an archive path registers the archive for good | Archive.direct_load_interferes |
| C132 | `bsputil --extract-textures` computes lump sizes from width and height, ignoring the palette of Half-Life textures: they are cut off, and all later textures are wrong | Archive.palettes_shift_textures |
| C134 | `LightStyleForTargetname` is called from parallel threads without a lock: surface lights with a `surflight_targetname` that no entity has are a data race, and their styles depend on the schedule | Styles.surface_lights_race, Styles.surface_styles_depend_on_schedule |
| C135 | `lightmap_scale`: the reference to its value is used after `remove` erased it | Styles.lightmap_scale_undefined |
| C135 | styles are given out for targetnames before escape sequences are read, so lights whose names become the same have different styles, until the BSP file is lit again | Styles.escapes_change_on_relight |
| C136 | `no_phong` is read into `no_expand` | light/light.cc:996-998 | `TexFlags.no_phong_lost` |
| C136 | An infinite or NaN number (`"_minlight" "inf"`) is written as `null`, and light stops with an exception | qbsp/writebsp.cc:430, light/light.cc:1025 | `TexFlags.infinite_stops_light` |
| C136 | A `_surflight_targetname` that is not UTF-8 makes qbsp stop with an exception before it writes the BSP file, leaving a `.texinfo.json` that cannot be read | qbsp/writebsp.cc:408-410, 457, 547 | `TexFlags.odd_name_stops_qbsp` |
| C137 | When the file does not match, the flags are set to zero bytes, which sets `lightcolorscale` to 0 instead of 1 and so takes the colour out of all light | light/light.cc:963-967 | `TexFlags.mismatch_not_ignored` |
| C139 | A component of `_surflight_color` above 255 or below 0 is converted to `uint8_t` without a check, which is undefined | qbsp/map.cc:694-705 | `TexFlags.surflight_color_undefined` |
| C138 | An entity with `"_phong" "0"` still gets phong shading if worldspawn has a `_phong_angle` | qbsp/map.cc:747-766 | `TexFlags.phong_angle` |
| C140 | Bevels along the axes take the texinfo of the first face, so one face whose texture forbids growing also stops the bevels from growing: the player gets into the brush | qbsp/map.cc:2064-2066, qbsp/brush.cc:608-611 | `Hulls.Ex.marked_face_spreads` |
| C141 | A face along an axis that is redundant (no polygon) takes the place of the bevel, so the hull is larger than the brush needs: an invisible wall | qbsp/map.cc:2052-2088 | `Hulls.Ex.redundant_face_enlarges` |
| C143 | For a brush with fewer than two faces `faces.size() - 2` wraps round and the counters overflow | qbsp/map.cc:3726-3728 | `World.one_face_overflows` |
| C143 | The size of a map without brushes is negative infinity | qbsp/map.cc:3765-3798 | `World.no_brush_no_extent` |
| C144 | A scale with a negative product (a mirrored external map) leaves the order of the three points, so the faces look inwards and the brushes are empty | qbsp/map.cc:2790-2801, 2961-2978 | `Place.mirrored_inside_out` |
| C145 | With -scale, planes are made again from the points of the map, which the offset of an entity with an origin does not change: the offset is lost, while that of the texture is kept | qbsp/map.cc:3290-3308, 2796-2801 | `Place.scale_forgets_origin` |
| C145 | With -scale, bevels (whose three points are 0) get a plane without direction, and a brush with two or more bevels is dropped from every clipping hull | qbsp/map.cc:3303-3311, 2066-2078; qbsp/brush.cc:604-630 | `Place.scaled_bevels_lose_brush` |
| C147 | `normalizeShift` divides a signed shift by an unsigned width, so a negative shift has about 2^32 subtracted: what is left of it in a `float` is a multiple of 128, and the shift is lost for textures of 128 or less | qbsp/map.cc:1006-1010 | `TexDef.negative_shift_lost` |
| C147 | A texture of width or height 0 is divided by | qbsp/map.cc:1006-1007 | `TexDef.empty_texture_ub` |
| C148 | A texture name with spaces is read if it stands in quotes, but `-convert` writes it without them, and the result cannot be read | qbsp/map.cc:3532, 3549, 3587 | `MapText.quoted_name_lost` |
| C148 | A region brush in brush primitives leaves its last brace unread, which ends the entity | qbsp/map.cc:2696 | `MapText.region_primitive_breaks` |
| C148 | `_omitbrushes` skips to the first closing brace, which in brush primitives is not the end of the brush; and it has no effect if the key comes behind the first brush | qbsp/map.cc:2752-2766 | `MapText.omit_primitive_breaks`, `MapText.omit_late` |
| C148 | Brush primitives without surface info are written with three zeros, which in Quake 2 replace the flags of the texture | qbsp/map.cc:3593 | `MapText.missing_info_becomes_zero` |
| C149 | The first character of an empty key is asked for, when a key is empty or white space | qbsp/map.cc:848-853 | `MapText.blank_key_ub`, `MapText.empty_key_ub` |
| C150 | A texture whose header is truncated is read beyond its end; the check comes after it | common/imglib.cc:179-184, 134-136 | `Textures.short_mip_ub`, `Textures.short_wal_ub` |
| C150 | The check that pixels are within the file is made modulo 2^32 | common/imglib.cc:207 | `Textures.mip_wraps_ub` |
| C150 | Half-Life has an empty default palette, so a texture without palette is looked up in an empty vector | common/bspfile.cc:770-774, common/imglib.cc:257 | `Textures.no_palette_ub` |
| C150 | Half-Life: the size of the fourth image may become negative, and the palette is read from before the file | common/imglib.cc:221-234 | `Textures.palette_before_ub` |
| C150 | Quake II: pixels are read wherever the header says; the name of the next frame is read on if it has no zero | common/imglib.cc:149, 153-156 | `Textures.wal_beyond_ub`, `Textures.wal_name_ub` |
| C150 | A colormap with fewer than 768 bytes is read from before its start | common/imglib.cc:74-75 | `Textures.short_pcx_ub` |
| C151 | A texture whose pixels are not in the BSP file and were not found elsewhere keeps its size in the cache; a ray through such a fence reads from an empty vector | common/imglib.cc:632-635, light/trace.cc:60-69 | `Textures.stripped_ub` |
| C151 | Sizes whose product is a multiple of 2^32, and a height of 0 | common/imglib.cc:154, light/trace.cc:67 | `Textures.wrapped_ub`, `Textures.no_height_ub` |
| C152 | Pixels of a projected texture are found with the size of the original, so that a smaller replacement image is read beyond its end | light/ltface.cc:936-950 | `Textures.projected_small_ub` |
| C153 | The average of no pixels is 0/0, converted to bytes: each Quake II texture that is not found, and each that is transparent | common/imglib.cc:317, 565 | `Textures.missing_ub`, `Textures.transparent_ub` |
| C154 | A light brighter than its `light` because its colour is above 255 or its projected texture doubles it is skipped although it would be seen | light/ltface.cc:1129-1159 | `Illum.bright_color_lost`, `Illum.projected_lost` |
| C154 | Samples are placed a unit in front of the face, hence outside its bounding sphere; a light may reach them and be skipped | light/ltface.cc:1129-1159 | `Illum.outside_sphere_lost` |
| C155 | `-dist 0` gives an infinite light for `delay 1` | light/ltface.cc:823-834 | `Illum.no_scale_infinite` |
| C156 | A cone of more than 360 degrees, that is `_cone` above 180, is dark where it should be brightest | light/entities.cc:254-287 | `Illum.wide_cone_dark` |
| C157 | A negative dirt scale brightens; `_dirtscale 0` on a light takes the scale of the map | light/ltface.cc:1069-1094 | `Illum.negative_scale_brightens`, `Illum.zero_scale_ignored` |
| C158 | `_switchshadstyle 65535` leaves its light in the light map of the next style | light/ltface.cc:763-800 | `Illum.reserved_style_leaks` |
| C159 | A surface light is skipped for a face when the far side of the face gets no more than the gate, whatever the near side gets | light/ltface.cc:1982-1990 | `Illum.near_sample_lost` |
| C159 | Bounced light is skipped by the scale of surface lights: `-surflightscale 0` switches bounces off | light/ltface.cc:1985-1990 | `Illum.surface_scale_stops_bounces` |
| C159 | Surface lights with negative light have no effect | include/common/qvec.hh:509-523, light/ltface.cc:2056 | `Illum.negative_surface_ignored` |
| C162 | `_world_units_per_luxel 0` (the setting allows it) divides by 0 and converts a value that is not a number to `int` | common/bsputils.cc:978-1008 | `Extents.zero_units_undefined` |
| C162 | Sizes of 65536 luxels and more are cut to 16 bits in `DECOUPLED_LM` | light/write.cc:824-829 | `Extents.stored_size_wraps` |
| C162 | For a face with a stored width or height of 0 the extents are never set, and bspinfo and the preview sort by them | common/bsputils.cc:931-933, common/bspinfo.cc:312-322 | `Extents.unlit_extents_undefined` |
| C164 | A lightmap with 512 rows or more makes bspinfo allocate tiles for ever | common/bspinfo.cc:325-351 | `Atlas.tall_face_hangs` |
| C164 | A lightmap with 512 columns or more covers other lightmaps | common/bspinfo.cc:332-350 | `Atlas.wide_face_overlaps` |
| C164 | No image is made for style 254 | common/bspinfo.cc:390 | `Atlas.style_254_lost` |
| C165 | Decompiling a hull whose head is a leaf reads before the first clip node | common/decompile.cc:1194 | `Decompile.leaf_hull_undefined` |
| C166 | Two equal planes next to each other are both left out, as the test still sees the one removed before: the brush is open. It happens when the first node of a tree cuts along the bottom of the bounds | common/decompile.cc:238-259 | `Decompile.coincident_planes_lost`, `Decompile.brush_left_open` |
| C167 | A brush with a side for which no cut is found is dropped | common/decompile.cc:760-762 | `Decompile.split_lost`, `Decompile.dropped_why` |
| C168 | The shift of a scaled texture is moved by the offset without the scale | common/decompile.cc:175-176 | `Decompile.texture_slides` |
| C169 | The brushes of an entity are moved only if its origin comes after its model | common/decompile.cc:1160 | `Decompile.origin_before_model` |
| C169 | An entity without a class name reads behind the end of the keys | common/decompile.cc:1125 | `Decompile.missing_classname_undefined` |
| - | A counter that is not used is changed by all tasks at once, which is a data race; the number of a model is not tested; not modelled | common/decompile.cc:1183, 1247-1251 | - |
| C170 | `-subdivide` from 1 to 16 makes qbsp cut a longer face for ever | qbsp/faces.cc:428, qbsp/qbsp.cc:463 | `Surfaces.subdivide_stuck` |
| C170 | A face of `255 << lmshift` units may take 257 luxels, as the extent is rounded to units and not to luxels | qbsp/faces.cc:378, 410 | example in `Surfaces/SubdivProps` |
| C173 | Whether a joint is concave is judged from one of the two faces, so that one can be smoothed with the other but not the other way round | light/phong.cc:529 | `Phong.smoothed_one_way` |
| C173 | Phong angles from 180 to 360 degrees smooth less the larger they are | qbsp/map.cc:765, light/phong.cc:533 | `Phong.wide_angle` |
| C174 | The phong angle of a model is written to texinfos, which faces of other models share | light/phong.cc:442-446 | `Phong.angle_of_another_model` |
| C174 | `_phong_angle` in worldspawn replaces that of detail brushes and groups | light/light.cc:685, light/phong.cc:437-446 | `Phong.own_angle_lost` |
| C178 | Interpolated normals are not normalized, so that light is weaker between vertices | common/mathlib.cc:399, light/ltface.cc:366 | `Samples.interpolated_normal_not_unit` |
| C181 | Past the second end of an edge, the length of the edge is added to the distance past it | light/ltface.cc:216-217 | `Samples.crossed_edge_not_least_past` |
| C182 | A model with an origin is tested for a sample without subtracting the origin | light/ltface.cc:303 | `Samples.in_any_solid_moved_model` |
| C183 | The loop that keeps the samples of a sun within its penumbra compares radians with degrees and never draws again: the samples fill a square | light/entities.cc:449 | `Suns.sun_outside_penumbra` |
| C184 | The `mangle` of a sun entity is used as a direction, not as angles | light/entities.cc:477 | `Suns.sun_mangle_misread` |
| C184 | A sun entity with deviance and delay 1, 2, 3 or 5 loses light: it is divided by `_samples` though it is not jittered | light/entities.cc:335-338 and 659 | `Suns.sun_light_divided` |
| C186 | Jittered lights fill a cube, not the documented sphere | light/entities.cc:672-674 | `Suns.jitter_outside_sphere` |
| C186 | A dome entity with deviance is copied, and every copy becomes a full dome | light/entities.cc:601-617 and 666 | `Suns.dome_multiplied` |
| C190 | Two brushes that each make a face of a portal compete for one best angle: the face of the less close one is left out | qbsp/portals.cc:1034 and 1094-1102 | `PortalSides.side_missed` |
| C192 | A face with more than 64 corners, or 64 and wide enough to be cut, overruns arrays on the stack; the check for it in the loop can never be reached | light/entities.cc:1358-1366 and 1436 | `SurfLights.full_face_overflows`, `SurfLights.corner_check_unused` |
| C196 | Surfaces whose colour times value is at most 1 give off too little light (multiplied by its brightness once more); with a negative value they shine | light/surflight.cc:94-101, 203-205 | `Radiosity.dim_surface_too_dark`, `Radiosity.negative_surface_shines` |
| C197 | Light bounced from a brush model comes from its place in the file, not its `origin` | light/bounce.cc:146-215 (compare light/surflight.cc:110-112) | `Radiosity.bounce_forgets_offset` |
| C198 | The flag for bounced light is loaded and stored in separate steps; a face without light can overwrite it and all indirect light is skipped | light/bounce.cc:228-230, light/light.cc:800-806 | `Radiosity.pass_lost` |
| C199 | The comment of QuArK's definitions is written without a blank before it and lost on reading | common/mapfile.cc:507 | `MapUtil.quark_lost` |
| C199 | Surface info of fewer than three numbers leaves the rest unset; writing it is undefined | common/mapfile.cc:187-208, 482-487 | `MapUtil.short_info_ub` |
| C199 | Quoted texture names are written without quotes | common/mapfile.cc:515-522 | `MapUtil.quoted_name_lost` |
| C199 | maputil refuses brush primitives, contents with the highest bit, and QuArK's comment behind Valve's definitions, all of which qbsp reads | common/mapfile.cc:166-208, 413-423 | `MapUtil.primitives_refused`, `MapUtil.qbsp_reads_more` |
| C200 | `--convert valve` never sets the angle, and writes it | common/mapfile.cc:851-878 | `MapUtil.valve_angle_unset` |
| C200 | `--convert quake` computes the shift with a plane that was never set: textures on walls are moved | common/mapfile.cc:725-731 | `MapUtil.wall_moved` |
| C201 | `--strip_extended_info` as the last argument is ignored | maputil/maputil.cc:943 | `MapUtil.last_strip_ignored` |
| C202 | Faces without light and leafs without visibility (offset -1) are reported as out of range | bsputil/bsputil.cc:273-276, 332-336 | `BspUtil.unlit_reported` |
| C202 | An edge that refers to the vertex just past the end is not reported; planes of nodes and clip nodes are not checked | bsputil/bsputil.cc:299 | `BspUtil.vertex_missed` |
| C203 | The check goes on to use wrong children, planes and edges that it has just reported | bsputil/bsputil.cc:154-192, 422-423 | `BspUtil.check_crashes`, `BspUtil.planar_crashes` |
| C204 | Scaling by exactly two negative factors reverses all planes (`if (flip_faces)` instead of `& 1`) | bsputil/bsputil.cc:1014 | `BspUtil.Scale.half_turn_reversed`, `BspUtil.Scale.scale_two_mirrors` |
| C204 | Clip nodes keep the numbers of planes that have got new numbers | bsputil/bsputil.cc:1076-1083 | `BspUtil.Scale.scale_clip_wrong` |
| C205 | In a mirror image the edges of a face are reversed in order but not turned round | bsputil/bsputil.cc:992-997 | `BspUtil.Scale.scale_edges_torn` |
| C205 | The light grid of a mirror image has negative distances and its first point at the wrong end | bsputil/bsputil.cc:1157-1173 | `BspUtil.Scale.grid_mirrored` |
| C206 | Brushes are given to entities by order, not by the model that they name | bsputil/bsputil.cc:1208-1234 | `BspUtil.Replace.replace_order_wrong` |
| C206 | Entities for which the map has no brushes are written without brushes, silently | bsputil/bsputil.cc:1209-1234 | `BspUtil.Replace.replace_left_empty` |
| C206 | An empty entity file or map is undefined behaviour | bsputil/bsputil.cc:1206 | `BspUtil.Replace.replace_empty_ub` |
| C206 | A brush is taken to end at the first `}`, so that brush primitives and patches are refused | bsputil/bsputil.cc:551-556 | `BspUtil.Replace.primitives_refused` |
| C207 | Changes are not combined: after one the map is no longer in generic form, and later commands throw, write the same map again or are undefined | bsputil/bsputil.cc:1176, 1200, 1310, 1362; common/bspfile.cc:1979 | `BspUtil.Commands.at_most_one_change` |
| C207 | `--convert a --convert b` writes format a under the name of b (the result of ConvertBSPFormat is ignored) | bsputil/bsputil.cc:1310-1312 | `BspUtil.Commands.second_conversion_wrong` |
| C207 | `--extract-entities` and `--extract-textures` change the path of the source: a later change is written over the extracted file | bsputil/bsputil.cc:1320, 1339 | `BspUtil.Commands.written_over_entities` |
| C207 | If the map does not fit the format the file, maybe the source, is emptied before the error | bsputil/bsputil.cc:1200-1202; common/bspfile.cc:2539-2553 | `BspUtil.Commands.source_emptied` |
| C207 | `--replace-entities` after another change takes the source for a map file and reads the first of no entities | bsputil/bsputil.cc:1189-1206 | `BspUtil.Commands.replace_after_change_ub` |
| C207 | `--scale x file`, `--extract-bspx-lump file`, `--insert-bspx-lump file` read a null pointer; `--scale x y file` takes the file name as a factor | bsputil/bsputil.cc:940-947, 1477-1478, 1506-1507 | `BspUtil.Commands.null_words`, `BspUtil.Commands.scale_takes_file` |
| C208 | `+1slip` is listed before `+0slip`, although the comment says that lower frames come first | qbsp/map.cc:411-414 | `Miptex.lower_not_first` |
| C208 | The lower frames of a texture with a name of 16 characters or more are listed under a cut name | qbsp/map.cc:391, 415 | `Miptex.long_name_cut` |
| C208 | The texture `+` is accepted; AddAnimationFrames then writes behind the end of its name | qbsp/qbsp.cc:1606-1610 | `Miptex.plus_ub` |
| C209 | An animation that runs into a circle without its first frame: qbsp never ends | qbsp/map.cc:491-515 | `Miptex.Chain.animation_never_ends`, `Miptex.Chain.circle_never_ends` |
| C209 | A still texture that is the last frame of another animation is linked to its first frame | qbsp/map.cc:518 | `Miptex.Chain.still_texture_animated` |
| C210 | A wad in the working directory hides one of its name below all wad paths but the first, and is not embedded if the first is an -xwadpath | qbsp/map.cc:222-226; common/fs.cc: addArchive | `Archive.Wads.second_path_unseen`, `Archive.Wads.local_not_embedded` |
| C210 | An empty part of the wad list (a semicolon in front) registers the wad path and hides the default wad | qbsp/map.cc:264-271 | `Archive.Wads.empty_part_hides_default` |
| C211 | Faces at a right angle to the wanted normal are accepted: near a corner `--findfaces` names the wall for a point of the floor | common/bsputils.cc:351-356 | `Tree.wall_before_floor` |
| C212 | Liquids and sky faces of a model with `_shadowself` or `_shadowworldonly` shadow everything | light/trace_embree.cc:610-635 | `Shadow.limited_liquid` |
| C212 | A fence of a model with `_shadow` and `_shadowself` shadows only this model, its other faces everything | light/trace_embree.cc:357-364, 605-608 | `Shadow.fence_of_both` |
| C212 | With channels other than 1 hidden faces and liquids of the world block light, and sky is not sky | light/trace_embree.cc:580-585 | `Shadow.channels_block` |
| C212 | In Quake 2 `_light_alpha` and `alpha` on a face without translucent flags do nothing | light/trace_embree.cc:168-171 | `Shadow.alpha_ignored` |
| C212 | A light with a shadow mask other than 1 ends the program if a ray meets a shadow casting model without faces | include/light/trace_embree.hh:210-221, light/trace_embree.cc:450, 682 | `Shadow.leaf_error` |
| C213 | Of several panes, or several switchable shadows, only the one met last counts, in an order the ray tracer chooses | light/trace_embree.cc:718-720, 729 | `Shadow.last_pane_wins`, `Shadow.last_switch_wins` |
| C213 | Glass behind the sky may tint sunlight | light/trace_embree.cc:403-405, include/light/trace_embree.hh:258-272 | `Shadow.glass_behind_sky` |
| - | With Embree 4 the header does not compile: `_numrays` does not exist; not modelled | include/light/trace_embree.hh:267, 349 | - |
| C214 | `mod_round_to_neg_inf` yields 256 for negative multiples of 256: a debug build ends | light/ltface.cc:1554-1556, 1614-1616 | `Mottle.mottle_debug` |
| C214 | Each of the seven interpolations is cut off to a byte, so the noise has steps | light/ltface.cc:1628-1638, include/common/mathlib.hh:115-119 | `Mottle.mottle_range` |
| C215 | The tangents are not perpendicular on oblique surfaces: occluders beyond `_dirtdepth` count, and nearer ones do not | include/common/qvec.hh:570-571, light/ltface.cc:2395-2397 | `Dirt.far_counts` |
| C215 | Random dirt rays leave the cone of `_dirtangle` on oblique surfaces | light/ltface.cc:2343-2345, 2395 | `Dirt.cone_exceeded` |
| C216 | The light grid ignores `suntexture` and switchable shadows | light/ltface.cc:1535-1543 | `SunRay.grid_ignores` |
| C216 | The light grid ignores light channels | light/ltface.cc:1308-1357 | `SunRay.grid_channels` |
| C216 | A sun with a `suntexture` that is not found shines through any sky | light/entities.cc:394-397 | `SunRay.unknown_texture` |
| C217 | `-bouncedebug` and `-bouncelightsdebug` write no light at all | light/ltface.cc:2616, 2671, 2697 | `Passes.bounce_debug_dark` |
| C217 | Local minimum light is raised before bounced light is added, other minimum light after | light/ltface.cc:2643, 2679, 2717 | `Passes.local_min_bounces` |
| C217 | With `-nolighting` positive lights are cast, minimum and negative light is not | light/light.cc:788-833 | `Passes.nolighting_lights` |
| C217 | A lightmapped face with fewer than three edges, without a model or with bad texture axes is meant to be skipped, but ends the run | light/ltface.cc:2578-2584, 569-573, 2602; common/bsputils.cc:40 | `Passes.bad_face_ends` |
| C218 | `_minlight_color` of a model or face has no effect without `_minlight` above the world's | light/ltface.cc:2708-2714 | `FaceKeys.color_ignored` |
| C218 | Quake II compares `_minlight` of a model, times 128, with the world's without the factor | light/ltface.cc:626-628, 2708 | `FaceKeys.quake2_lower` |
| C219 | The smaller scale is picked, not the larger: faces with a coarser LMSHIFT are lit with the map's scale, which does not fit the lump | light/ltface.cc:588-590 | `FaceKeys.coarser_ignored` |
| C219 | A short LMSHIFT lump is read behind its end; shifts of 32 and more are undefined | light/light.cc:758-761 | `FaceKeys.short_lump_ub`, `FaceKeys.large_shift_ub` |
| C219 | The warning about lightmap scales that are no powers of 2 is never printed | light/light.cc:673-679 | `FaceKeys.never_warns` |
| C220 | `-onlyents` counts entities that have only origin brushes, and triggers without models: all later `model` keys are off by one | qbsp/qbsp.cc:1315-1325 | `OnlyEnts.shifted_by_origin_brush`, `OnlyEnts.shifted_by_trigger` |
| C221 | `-onlyents` writes no `origin` for entities with an origin brush, whose models are relative to it | qbsp/qbsp.cc:1295-1333 | `OnlyEnts.origin_lost` |
| C221 | `-onlyents` does not scale origins, and knows `rotate_` in lower case only | qbsp/qbsp.cc:1330 | `OnlyEnts.scale_ignored`, `OnlyEnts.rotate_case` |
| C221 | With `-scale`, the origin of a `rotate_` entity is scaled twice if its target comes before it | qbsp/map.cc:3269-3323 | `OnlyEnts.scaled_twice` |
| C222 | An entity with `"model" "*0"` makes a second list of the world's groups; `"model" "*x"` ends qbsp with an uncaught exception | qbsp/qbsp.cc:1419-1454 | `BrushList.world_twice`, `BrushList.bad_model_ends` |
| C222 | In Quake II all liquids are listed as solid | qbsp/qbsp.cc:1374-1381 | `BrushList.quake2_solid_liquids` |
| C223 | The distance to a sound is overwritten by 0.25, so every visible sound has full level; far sounds would all use the distance of slime | vis/soundpvs.cc:136, 147 | `Ambient.far_is_loud`, `Ambient.slime_silent` |
| C223 | With detail brushes a leaf whose cluster is -1 is looked up before the rows of visibility | vis/soundpvs.cc:88 | `Ambient.no_cluster_ub` |
| C225 | `-hexen2` silently replaces the formats of Quake II and Half-Life instead of being an error | qbsp/qbsp.cc:713-715 | `Target.hexen_hides` |
| C226 | A surface that gives light is skipped if any one of its leafs is not visible, instead of all | light/ltface.cc:1997-2001 | `VisCull.surface_dropped` |
| C228 | The wall of a side of a region without an exactly opposite side fills the region | qbsp/map.cc:2661 | `Region.region_filled` |
| C228 | `continue` in the loop over anti-regions continues that loop: no brush is left out | qbsp/brush.cc:725-732 | `Region.antiregion_ignored` |
| C228 | With a region and an anti-region, a reference to an erased entity is used: the next entity is erased although it has brushes, or memory behind the end is read | qbsp/map.cc:3348-3354 | `Region.brush_entity_removed`, `Region.last_entity_ub` |
| C229 | Area portals are numbered once per hull, so that in games with hulls the numbers do not begin at 1 | qbsp/brush.cc:891 | `LoadEnt.renumbered` |
| C230 | The bounds of rotating brushes are the largest coordinate, not the largest distance: a turned corner leaves them | qbsp/brush.cc:661-673 | `LoadEnt.corner_leaves` |
| C231 | A flat leaf gets a corner of its parent's old bounds, which also widens the bounds of all nodes above; for the root a null pointer is used | qbsp/portals.cc:420-426 | `TreeBounds.flat_leaf`, `TreeBounds.flat_root_ub` |
| C234 | A light with `_project_texture` that is aimed with `angles` (no `mangle`, `project_mangle` or `target`) becomes a spotlight with the direction 0, so it casts no light at all | light/entities.cc:1026-1034, light/ltface.cc:873-877 | `Projector.angles_dark` |
| C236 | Any file with the name of a texture and 40 bytes or more, also in the working directory, is copied into the BSP file as a texture; reading that file can be undefined | qbsp/qbsp.cc:1543-1560, common/imglib.cc:169-195 | `Miptex.any_file_copied` |
| C237 | Without visibility data a light in a wide low space does not light faces that it sees from afar: the estimate ends at 46.5 times the distance to floor and ceiling | light/entities.cc:1137-1157, light/ltface.cc:1124-1132 | `VisCull.seen_but_skipped` |
| C240 | light writes the entities with the keys that -arghradcompat has renamed into the BSP file: lighting it again takes `_distance` (now `_falloff`) for `delay` and halves `_anglescale` once more | light/entities.cc:975-989, 1235 | `Styles.arghrad_again`, `Styles.arghrad_again_differs` |
| C241 | A .wal_json file hides the .wal file next to it in Quake II, instead of overriding only what it gives: the .wal is looked for under the name of the texture without `textures/` | common/imglib.cc:382-386, 469-473 | `WalJson.wal_not_read`, `WalJson.light_lost` |
| C241 | An array of flags in a .wal_json file is added to the flags of the .wal, though a number, a name or an array of contents replaces them | common/imglib.cc:429-437 | `WalJson.flags_array` |
| C243 | `-debugexpand 1 2fort.map` fails: `std::stod` accepts the digits a file name begins with, so that it is taken for the second number | qbsp/qbsp.cc:205-225 | `DebugExpand.digit_file` |
| C244 | The last line of a file of `-texturedefs` must end with a newline, or the parser reads behind the end of the file; the comment at the loop that cuts blanks off describes the effect | qbsp/qbsp.cc:627-631, common/parser.cc:195-197 | `TexRemap.last_line_open` |
| C244 | An empty name in quotes in such a file reads the character before the beginning of the empty string | qbsp/qbsp.cc:629 | `TexRemap.empty_name` |
| C244, C245 | The files of `-texturedefs` and `-aliasdef` are kept in an unordered set: if two files define the same name, which one counts does not follow the command line | include/common/settings.hh:428, qbsp/qbsp.cc:768-775 | `TexRemap.order_matters`, `Alias.order_matters` |
| C245 | The last byte of a file of `-aliasdef` must not be the `}` of an alias, or the parser reads behind the end of the file | qbsp/qbsp.cc:676, common/parser.cc:195-197 | `Alias.last_brace_open` |

## What is not modelled

* Rounding of `double` and `float` arithmetic (exact arithmetic instead), except where a parameter stands for it.
* light: everything except the lit file, the saving of lightmaps (light/write.cc), the light grid (light/lightgrid.cc, without the search for a free place near an occluded point), the first pass over the entities, light styles, the surface flags, the sampling of textures, and the light that entities and surfaces cast on a face, with its dirt, its gates and its light maps, the lightmap coordinates and samples of a face, the correction of their places, and phong shading without its tangents, jittered lights, targets, the setting up of suns and domes, the lights and bounced light of surfaces, and what stops and tints a ray (the triangles on a ray are given). Embree itself, the faces made for models without faces, `-visapprox` and the light that suns cast are not modelled.
* lightpreview: everything. maputil: Lua scripts. bsputil: `--svg`, `--compare`, `--findfaces`, `--findleaf` and `--modelinfo` beyond their place in the command line.
* qbsp: CSG, the measure of middle planes, texture lookup,
  and the lumps written from them beyond nodes, leafs, clip nodes, planes, faces, edges, vertices and texinfos.
* vis: windings of more than 24 or 64 points and tables of more than 64 planes (errors of the program), soundpvs ambient
  sounds. The geometry of windings and separators is modelled over an ordered field.
* Memory exhaustion, file system errors other than crashes, threads libraries, text output.

`COVERAGE.md` lists the modelled lines; a line that is not listed is not modelled.

## Trusted base

Lean 4.33.0's kernel and elaborator; the axioms `propext`, `Classical.choice`, `Quot.sound` and no others (`AXIOMS.txt`
lists them for every theorem of the manifest); and the reading of the C++ sources recorded in the comments of the model,
together with the C++ semantics assumed there: little-endian, 8-bit bytes, two's complement, `char` signed, `int` 32 bits,
`long` 64 bits, sequentially consistent access to the vis bit sets.
