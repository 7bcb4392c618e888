# Lines of /repo cited by the model

Generated by `tools/coverage.py` from the comments of the definitions. Everything that is not listed is not
modelled. Overlapping ranges are joined.

| file | lines | modules |
|---|---|---|
| bsputil/bsputil.cc | 71-114, 149-452, 501-595, 597-1562 | Archive/WadModel, BspUtil/Check, BspUtil/Commands, BspUtil/Replace, BspUtil/Scale, Cmdlib/Props |
| common/bspfile.cc | 180-183, 200-217, 219-240, 242-253, 260-263, 265-268, 270-273, 275-278, 280-283, 285-288, 290-293, 295-302, 309-312, 314-319, 321-326, 328-334, 336-341, 343-347, 349-353, 355-366, 368-375, 377-380, 383-387, 389-392, 394-397, 399-403, 411-439, 441-444, 446-460, 462-480, 482-495, 497-546, 571-595, 819-828, 851-897, 899-941, 943-954, 956-959, 965-971, 973-979, 981-987, 989-994, 1006-1009, 1027-1036, 1067-1071, 1086-1089, 1091-1094, 1096-1100, 1102, 1115-1127, 1145-1161, 1163-1188, 1190-1193, 1195-1209, 1211-1226, 1228-1239, 1241-1271, 1574-1736, 1738-1754, 1762-1980, 1982-2039, 2041-2135, 2137-2182, 2199-2317, 2337-2429, 2435-2478, 2480-2516, 2525-2566 | BrushList/Model, BspFile/Convert, BspFile/File, BspFile/Lump, BspUtil/Commands, Contents/Brush, Contents/Model, Faces/Edge, Flood/Outside, Phong/Model, PortalSides/Model, Tree/Model |
| common/bspfile_common.cc | 88-104, 111-119, 166-169, 180-193 | Contents/Model, TexFlags/Model |
| common/bspfile_generic.cc | 35-232 | BspFile/Lump, Miptex/Data |
| common/bspfile_q1.cc | 26-34, 38-313 | BspFile/Cast, BspFile/Convert, BspFile/File |
| common/bspfile_q2.cc | 26-34, 38-248 | BspFile/Convert, BspFile/File |
| common/bspinfo.cc | 56-60, 227-474 | Atlas/Model, BspFile/Bspx |
| common/bsputils.cc | 40, 57-69, 74-78, 99-110, 123-138, 201-241, 257-283, 293-427, 429-490, 586-607, 609-658, 661-699, 710-758, 760-809, 811-1089, 1124-1149 | BspFile/Bspx, Emit/Edges, Extents/Model, Passes/Model, Shadow/Model, Tree/FindFace, Tree/Model, VisCull/Model, VisRow/Model |
| common/bspxfile.cc | 26-50, 54-62, 64-76, 80-96, 98-118, 122-127, 129-143, 166-173, 177-190, 192-212, 216-224 | BspFile/Bspx, BspFile/File |
| common/cmdlib.cc | 74-86, 88-98, 100-111, 113-116, 118-121, 123-330, 342, 344-362, 369-372, 374-381, 417-420, 543-644, 646-669, 695-705 | Cmdlib/Model, Stream/Model |
| common/decompile.cc | 46-88, 116-124, 160-187, 226-231, 235-260, 264-339, 341-348, 383-453, 464-486, 615-640, 642-696, 698-714, 716-751, 753-774, 799-808, 986-1032, 1034-1043, 1045-1067, 1069-1089, 1109-1177, 1187-1194, 1253-1261, 1295-1327 | Decompile/Model |
| common/entdata.cc | 36-39, 41-49, 51-60, 62-71, 73-84, 86-97, 99-104, 106-114, 116-143, 145-232 | Alias/Model, EntData/Dict, EntData/Model, MapText/Model, OnlyEnts/Model, Styles/Model, TexFlags/EntModel |
| common/fs.cc | 38-41, 43-61, 64-87, 89-116, 118, 120-133, 136-167, 169-194, 196, 198-211, 214-215, 218-222, 224-265, 267-287, 289-323, 325-334, 336-339, 341-354, 356-363 | Archive/Model |
| common/imglib.cc | 29-292, 294-327, 329-359, 370-457, 459-481, 511-653 | Miptex/Data, Textures/Model, WalJson/Model |
| common/mapfile.cc | 53-91, 93-139, 141-164, 166-185, 187-208, 210-257, 413-423, 425-451, 482-487, 489-513, 515-522, 725-733, 757-846, 851-878, 884-907, 910-961, 963-981, 983-1011, 1014-1032, 1034-1045, 1049-1063, 1065-1121, 1123-1150, 1152-1168, 1170-1183, 1185-1193, 1195-1202 | MapUtil/Model, TexValid/Model |
| common/mathlib.cc | 31-67, 171-197, 206-217, 219-245, 247-258, 260-267, 274-277, 279-284, 329-354, 367-405, 441-455, 463-477, 485-494 | Place/Model, Samples/Model, Suns/Model |
| common/parser.cc | 63-68, 70-73, 75-78, 80-83, 85-202, 209-212, 214-223, 227-276 | EntData/Model, Parser/Model, Settings/Model |
| common/prtfile.cc | 29-31, 35-180 | Prt/Model |
| common/qvec.cc | 75-138 | Extents/Model |
| common/settings.cc | 72-79, 97-101, 115-137, 145-148, 162-171, 173-177, 179-182, 200-220, 242-247, 269-277, 297-306, 332-337, 339-347, 359-363, 398-401, 403-422, 441-462, 487-490, 501-513, 515-528, 530-535, 654-717, 724, 726-731, 744 | Settings/Model, Settings/MoreProps, Settings/Props |
| include/common/aabb.hh | 65, 67-86, 88-91, 99-125, 127-136, 138-146, 148-156, 158-166, 172, 176-184, 190-198, 200-212, 226, 228-238 | BrushBsp/Chop, DivBounds/Model, Extents/Model, Geom/Aabb |
| include/common/bspfile.hh | 29-52, 55-56 | BspFile/File, BspUtil/Commands |
| include/common/bspfile_common.hh | 56-128, 149-154, 159-164, 199-206, 209-215, 218-313, 486-510 | Contents/Model, Extents/Model, FaceKeys/Model, Phong/Model, TexDef/Model, TexFlags/Model |
| include/common/bspfile_generic.hh | 39-47, 87-96, 102-120, 136-369 | Ambient/Model, Archive/WadModel, BspFile/Convert, BspFile/File, BspFile/Lump, BspUtil/Check, BspUtil/Scale, Emit/Texinfo, Flood/Areas, Textures/Model, Tree/Planes |
| include/common/bspfile_q1.hh | 33-36, 38-54, 108 | BrushList/Model, BspFile/File |
| include/common/bspfile_q2.hh | 33-34, 36-57, 182-196 | BspFile/File, Shadow/Model |
| include/common/bsputils.hh | 147-175 | Extents/Model |
| include/common/bspxfile.hh | 58-68, 70-81, 91-131, 134-149 | BrushList/Model, BspFile/Bspx |
| include/common/cmdlib.hh | 107-490 | Archive/Model, BspFile/File, Stream/Model, VisState/File |
| include/common/entdata.h | 33-34 | EntData/Dict |
| include/common/fs.hh | 38, 71-80 | Archive/SearchProps, Miptex/Data |
| include/common/imglib.hh | 46-89, 140-141 | Miptex/Chain, Textures/Model, WalJson/Model |
| include/common/json.hh | 29-37, 39-45 | TexFlags/Model |
| include/common/mapfile.hh | 44-63, 80, 111-131 | MapUtil/Model, TexValid/Model |
| include/common/mathlib.hh | 35-44, 51-52, 57, 67, 71, 83-86, 88-92, 115-119 | BrushBsp/Model, Geom/Model, Light/Image, Light/Model, Mottle/Model, Radiosity/Dice, Samples/Model, Suns/Model, TexValid/Model, Textures/Model |
| include/common/numeric_cast.hh | 25-132 | BspFile/Cast, BspFile/Convert |
| include/common/parser.hh | 29-36 | Parser/Model |
| include/common/polylib.hh | 282-576, 703-721, 728-748, 759-805, 881-920, 922-932, 943-1005, 1017-1067, 1081-1131, 1135-1169, 1198-1205 | BrushBsp/Windings, Geom/Aabb, Geom/Model, Geom/Storage, NodePortal/Model, PortalSides/Model, Radiosity/Dice, Radiosity/Model |
| include/common/qvec.hh | 145, 229-233, 385-392, 455-460, 463-470, 486-500, 509-523, 537-598, 600-631, 633, 653-673, 686-692, 694-712, 840-960, 963-972, 974-990, 1059-1062, 1065-1068, 1218-1223 | BspUtil/Scale, Decompile/Model, Dirt/Model, Extents/Model, Illum/Model, Illum/Surface, NormalsLump/Model, Phong/Model, Radiosity/Model, Samples/Model, SunRay/Model, Suns/Model, Surfaces/Model, TexValid/Model, Vis/Clip |
| include/common/settings.hh | 60-66, 96, 126, 144-480, 512-517 | Alias/Model, Dirt/Model, Settings/Model, SurfLights/RadFile, Target/Model, TexRemap/Model |
| include/light/entities.hh | 45-58, 60-118, 161 | Illum/Model, Suns/Model |
| include/light/light.hh | 50-54, 60-70, 77-83, 92-135, 153-166, 194, 196-233, 235-241 | FaceKeys/Model, Illum/Maps, Illum/Model, Illum/Surface, Passes/Model, Phong/Model, Suns/Model, VisCull/Rays |
| include/light/ltface.hh | 59-87 | LightGrid/Model |
| include/light/surflight.hh | 38-70 | Illum/Surface, Radiosity/Model, SunRay/GridSurf |
| include/light/trace_embree.hh | 59-67, 80-98, 173-190, 210-221, 258-272, 276-303, 341-356 | Dirt/Model, Shadow/Model, SunRay/Model |
| include/light/write.hh | 58-59 | Illum/Maps, Light/Model |
| include/qbsp/brush.hh | 36-55, 59 | PortalSides/Model |
| include/qbsp/brushbsp.hh | 50-66 | BrushBsp/Model |
| include/qbsp/map.hh | 40-90, 149-156 | Hulls/Model, Miptex/Chain, Place/Model |
| include/qbsp/portals.hh | 42-66 | Flood/Portals |
| include/qbsp/qbsp.hh | 71-79, 82-89, 150, 166-229, 245, 266-277, 294-314, 395-437 | Archive/TexPaths, DebugExpand/Model, Emit/Edges, Emit/Texinfo, Faces/Merge, Flood/Portals, LeafBrush/Model, Miptex/Chain, NodePortal/Model, Prt/Model, Target/Model, TexRemap/Model, Tree/Model |
| include/vis/leafbits.hh | 27-40, 42-46, 89 | VisState/Bits |
| include/vis/vis.hh | 29-30, 32, 35-40, 43-122, 126-146, 258, 265 | Vis/Clip, Vis/Sched, Vis/SightExample, Vis/SightSpec, VisState/File |
| light/bounce.cc | 43-233 | Illum/Surface, Radiosity/Model, Radiosity/Race, VisCull/Rays |
| light/entities.cc | 41, 160-200, 211-226, 241-355, 357-693, 695-870, 872-1053, 1058-1083, 1085-1095, 1108-1176, 1194-1204, 1264-1448, 1458-1494, 1496-1583 | Illum/Model, Projector/Model, Styles/Arghrad, Styles/Model, SunRay/Model, Suns/Model, SurfLights/Model, SurfLights/RadFile, VisCull/Rays |
| light/light.cc | 83-87, 117-127, 134-159, 166-184, 193-195, 291, 439-443, 541-557, 604-638, 655-680, 682-720, 735-767, 775-833, 843-923, 940-1054, 1243-1287, 1294, 1351-1354, 1393-1400, 1471 | Dirt/Model, Dirt/Spec, FaceKeys/Model, Illum/Model, Illum/Surface, Light/LitOnly, Light/Lumps, Light/Model, NormalsLump/Model, Passes/Model, Phong/Model, Radiosity/Race, Shadow/Model, Suns/Model, SurfLights/RadFile, TexFlags/Model, VisCull/Rays |
| light/lightgrid.cc | 63-448 | LightGrid/Model |
| light/ltface.cc | 72-93, 127-263, 295-324, 326-408, 415-460, 463-560, 562-1250, 1254-1300, 1303-1358, 1360-1480, 1482-1544, 1546-1642, 1650-1860, 1905-2060, 2075-2107, 2113-2191, 2255-2424, 2430-2473, 2542-2757, 2760-2963 | Dirt/Model, Extents/Model, FaceKeys/Model, Illum/Maps, Illum/Model, Illum/Surface, Light/Model, LightGrid/Model, Mottle/Model, Passes/Model, Projector/Model, Samples/Model, Samples/PlaceProps, Shadow/Model, SunRay/GridSurf, SunRay/Model, Textures/Model, VisCull/Model, VisCull/Rays |
| light/phong.cc | 155-169, 274-287, 289-314, 341-368, 394-409, 435-447, 449-458, 460-546, 551-671 | Phong/Model |
| light/surflight.cc | 53-272, 276-280 | Illum/Surface, Radiosity/Model, Styles/Model, VisCull/Rays |
| light/trace.cc | 44-70 | Textures/Model |
| light/trace_embree.cc | 73-100, 147-178, 217-282, 335-422, 552-647, 684-685, 701-721 | Shadow/Model |
| light/write.cc | 51-85, 109-580, 610-673, 676-1092 | BspFile/Bspx, Extents/Model, Light/Image, Light/LitOnly, Light/Lumps, Light/Model |
| qbsp/brush.cc | 101, 220-257, 266-315, 555-626, 644-674, 693-710, 712-739, 741-844, 867-897, 922-930, 932-950 | BrushBsp/Model, BrushBsp/Windings, Contents/Brush, Hulls/Model, LeafBrush/Model, LoadEnt/Model, OnlyEnts/Model, Region/Model |
| qbsp/brushbsp.cc | 40, 117-159, 170-203, 263-288, 290-330, 332, 348-369, 379-397, 409-575, 612-635, 646-762, 764-775, 777-846, 855-927, 937-1114, 1121-1165, 1174-1235, 1250-1340, 1349-1357, 1367-1384, 1396-1418, 1437-1560 | BrushBsp/Chop, BrushBsp/ChopExample, BrushBsp/Model, Contents/Brush, Contents/Model, DivBounds/Model, LeafBrush/Model |
| qbsp/csg.cc | 49-62, 64-69, 71-79, 88-121 | Surfaces/Model |
| qbsp/faces.cc | 82-127, 145-283, 294-312, 321-340, 350-455, 457-469, 481-508, 523-561 | Emit/Edges, Emit/Vertices, Surfaces/Model |
| qbsp/map.cc | 74-143, 149-167, 169-172, 214-281, 325-330, 343-381, 389-523, 525-573, 582-627, 635-893, 895-962, 969-1104, 1124-1133, 1135-1140, 1166-1287, 1289-1353, 1355-1618, 1620-1763, 1766-1774, 1783-1860, 1891-1907, 1938-1980, 1982-2002, 2004-2025, 2043-2188, 2444-2506, 2532-2724, 2726-2786, 2790-2878, 2888-2929, 2931-2987, 2989-3021, 3027-3064, 3083-3131, 3175-3333, 3339-3367, 3369-3388, 3391-3419, 3469-3661, 3670-3798 | Alias/Model, Archive/TexPaths, Contents/Brush, DebugExpand/Model, Emit/Edges, Emit/Texinfo, Emit/Vertices, Hulls/Model, LoadEnt/Model, MapText/Model, Miptex/Chain, Miptex/Model, Miptex/Props, OnlyEnts/Model, Place/Model, Region/Model, TexDef/Model, TexFlags/EntModel, TexRemap/Model, TexValid/Model, Tree/Planes, World/Model |
| qbsp/merge.cc | 52-207 | Faces/Merge |
| qbsp/outside.cc | 39-45, 55-56, 75-102, 118-126, 128-136, 148-196, 213-248, 258-304, 346-376, 378-404, 408-471, 480-509, 516-540, 565-597, 606-641, 643-647, 680-811, 813-823, 831-858 | Contents/Brush, Flood/Outside, Flood/Portals, Flood/Sides, Flood/Trail, Tree/Model |
| qbsp/portals.cc | 38-47, 59-76, 80-101, 108-120, 129-187, 201-219, 230-434, 446-567, 588-710, 718-764, 766-882, 885-1001, 1013-1187 | Contents/Model, Flood/AreaSpec, Flood/Areas, Flood/Exits, Flood/Path, Flood/Portals, NodePortal/Model, PortalSides/Model, Prt/Model, TreeBounds/Model |
| qbsp/prtfile.cc | 41-254 | Prt/Model, Prt/Props |
| qbsp/qbsp.cc | 49-99, 199-227, 255-263, 285-405, 442-450, 453-560, 604-649, 651-678, 680-766, 768-775, 780-790, 803-879, 881-896, 986-1085, 1181-1184, 1268-1274, 1284-1337, 1339-1466, 1534-1593, 1595-1618 | Alias/Model, Archive/TexPaths, BrushBsp/Model, BrushList/Model, DebugExpand/Model, Emit/Texinfo, Flood/Areas, LeafBrush/Model, Miptex/Data, Miptex/Model, OnlyEnts/Model, Settings/Model, Target/Model, TexRemap/Model, Tree/Planes |
| qbsp/tjunc.cc | 56-120, 147-177, 179-237, 250-273, 288-297, 306-335, 340-881 | Faces/Edge, Faces/FragProps, Faces/Fragments |
| qbsp/tree.cc | 73-167 | Contents/Brush, Flood/Portals, Tree/Model |
| qbsp/writebsp.cc | 37-316, 325-339, 342-458 | Contents/BrushProps, Emit/Edges, Emit/Texinfo, TexFlags/Model, Tree/DrawProps, Tree/Model, Tree/Planes |
| vis/flow.cc | 29-112, 129-185, 195-302, 312-348, 359-515, 522-543, 552-566, 573-655 | Vis/Clip, Vis/Flow, Vis/Load, Vis/Sched |
| vis/soundpvs.cc | 24-154, 164-227 | Ambient/Model, Vis/Rows |
| vis/state.cc | 33, 46-55, 57-95, 97-121, 123-132, 134-188, 201-202, 208-221, 229-282 | VisState/Bits, VisState/File |
| vis/vis.cc | 115-215, 234-255, 269-282, 294-347, 369-371, 373-375, 393-466, 468-479, 490-496, 498-514, 552-556, 584-676 | Prt/Model, Vis/Clip, Vis/Graph, Vis/Load, Vis/Rows, Vis/Sched, Vis/SightSpec |
