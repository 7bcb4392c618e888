import Verif.Common.Outcome

/-!
Model of the contents flags (`include/common/bspfile_common.hh`, `common/bspfile_common.cc`) and of
the contents rules of the Quake-like and Quake II game definitions (`common/bspfile.cc`).

`contents_t` is an unsigned 64-bit integer (`contents_int_t`), modelled as `BitVec 64`.
-/

namespace Verif.Contents

open Verif

/-- `contents_int_t` (include/common/bspfile_common.hh:56-58). -/
abbrev Contents := BitVec 64

/-- `nth_bit<uint64_t>(k)`: include/common/cmdlib.hh (`1 << k`). -/
def bit (k : Nat) : Contents := (1#64) <<< k

/-- The C++ test `flags & mask` used as a condition. -/
def tst (c m : Contents) : Bool := c &&& m != 0#64

/-! Flag values: include/common/bspfile_common.hh:58-128. -/

abbrev EMPTY : Contents := 0#64
abbrev SOLID : Contents := bit 0
abbrev SKY : Contents := bit 1
abbrev DETAIL_WALL : Contents := bit 2
abbrev WINDOW : Contents := bit 3
abbrev AUX : Contents := bit 4
abbrev LAVA : Contents := bit 5
abbrev SLIME : Contents := bit 6
abbrev WATER : Contents := bit 7
abbrev MIST : Contents := bit 8
/-- `EWT_LAST_VISIBLE_CONTENTS_INDEX` -/
abbrev lastVisibleIndex : Nat := 8
abbrev ALL_LIQUIDS : Contents := LAVA ||| SLIME ||| WATER
abbrev ALL_VISIBLE : Contents :=
  SOLID ||| SKY ||| DETAIL_WALL ||| WINDOW ||| AUX ||| LAVA ||| SLIME ||| WATER ||| MIST
abbrev ORIGIN : Contents := bit 9
abbrev PLAYERCLIP : Contents := bit 10
abbrev MONSTERCLIP : Contents := bit 11
abbrev AREAPORTAL : Contents := bit 12
abbrev ILLUSIONARY_VISBLOCKER : Contents := bit 13
abbrev ALL_INVIS : Contents :=
  ORIGIN ||| PLAYERCLIP ||| MONSTERCLIP ||| AREAPORTAL ||| ILLUSIONARY_VISBLOCKER
abbrev DETAIL : Contents := bit 14
abbrev MIRROR_INSIDE : Contents := bit 15
abbrev MIRROR_INSIDE_SET : Contents := bit 16
abbrev SUPPRESS_CLIPPING : Contents := bit 17
abbrev TRANSLUCENT : Contents := bit 24

/-- `contentflags_t::mirror_inside` (include/common/bspfile_common.hh:149-154). -/
def mirrorInside (c : Contents) : Option Bool :=
  if tst c MIRROR_INSIDE_SET then some (tst c MIRROR_INSIDE) else none

/-- `contentflags_t::set_mirrored` (common/bspfile_common.cc:88-104). -/
def setMirrored (c : Contents) (v : Option Bool) : Contents :=
  match v with
  | some true => c ||| MIRROR_INSIDE_SET ||| MIRROR_INSIDE
  | some false => (c ||| MIRROR_INSIDE_SET) &&& ~~~ MIRROR_INSIDE
  | none => c &&& ~~~ (MIRROR_INSIDE_SET ||| MIRROR_INSIDE)

/-- `contentflags_t::clips_same_type` (include/common/bspfile_common.hh:159-164). -/
def clipsSameType (c : Contents) : Option Bool :=
  if tst c SUPPRESS_CLIPPING then some false else none

/-- `contentflags_t::set_clips_same_type` (common/bspfile_common.cc:111-119). -/
def setClipsSameType (c : Contents) (v : Option Bool) : Contents :=
  match v with
  | some false => c ||| SUPPRESS_CLIPPING
  | _ => c

/-- The loop of `contentflags_t::visible_contents_index`
(include/common/bspfile_common.hh:199-206) from `index` on; `none` is the result `-1`.  The loop
runs while `nth_bit(index) <= EWT_LAST_VISIBLE_CONTENTS`, that is `index ≤ 8`. -/
def visibleIndexFrom (c : Contents) (index : Nat) : Option Nat :=
  if index ≤ lastVisibleIndex then
    if tst c (bit index) then some index else visibleIndexFrom c (index + 1)
  else none
termination_by lastVisibleIndex + 1 - index

/-- `contentflags_t::visible_contents_index` (include/common/bspfile_common.hh:199-206). -/
def visibleIndex (c : Contents) : Option Nat := visibleIndexFrom c 0

/-- `contentflags_t::visible_contents` (include/common/bspfile_common.hh:209-215). -/
def visibleContents (c : Contents) : Contents :=
  match visibleIndex c with
  | some i => bit i
  | none => EMPTY

/-! ## Quake and Quake-like games -/

namespace Q1

/-- `gamedef_q1_like_t::create_contents_from_native` (common/bspfile.cc:200-217); native values
are in include/common/bspfile_q1.hh (`CONTENTS_EMPTY = -1`, `SOLID = -2`, `WATER = -3`,
`SLIME = -4`, `LAVA = -5`, `SKY = -6`). -/
def fromNative (native : Int) : Outcome Contents :=
  if native = -2 then .ok SOLID
  else if native = -6 then .ok SKY
  else if native = -5 then .ok LAVA
  else if native = -4 then .ok SLIME
  else if native = -3 then .ok WATER
  else if native = -1 then .ok EMPTY
  else .error

/-- `gamedef_q1_like_t::contents_to_native` (common/bspfile.cc:219-240). -/
def toNative (c : Contents) : Outcome Int :=
  if tst c SOLID then .ok (-2)
  else if tst c SKY then .ok (-6)
  else if tst c DETAIL_WALL then .error
  else if tst c WINDOW then .error
  else if tst c AUX then .error
  else if tst c LAVA then .ok (-5)
  else if tst c SLIME then .ok (-4)
  else if tst c WATER then .ok (-3)
  else if tst c MIST then .error
  else .ok (-1)

/-- `gamedef_q1_like_t::cluster_contents` (common/bspfile.cc:242-253). -/
def clusterContents (a b : Contents) : Contents :=
  let combined := a ||| b
  if !tst a SOLID || !tst b SOLID then combined &&& ~~~ SOLID else combined

/-- `create_detail_illusionary_contents` (common/bspfile.cc:265-268). -/
def detailIllusionary : Contents := MIST ||| DETAIL
/-- `create_detail_fence_contents` (common/bspfile.cc:270-273). -/
def detailFence : Contents := WINDOW ||| DETAIL
/-- `create_detail_wall_contents` (common/bspfile.cc:275-278). -/
def detailWall : Contents := DETAIL_WALL ||| DETAIL
/-- `create_detail_solid_contents` (common/bspfile.cc:280-283). -/
def detailSolid : Contents := SOLID ||| DETAIL
/-- `clear_detail` (common/bspfile.cc:285-288). -/
def clearDetail (c : Contents) : Contents := c &&& ~~~ DETAIL
/-- `set_detail` (common/bspfile.cc:290-293). -/
def setDetail (c : Contents) : Contents := c ||| DETAIL

/-- `contents_are_any_detail` (common/bspfile.cc:309-312). -/
def isAnyDetail (c : Contents) : Bool := tst c DETAIL
/-- `contents_are_detail_solid` (common/bspfile.cc:314-319). -/
def isDetailSolid (c : Contents) : Bool := tst c DETAIL && tst c SOLID
/-- `contents_are_detail_wall` (common/bspfile.cc:321-326). -/
def isDetailWall (c : Contents) : Bool := tst c DETAIL && tst c DETAIL_WALL
/-- `contents_are_detail_fence` (common/bspfile.cc:328-334). -/
def isDetailFence (c : Contents) : Bool := tst c DETAIL && tst c WINDOW
/-- `contents_are_detail_illusionary` (common/bspfile.cc:336-341). -/
def isDetailIllusionary (c : Contents) : Bool := tst c DETAIL && tst c MIST
/-- `contentflags_t::is_fence` (common/bspfile_common.cc:166-169). -/
def isFence (c : Contents) : Bool := isDetailFence c || isDetailIllusionary c
/-- `contents_are_origin` (common/bspfile.cc:343-347). -/
def isOrigin (c : Contents) : Bool := tst c ORIGIN
/-- `contents_are_clip` (common/bspfile.cc:349-353). -/
def isClip (c : Contents) : Bool := tst c PLAYERCLIP
/-- `contents_clip_same_type` (common/bspfile.cc:355-366). -/
def clipSameType (a b : Contents) : Bool :=
  if a != b then false else if tst a SUPPRESS_CLIPPING then false else true
/-- `contents_are_empty` (common/bspfile.cc:368-375). -/
def isEmpty (c : Contents) : Bool :=
  if tst c ORIGIN then false
  else if tst c PLAYERCLIP then false
  else !tst c ALL_VISIBLE
/-- `contents_are_any_solid` (common/bspfile.cc:377-380). -/
def isAnySolid (c : Contents) : Bool := tst c SOLID
/-- `contents_are_solid` (common/bspfile.cc:383-387). -/
def isSolid (c : Contents) : Bool := tst c SOLID && !tst c DETAIL
/-- `contents_are_sky` (common/bspfile.cc:389-392). -/
def isSky (c : Contents) : Bool := tst c SKY
/-- `contents_are_liquid` (common/bspfile.cc:394-397). -/
def isLiquid (c : Contents) : Bool := tst (visibleContents c) ALL_LIQUIDS

/-- `gamedef_q1_like_t::portal_can_see_through` (common/bspfile.cc:411-439). -/
def canSeeThrough (a b : Contents) (transwater : Bool) : Bool :=
  if tst a SOLID || tst b SOLID then false
  else
    let aTranslucent := if transwater then tst a ALL_LIQUIDS else false
    let bTranslucent := if transwater then tst b ALL_LIQUIDS else false
    if !tst (a ^^^ b) ALL_VISIBLE then true
    else
      let a' := if tst a DETAIL || aTranslucent then 0#64 else a
      let b' := if tst b DETAIL || bTranslucent then 0#64 else b
      if a' ^^^ b' == 0#64 then true
      else if !tst (a' ^^^ b') ALL_VISIBLE then true
      else false

/-- `contents_seals_map` (common/bspfile.cc:441-444). -/
def sealsMap (c : Contents) : Bool := isSolid c || isSky c

/-- `contents_are_opaque` (common/bspfile.cc:446-460). -/
def isOpaque (c : Contents) (transwater : Bool) : Bool :=
  let bits := visibleContents c
  if bits == SOLID then true
  else if bits == SKY then true
  else if bits == DETAIL_WALL then true
  else if bits == WINDOW then false
  else if bits == LAVA then !transwater
  else if bits == SLIME then !transwater
  else if bits == WATER then !transwater
  else if bits == MIST then false
  else false

/-- `contents_remap_for_export` (common/bspfile.cc:462-480); the `type` argument is unused. -/
def remapForExport (c : Contents) : Contents :=
  if isDetailFence c || isDetailWall c then SOLID
  else if tst c MIST then c &&& ~~~ MIST
  else c

/-- `combine_contents` (common/bspfile.cc:482-495). -/
def combine (a b : Contents) : Contents :=
  if isSolid a || isSolid b then SOLID
  else if isSky a || isSky b then SKY
  else a ||| b

/-- `portal_visible_contents` (common/bspfile.cc:497-518). -/
def portalVisibleContents (a b : Contents) : Contents :=
  if tst a (SOLID ||| SKY) && tst b (SOLID ||| SKY) then EMPTY
  else
    let result := if tst a SUPPRESS_CLIPPING || tst b SUPPRESS_CLIPPING then a ||| b else a ^^^ b
    visibleContents result

/-- `portal_generates_face` (common/bspfile.cc:520-546); `back` is `brushside_side == SIDE_BACK`. -/
def portalGeneratesFace (portal brush : Contents) (back : Bool) : Bool :=
  match visibleIndex portal with
  | none => false
  | some i =>
    if !tst brush (bit i) then false
    else if back then
      if tst brush MIRROR_INSIDE_SET then tst brush MIRROR_INSIDE
      else tst brush ALL_LIQUIDS
    else true

end Q1

/-! ## Quake II -/

namespace Q2

/-- The statements `if (native & Q2_CONTENTS_x) result |= EWT_y` of
`gamedef_q2_t::create_contents_from_native` (common/bspfile.cc:854-894) in source order, as pairs
(native bit index, internal bit index).  Native indices: include/common/bspfile_q2.hh
(`q2_contents_t`); internal indices: include/common/bspfile_common.hh:58-128. -/
def fromNativeTable : List (Nat × Nat) :=
  [ -- visible contents: SOLID WINDOW AUX LAVA SLIME WATER MIST
    (0, 0), (1, 3), (2, 4), (3, 5), (4, 6), (5, 7), (6, 8),
    -- invisible contents: AREAPORTAL PLAYERCLIP MONSTERCLIP ORIGIN
    (15, 12), (16, 10), (17, 11), (24, 9),
    -- CURRENT_0 .. CURRENT_DOWN, DETAIL, TRANSLUCENT, LADDER
    (18, 18), (19, 19), (20, 20), (21, 21), (22, 22), (23, 23), (27, 14), (28, 24), (29, 25),
    -- MONSTER DEADMONSTER
    (25, 26), (26, 27),
    -- UNUSED_7 .. UNUSED_14, UNUSED_30, UNUSED_31
    (7, 28), (8, 29), (9, 30), (10, 31), (11, 32), (12, 33), (13, 34), (14, 35),
    (30, 36), (31, 37) ]

/-- `gamedef_q2_t::create_contents_from_native` (common/bspfile.cc:851-897). -/
def fromNative (native : BitVec 32) : Contents :=
  fromNativeTable.foldl (fun result p => if native.getLsbD p.1 then result ||| bit p.2 else result)
    0#64

/-- One statement of `gamedef_q2_t::contents_to_native`: either
`if (flags & EWT_y) result |= Q2_CONTENTS_x` or `if (flags & EWT_y) throw`. -/
inductive ToNativeStmt where
  | map (internalBit nativeBit : Nat)
  | throwIf (internalBit : Nat)
  deriving Repr, DecidableEq

open ToNativeStmt in
/-- The statements of `gamedef_q2_t::contents_to_native` (common/bspfile.cc:902-938) in source
order. -/
def toNativeStmts : List ToNativeStmt :=
  [ map 0 0, throwIf 1, throwIf 2, map 3 1, map 4 2, map 5 3, map 6 4, map 7 5, map 8 6,
    map 9 24, map 10 16, map 11 17, map 12 15, throwIf 13, map 14 27,
    map 18 18, map 19 19, map 20 20, map 21 21, map 22 22, map 23 23, map 24 28, map 25 29,
    map 26 25, map 27 26, map 28 7, map 29 8, map 30 9, map 31 10, map 32 11, map 33 12,
    map 34 13, map 35 14, map 36 30, map 37 31 ]

/-- Execution of the statements. -/
def toNativeRun (c : Contents) : List ToNativeStmt → BitVec 32 → Outcome (BitVec 32)
  | [], result => .ok result
  | .map i n :: rest, result =>
    toNativeRun c rest (if tst c (bit i) then result ||| ((1#32) <<< n) else result)
  | .throwIf i :: rest, result => if tst c (bit i) then .error else toNativeRun c rest result

/-- `gamedef_q2_t::contents_to_native` (common/bspfile.cc:899-941). -/
def toNative (c : Contents) : Outcome (BitVec 32) := toNativeRun c toNativeStmts 0#32

/-- `gamedef_q2_t::cluster_contents` (common/bspfile.cc:943-954). -/
def clusterContents (a b : Contents) : Contents :=
  let combined := a ||| b
  if !tst a SOLID || !tst b SOLID then combined &&& ~~~ SOLID else combined

/-- `get_content_type` (common/bspfile.cc:956-959); all bits are below 31, so the conversion to
`int32_t` is the identity. -/
def contentType (c : Contents) : Contents := c &&& (ALL_VISIBLE ||| ALL_INVIS)

/-- `create_detail_illusionary_contents` (common/bspfile.cc:965-971). -/
def detailIllusionary (c : Contents) : Contents := (c &&& ~~~ SOLID) ||| (MIST ||| DETAIL)
/-- `create_detail_fence_contents` (common/bspfile.cc:973-979). -/
def detailFence (c : Contents) : Contents := (c &&& ~~~ SOLID) ||| (WINDOW ||| TRANSLUCENT ||| DETAIL)
/-- `create_detail_wall_contents` (common/bspfile.cc:981-987). -/
def detailWall (c : Contents) : Contents := (c &&& ~~~ SOLID) ||| (DETAIL_WALL ||| DETAIL)
/-- `create_detail_solid_contents` (common/bspfile.cc:989-994). -/
def detailSolid (c : Contents) : Contents := c ||| (SOLID ||| DETAIL)
/-- `contents_are_solid` (common/bspfile.cc:1096-1100). -/
def isSolid (c : Contents) : Bool := tst c SOLID && !tst c DETAIL
/-- `contents_are_any_solid` (common/bspfile.cc:1091-1094). -/
def isAnySolid (c : Contents) : Bool := tst c SOLID
/-- `contents_are_empty` (common/bspfile.cc:1086-1089). -/
def isEmpty (c : Contents) : Bool := contentType c == 0#64
/-- `contents_are_sky` (common/bspfile.cc:1102). -/
def isSky (_ : Contents) : Bool := false

/-- `gamedef_q2_t::portal_can_see_through` (common/bspfile.cc:1163-1188). -/
def canSeeThrough (c0 c1 : Contents) : Bool :=
  if tst c0 SOLID || tst c1 SOLID then false
  else if !tst (c0 ^^^ c1) ALL_VISIBLE then true
  else
    let c0' := if tst c0 TRANSLUCENT || tst c0 DETAIL then 0#64 else c0
    let c1' := if tst c1 TRANSLUCENT || tst c1 DETAIL then 0#64 else c1
    if c0' ^^^ c1' == 0#64 then true
    else tst (c0' ^^^ c1') ALL_VISIBLE

/-- `contents_seals_map` (common/bspfile.cc:1190-1193). -/
def sealsMap (c : Contents) : Bool := isSolid c || isSky c

/-- `contents_are_opaque` (common/bspfile.cc:1195-1209). -/
def isOpaque (c : Contents) : Bool :=
  if visibleContents c == EMPTY then false
  else if tst c TRANSLUCENT then false
  else true

/-- `contents_remap_for_export` (common/bspfile.cc:1211-1226); `leaf` is
`type == remap_type_t::leaf`. -/
def remapForExport (c : Contents) (leaf : Bool) : Contents :=
  if tst c DETAIL_WALL then SOLID
  else if leaf then (if tst c SOLID then SOLID else c)
  else c

/-- `combine_contents` (common/bspfile.cc:1228-1239). -/
def combine (a b : Contents) : Contents :=
  if isSolid a || isSolid b then SOLID else a ||| b

/-- `portal_visible_contents` (common/bspfile.cc:1145-1161). -/
def portalVisibleContents (a b : Contents) : Contents :=
  let result := if tst a SUPPRESS_CLIPPING || tst b SUPPRESS_CLIPPING then a ||| b else a ^^^ b
  visibleContents result

/-- `portal_generates_face` (common/bspfile.cc:1241-1271). -/
def portalGeneratesFace (portal brush : Contents) (back : Bool) : Bool :=
  match visibleIndex portal with
  | none => false
  | some i =>
    if !tst brush (bit i) then false
    else if back then
      if tst brush MIRROR_INSIDE_SET then tst brush MIRROR_INSIDE
      else if tst portal (WINDOW ||| AUX) then false
      else true
    else true

end Q2

/-! ## Contents of a leaf -/

/-- `LeafNode` (qbsp/brushbsp.cc:348-362): the contents of a new leaf is the fold of
`combine_contents` over the brushes in it, from empty. -/
def leafContents (combine : Contents → Contents → Contents) (brushes : List Contents) : Contents :=
  brushes.foldl combine EMPTY

/-- Result of `ClusterContents` (qbsp/portals.cc:38-47) over the leafs of a node, combined
pairwise along the tree. -/
inductive LeafTree where
  | leaf (c : Contents)
  | node (front back : LeafTree)
  deriving Repr

/-- `ClusterContents` (qbsp/portals.cc:38-47). -/
def LeafTree.clusterContents (f : Contents → Contents → Contents) : LeafTree → Contents
  | .leaf c => c
  | .node a b => f (a.clusterContents f) (b.clusterContents f)

/-- The leafs of a tree in order. -/
def LeafTree.leaves : LeafTree → List Contents
  | .leaf c => [c]
  | .node a b => a.leaves ++ b.leaves

end Verif.Contents
