import Verif.Contents.Model

/-!
Model of how the contents of a Quake brush is decided, from its texture names to the brushes that
enter the BSP build: `face_get_contents`, `Brush_GetContents`, the per-brush part of
`Brush_LoadEntity`, and the leaf export.
-/

namespace Verif.Contents.Q1

open Verif Verif.Contents

/-- `tolower` on ASCII. -/
def lower (c : Char) : Char := if 'A' ≤ c ∧ c ≤ 'Z' then Char.ofNat (c.toNat + 32) else c

/-- `!Q_strcasecmp(a, b)`. -/
def ieq (a b : List Char) : Bool := a.map lower == b.map lower

/-- `!Q_strncasecmp(a, b, strlen(b))`: the first `strlen(b)` characters agree. -/
def iprefix (a b : List Char) : Bool := (a.take b.length).map lower == b.map lower

/-- `gamedef_q1_like_t::face_get_contents` (common/bspfile.cc:571-595). -/
def faceContents (tex : List Char) : Contents :=
  if ieq tex "origin".toList then ORIGIN
  else if ieq tex "hint".toList || ieq tex "hintskip".toList then EMPTY
  else if ieq tex "clip".toList then PLAYERCLIP
  else if tex.head? = some '*' then
    if iprefix tex.tail "lava".toList then LAVA
    else if iprefix tex.tail "slime".toList then SLIME
    else WATER
  else if iprefix tex "sky".toList then SKY
  else SOLID

/-- The loop of `Brush_GetContents` over the faces (qbsp/map.cc:2450-2472): the first non-empty
face decides; the warning about mixed contents does not change the result. -/
def baseContents : List (List Char) → Contents
  | [] => EMPTY
  | tex :: rest => if isEmpty (faceContents tex) then baseContents rest else faceContents tex

/-- The entity keys `Brush_GetContents` looks at (qbsp/map.cc:2478-2496), and the options. -/
structure MapBrush where
  faces : List (List Char)
  /-- `_mirrorinside` present, and its value is non-zero -/
  mirrorKey : Option Bool
  /-- `_noclipfaces` present, and its value is non-zero -/
  noclipKey : Option Bool
  /-- classname is `func_illusionary_visblocker` -/
  visblocker : Bool
  isHint : Bool
  deriving Repr

/-- `Brush_GetContents` (qbsp/map.cc:2444-2506) for a game other than Quake II. -/
def brushGetContents (transwater : Bool) (b : MapBrush) : Contents :=
  let c := baseContents b.faces
  let c := setMirrored c b.mirrorKey
  let c := setClipsSameType c (b.noclipKey.map not)
  let c := if b.visblocker then c ||| ILLUSIONARY_VISBLOCKER else c
  if transwater && isLiquid c then setDetail c else c

/-- The classname cases of `Brush_LoadEntity` (qbsp/brush.cc:693-710). -/
inductive EntClass where
  | detail | detailWall | detailFence | detailIllusionary | other
  deriving Repr, DecidableEq

/-- The options `Brush_LoadEntity` reads. -/
structure Options where
  transwater : Bool
  nodetail : Bool
  omitdetail : Bool
  omitdetailillusionary : Bool
  omitdetailfence : Bool
  omitdetailwall : Bool
  /-- `allow_contented_bmodels || bmodelcontents` -/
  bmodelcontents : Bool
  deriving Repr

/-- qbsp/brush.cc:774-785: solid brushes of detail entities become detail in the draw hull. -/
def detailStep (hull : Option Nat) (cls : EntClass) (c : Contents) : Contents :=
  if hull.getD 0 = 0 && isAnySolid c then
    match cls with
    | .detailIllusionary => detailIllusionary
    | .detailFence => detailFence
    | .detailWall => detailWall
    | .detail => detailSolid
    | .other => c
  else c

/-- qbsp/brush.cc:804-807: clip brushes become solid in the clipping hulls. -/
def clipStep (hull : Option Nat) (c : Contents) : Contents :=
  if hull.isSome && isClip c then SOLID else c

/-- qbsp/brush.cc:818-828: brush models become detail fence (remapped to solid at export). -/
def bmodelStep (o : Options) (world : Bool) (c : Contents) : Contents :=
  if !world && !o.bmodelcontents then detailFence else c

/-- qbsp/brush.cc:751-773: brushes dropped by the `-omitdetail*` options. -/
def omitted (o : Options) (cls : EntClass) (c : Contents) : Bool :=
  (o.omitdetail && cls == .detail)
  || ((o.omitdetail || o.omitdetailillusionary) && cls == .detailIllusionary)
  || ((o.omitdetail || o.omitdetailfence) && cls == .detailFence)
  || ((o.omitdetail || o.omitdetailwall) && cls == .detailWall)
  || (o.omitdetail && isAnyDetail c)

/-- qbsp/brush.cc:830-839: the clipping hulls keep only brushes that block, and make them solid. -/
def hullStep (hull : Option Nat) (c : Contents) : Option Contents :=
  if hull.getD 0 ≠ 0 then
    if !isAnySolid c && !isSky c && !isFence c then none else some SOLID
  else some c

/-- qbsp/brush.cc:774-839: the contents changes, `none` when the brush is skipped. -/
def adjust (o : Options) (hull : Option Nat) (cls : EntClass) (world hint : Bool) (c : Contents) :
    Option Contents :=
  if hull.getD 0 ≠ 0 && cls == .detailIllusionary then none
  else if hull == some 0 && isClip (detailStep hull cls c) then none
  else if hint && hull.getD 0 ≠ 0 then none
  else hullStep hull (bmodelStep o world
    (if hint then EMPTY else clipStep hull (detailStep hull cls c)))

/-- qbsp/brush.cc:841-844: re-apply the mirror and same-type settings of the map brush. -/
def reapply (mapContents c : Contents) : Contents :=
  setClipsSameType (setMirrored c (mirrorInside mapContents)) (clipsSameType mapContents)

/-- The per-brush part of `Brush_LoadEntity` (qbsp/brush.cc:741-844) for a Quake-like game:
`none` when the brush is skipped, otherwise the contents it enters the build with.  `hull` is
`hullnum` (`none` = nullopt), `cls` the class of the source entity, `world` whether the
destination entity is the world.  Regions, `_super_detail` and the geometric part (`LoadBrush`)
only drop brushes and are not modelled. -/
def loadBrushContents (o : Options) (hull : Option Nat) (cls : EntClass) (world : Bool)
    (b : MapBrush) : Outcome (Option Contents) :=
  let cls := if o.nodetail then EntClass.other else cls
  let mapContents := brushGetContents o.transwater b
  let c := if o.nodetail then clearDetail mapContents else mapContents
  if isOrigin c then .error
  else if omitted o cls c then .ok none
  else .ok ((adjust o hull cls world b.isHint c).map (reapply mapContents))

/-- The contents of the leafs of a tree built from the given brushes and then changed by the later
passes: `LeafNode` combines the brushes of a leaf (qbsp/brushbsp.cc:348-357); outside filling and
pruning replace a leaf's contents by solid (qbsp/outside.cc:480-509, qbsp/tree.cc:88-153); detail
filling by detail solid (qbsp/outside.cc:516-540). -/
inductive LeafOf (brushes : List Contents) : Contents → Prop
  | built (l : List Contents) (h : ∀ c ∈ l, c ∈ brushes) : LeafOf brushes (leafContents combine l)
  | filled : LeafOf brushes SOLID
  | detailFilled : LeafOf brushes detailSolid

end Verif.Contents.Q1
