import Verif.Tree.Planes
import Verif.Contents.Model

/-!
Model of BSP trees in qbsp and of the trees in a BSP file: pruning (qbsp/tree.cc:86-167), export of clip nodes, nodes
and leafs (qbsp/writebsp.cc:37-316), and the walks of a point down a tree (common/bsputils.cc:257-283, 429-490, 760-777;
qbsp/outside.cc:75-102).

Simplifications: bounding boxes are reduced to the flag whether they were assigned; 32-bit indices do not wrap.
-/

namespace Verif.Tree

open Geom Contents

/-- `bspbrush_t`: a piece of a brush (`id` is its address) and the brush of the map it comes from. -/
structure Brush where
  id : Nat
  mapbrush : Nat
  deriving DecidableEq

/-- A face marked by a leaf: the flags of its texinfo and the output numbers of its fragments. -/
structure MarkFace where
  nodraw : Bool
  light : Bool
  fragments : List (Option Nat)
  deriving DecidableEq

/-- `leafdata_t` and the data of `node_t` that a leaf uses (include/qbsp/qbsp.hh:410-437). -/
structure Leaf where
  contents : Contents
  markfaces : List MarkFace
  brushes : List Brush
  area : Int
  firstleafbrush : Nat
  numleafbrushes : Nat
  viscluster : Int
  bounded : Bool
  deriving DecidableEq

/-- `nodedata_t` and the data of `node_t` (include/qbsp/qbsp.hh:395-437). -/
structure NodeData where
  planenum : Nat
  firstface : Int
  numfaces : Int
  viscluster : Int
  bounded : Bool
  deriving DecidableEq

/-- `node_t`: a leaf, or a node with its front child and its back child. -/
inductive Bsp where
  | leaf (l : Leaf)
  | node (d : NodeData) (front back : Bsp)
  deriving DecidableEq

/-! ## Pruning -/

/-- `std::unique`: of equal neighbours only the first is kept. -/
def unique : List Brush → List Brush
  | a :: b :: l => if a = b then unique (a :: l) else a :: unique (b :: l)
  | l => l
termination_by l => l.length

/-- The brushes of the leaf that `ConvertNodeToLeaf` makes (qbsp/tree.cc:92-101). `sort`: `std::sort` by the brush of
the map. -/
def mergeBrushes (sort : List Brush → List Brush) (a b : List Brush) : List Brush :=
  unique (sort (if a.length > b.length then a ++ b else b ++ a))

/-- `ConvertNodeToLeaf` (qbsp/tree.cc:88-107). `make_leaf` starts from a value-initialized leaf. -/
def toLeaf (sort : List Brush → List Brush) (d : NodeData) (a b : Leaf) (c : Contents) : Leaf :=
  { contents := c, markfaces := [], brushes := mergeBrushes sort a.brushes b.brushes, area := 0, firstleafbrush := 0,
    numleafbrushes := 0, viscluster := d.viscluster, bounded := d.bounded }

/-- `contents_are_any_solid`, the same in all games (common/bspfile.cc:377-380, 1091-1094). -/
def anySolid (c : Contents) : Bool := tst c SOLID

/-- What pruning does to a leaf (qbsp/tree.cc:121-127). -/
def pruneLeaf (q2 : Bool) (l : Leaf) : Leaf :=
  if !q2 && Q1.isDetailWall l.contents then { l with contents := SOLID } else l

/-- The end of `PruneNodes_R` for a node whose children are pruned (qbsp/tree.cc:136-140). -/
def pruneNode (sort : List Brush → List Brush) (d : NodeData) (f b : Bsp) : Bsp × Nat :=
  match f, b with
  | .leaf lf, .leaf lb =>
    if anySolid lf.contents && anySolid lb.contents then (.leaf (toLeaf sort d lf lb SOLID), 1)
    else (.node d (.leaf lf) (.leaf lb), 0)
  | f, b => (.node d f b, 0)

/-- `PruneNodes_R` (qbsp/tree.cc:119-153): the tree and the number of nodes pruned. The two children are pruned in
parallel; they share no data but the counter, which is atomic. -/
def prune (q2 : Bool) (sort : List Brush → List Brush) : Bsp → Bsp × Nat
  | .leaf l => (.leaf (pruneLeaf q2 l), 0)
  | .node d f b =>
    let rf := prune q2 sort f
    let rb := prune q2 sort b
    let r := pruneNode sort d rf.1 rb.1
    (r.1, rf.2 + rb.2 + r.2)

/-! ## Export -/

/-- `bsp2_dclipnode_t`. -/
structure ClipNode where
  planenum : Nat
  c0 : Int
  c1 : Int
  deriving DecidableEq

/-- `bsp2_dnode_t`. -/
structure DNode where
  planenum : Nat
  c0 : Int
  c1 : Int
  firstface : Int
  numfaces : Int
  deriving DecidableEq

/-- `mleaf_t`. -/
structure DLeaf where
  contents : Int
  firstmark : Nat
  nummark : Nat
  area : Int
  cluster : Int
  firstbrush : Nat
  numbrush : Nat
  deriving DecidableEq

/-- The data that the export reads and writes: `map.planes` and the arrays of `map.bsp`. -/
structure St (K : Type) where
  planes : List (MapPlane K)
  dplanes : List (DPlane K)
  dclipnodes : List ClipNode
  dnodes : List DNode
  dleafs : List DLeaf
  dleaffaces : List Nat

/-- The options that the export reads: the game, `-includeskip`, and whether there is a leak file or a region
(qbsp/writebsp.cc:214). -/
structure Opts where
  q2 : Bool
  includeskip : Bool
  leak : Bool

variable {K : Type} [Field K] [LinearOrder K]

/-- `contents_to_native` of the game as the `int` it is stored in. -/
def toNative (q2 : Bool) (c : Contents) : Outcome Int :=
  if q2 then (Q2.toNative c) >>= fun v => .ok v.toInt else Q1.toNative c

/-- `contents_remap_for_export` of the game for a leaf. -/
def remap (q2 : Bool) (c : Contents) : Contents :=
  if q2 then Q2.remapForExport c true else Q1.remapForExport c

/-- `ExportMapPlane` (qbsp/writebsp.cc:40-54). -/
def exportPlane (rnd : K → K) (n : Nat) (st : St K) : Outcome (Nat × St K) := do
  let m ← Outcome.readAt st.planes n
  match m.outputnum with
  | some k => .ok (k, st)
  | none =>
    let k := st.dplanes.length
    .ok (k, { st with planes := st.planes.set n { m with outputnum := some k },
                      dplanes := st.dplanes ++ [toDPlane rnd m] })

/-- `ExportClipNodes(node)` (qbsp/writebsp.cc:113-137): the number and the state. -/
def exportClip (q2 : Bool) (rnd : K → K) : Bsp → St K → Outcome (Int × St K)
  | .leaf l, st => do
    let c ← toNative q2 l.contents
    .ok (c, st)
  | .node d f b, st => do
    let nodenum := st.dclipnodes.length
    let r0 ← exportClip q2 rnd f { st with dclipnodes := st.dclipnodes ++ [⟨0, 0, 0⟩] }
    let r1 ← exportClip q2 rnd b r0.2
    let rp ← exportPlane rnd d.planenum r1.2
    let cl ← Outcome.writeAt rp.2.dclipnodes nodenum ⟨rp.1, r0.1, r1.1⟩
    .ok ((nodenum : Int), { rp.2 with dclipnodes := cl })

/-- The faces that a leaf marks in the file (qbsp/writebsp.cc:191-207). -/
def markedFaces (o : Opts) (l : Leaf) : List Nat :=
  l.markfaces.flatMap fun f =>
    if !o.includeskip && f.nodraw && (!o.q2 || !f.light) then [] else f.fragments.filterMap id

/-- `ExportLeaf` (qbsp/writebsp.cc:162-224). `contents_are_valid` with `strict` false is constantly true
(common/bspfile.cc:399-403, 1115-1127). The bit `Q2_CONTENTS_SOLID` is the lowest one. -/
def exportLeaf (o : Opts) (l : Leaf) (st : St K) : Outcome (St K) := do
  let c ← toNative o.q2 (remap o.q2 l.contents)
  if !l.bounded then .error
  else
    let marks := markedFaces o l
    let area := if c % 2 ≠ 0 then 0 else if o.leak then 1 else l.area
    .ok { st with dleafs := st.dleafs ++ [⟨c, st.dleaffaces.length, marks.length, area, l.viscluster,
                    l.firstleafbrush, l.numleafbrushes⟩],
                  dleaffaces := st.dleaffaces ++ marks }

/-- `dnode->children[i] = n`. -/
def setChild (idx : Nat) (i : Fin 2) (n : Int) (st : St K) : Outcome (St K) := do
  let dn ← Outcome.readAt st.dnodes idx
  let dn' := if i = 0 then { dn with c0 := n } else { dn with c1 := n }
  .ok { st with dnodes := st.dnodes.set idx dn' }

/-- The export of a child that is a leaf (qbsp/writebsp.cc:250-262). -/
def exportLeafChild (o : Opts) (idx : Nat) (i : Fin 2) (l : Leaf) (st : St K) : Outcome (St K) :=
  if !o.q2 && anySolid l.contents then setChild idx i (-1) st
  else do
    let st' ← setChild idx i (-((st.dleafs.length : Int) + 1)) st
    exportLeaf o l st'

/-- `ExportDrawNodes(node)` (qbsp/writebsp.cc:234-279). A leaf has no node data: the null pointer is dereferenced. -/
def exportDraw (o : Opts) (rnd : K → K) : Bsp → St K → Outcome (St K)
  | .leaf _, _ => .ub
  | .node d f b, st => do
    let idx := st.dnodes.length
    let rp ← exportPlane rnd d.planenum st
    let st := { rp.2 with dnodes := rp.2.dnodes ++ [⟨rp.1, 0, 0, d.firstface, d.numfaces⟩] }
    let st ← (match f with
      | .leaf l => exportLeafChild o idx 0 l st
      | .node .. => do
        let st' ← setChild idx 0 st.dnodes.length st
        exportDraw o rnd f st')
    let st ← (match b with
      | .leaf l => exportLeafChild o idx 1 l st
      | .node .. => do
        let st' ← setChild idx 1 st.dnodes.length st
        exportDraw o rnd b st')
    let dn ← Outcome.readAt st.dnodes idx
    if dn.c0 = -1 ∧ dn.c1 = -1 then .error
    else if dn.c0 = dn.c1 then .error
    else .ok st

/-- `ExportDrawNodes(entity, headnode, firstface)` (qbsp/writebsp.cc:286-316): the head node, the number of leafs and
the state. -/
def exportModel (o : Opts) (rnd : K → K) (t : Bsp) (st : St K) : Outcome (Int × Nat × St K) := do
  let head : Int := st.dnodes.length
  let st' ← (match t with
    | .leaf l => exportLeaf o l st
    | .node .. => exportDraw o rnd t st)
  .ok (head, st'.dleafs.length - st.dleafs.length, st')

/-- `BeginBSPFile` (qbsp/writebsp.cc:325-339): the leaf 0. -/
def beginLeaf (q2 : Bool) : Outcome DLeaf := do
  let c ← toNative q2 SOLID
  .ok ⟨c, 0, 0, 0, -1, 0, 0⟩

/-! ## Walks -/

/-- `BSP_GetLeafFromNodeNum` (common/bsputils.cc:57-69): the number of the leaf, after the check. -/
def leafFromNode (dleafs : List DLeaf) (n : Int) : Outcome (Nat × DLeaf) :=
  match dleafs[(-1 - n).toNat]? with
  | some l => .ok ((-1 - n).toNat, l)
  | none => .error

/-- `BSP_FindLeafAtPoint_r` (common/bsputils.cc:429-443). `none`: the recursion did not end within `fuel` calls. -/
def findLeaf (dplanes : List (DPlane K)) (dnodes : List DNode) (dleafs : List DLeaf) (p : Vec K) :
    Nat → Int → Option (Outcome (Nat × DLeaf))
  | 0, _ => none
  | fuel + 1, n =>
    if n < 0 then some (leafFromNode dleafs n)
    else
      match dnodes[n.toNat]? with
      | none => some .ub
      | some node =>
        match dplanes[node.planenum]? with
        | none => some .ub
        | some pl =>
          if pl.distFast p ≥ 0 then findLeaf dplanes dnodes dleafs p fuel node.c0
          else findLeaf dplanes dnodes dleafs p fuel node.c1

/-- `clipnode_info_t`: the parent (-1 for none), the side (`true` for front) and the contents. -/
structure ClipInfo where
  parent : Int
  side : Bool
  contents : Int
  deriving DecidableEq

/-- `BSP_FindClipnodeAtPoint_r` (common/bsputils.cc:450-470). -/
def findClip (dplanes : List (DPlane K)) (dclipnodes : List ClipNode) (p : Vec K) :
    Nat → Int → Bool → Int → Option (Outcome ClipInfo)
  | 0, _, _, _ => none
  | fuel + 1, parent, side, n =>
    if n < 0 then some (.ok ⟨parent, side, n⟩)
    else
      match dclipnodes[n.toNat]? with
      | none => some .error
      | some node =>
        match dplanes[node.planenum]? with
        | none => some .ub
        | some pl =>
          if pl.distFast p ≥ 0 then findClip dplanes dclipnodes p fuel n true node.c0
          else findClip dplanes dclipnodes p fuel n false node.c1

/-- The test of the contents of a leaf in `Light_PointInSolid_r` (common/bsputils.cc:262-267). -/
def leafSolid (q2 : Bool) (l : DLeaf) : Bool :=
  if q2 then l.contents % 2 ≠ 0 else l.contents = -2 ∨ l.contents = -6

/-- `Light_PointInSolid_r` (common/bsputils.cc:257-280); `tol` is 0.1. -/
def pointInSolid (q2 : Bool) (tol : K) (dplanes : List (DPlane K)) (dnodes : List DNode) (dleafs : List DLeaf)
    (p : Vec K) : Nat → Int → Option (Outcome Bool)
  | 0, _ => none
  | fuel + 1, n =>
    if n < 0 then some (leafFromNode dleafs n >>= fun r => .ok (leafSolid q2 r.2))
    else
      match dnodes[n.toNat]? with
      | none => some .ub
      | some node =>
        match dplanes[node.planenum]? with
        | none => some .ub
        | some pl =>
          if pl.distFast p > tol then pointInSolid q2 tol dplanes dnodes dleafs p fuel node.c0
          else if pl.distFast p < -tol then pointInSolid q2 tol dplanes dnodes dleafs p fuel node.c1
          else
            match pointInSolid q2 tol dplanes dnodes dleafs p fuel node.c0 with
            | some (.ok false) => pointInSolid q2 tol dplanes dnodes dleafs p fuel node.c1
            | r => r

/-- `BSP_VisitAllLeafs_R` (common/bsputils.cc:760-772): the numbers of the leafs in the order of the visits. -/
def visitLeafs (dnodes : List DNode) (dleafs : List DLeaf) : Nat → Int → Option (Outcome (List Nat))
  | 0, _ => none
  | fuel + 1, n =>
    if n < 0 then some (leafFromNode dleafs n >>= fun r => .ok [r.1])
    else
      match dnodes[n.toNat]? with
      | none => some .error
      | some node =>
        match visitLeafs dnodes dleafs fuel node.c0 with
        | some (.ok a) =>
          match visitLeafs dnodes dleafs fuel node.c1 with
          | some (.ok b) => some (.ok (a ++ b))
          | r => r
        | r => r

/-- `LeafSealsMap` (qbsp/outside.cc:39-45). -/
def sealsMap (q2 : Bool) (l : Leaf) : Bool := if q2 then Q2.sealsMap l.contents else Q1.sealsMap l.contents

/-- `PointInLeaf` (qbsp/outside.cc:75-102). `plane`: the plane of a number. -/
def pointInLeaf (q2 : Bool) (plane : Nat → Plane K) (preferSealing : Bool) (p : Vec K) : Bsp → Leaf
  | .leaf l => l
  | .node d f b =>
    if (plane d.planenum).distTo p > 0 then pointInLeaf q2 plane preferSealing p f
    else if (plane d.planenum).distTo p < 0 then pointInLeaf q2 plane preferSealing p b
    else
      let front := pointInLeaf q2 plane preferSealing p f
      let back := pointInLeaf q2 plane preferSealing p b
      if preferSealing = sealsMap q2 front then front else back

end Verif.Tree
