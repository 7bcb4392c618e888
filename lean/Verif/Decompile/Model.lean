import Verif.Tree.Model
import Verif.BrushBsp.Windings

/-!
Model of the decompiler (common/decompile.cc): the brushes of the leafs of a tree (lines 794-808, 986-1089), the removal
of redundant planes (lines 235-260, 642-696), the cutting of brushes with more than one texture to a side (lines 264-505,
615-792), the sides that are written (lines 46-130, 148-187), the textures of sides without a face (lines 1290-1329) and the
keys of entities (lines 1109-1177).

Simplifications: arithmetic is exact, also where the code uses `float`. `qv::normalize`, the base polygon of a plane and
the planes of the edges of a polygon are parameters. Leafs are decompiled in parallel; they share no data, so they are
decompiled in order. Where the texture of a face is looked up in the file is left out.
-/

namespace Verif.Decompile

open Geom Tree

variable {K : Type} [Field K] [LinearOrder K]

/-! ## The leafs of a tree -/

/-- `decomp_plane_t` (common/decompile.cc:226-231): a plane that faces out of the brush, and the node or the side of a
brush that it comes from. -/
structure DecPlane (K : Type) where
  plane : Plane K
  node : Option Nat
  source : Option Nat
  deriving DecidableEq

/-- `leaf_decompile_task` (common/decompile.cc:341-348) of a leaf or of a leaf of clip nodes. -/
structure Task (K : Type) where
  planes : List (DecPlane K)
  contents : Int
  leaf : Option Nat
  deriving DecidableEq

/-- `AddMapBoundsToStack` (common/decompile.cc:1069-1089). -/
def boundsPlanes (mins maxs : Vec K) : List (DecPlane K) :=
  [⟨⟨⟨1, 0, 0⟩, maxs.x⟩, none, none⟩, ⟨⟨⟨-1, 0, 0⟩, -mins.x⟩, none, none⟩,
   ⟨⟨⟨0, 1, 0⟩, maxs.y⟩, none, none⟩, ⟨⟨⟨0, -1, 0⟩, -mins.y⟩, none, none⟩,
   ⟨⟨⟨0, 0, 1⟩, maxs.z⟩, none, none⟩, ⟨⟨⟨0, 0, -1⟩, -mins.z⟩, none, none⟩]

/-- `DecompileLeaf` (common/decompile.cc:799-808). `CONTENTS_EMPTY` is -1. -/
def leafTask (dleafs : List DLeaf) (stack : List (DecPlane K)) (n : Int) : Outcome (List (Task K)) :=
  leafFromNode dleafs n >>= fun r => .ok (if r.2.contents = -1 then [] else [⟨stack, r.2.contents, some r.1⟩])

/-- `DecompileNode` and the choice between a leaf and a node (common/decompile.cc:986-1032). `none`: the recursion did not
end within `fuel` calls. -/
def gather (dplanes : List (DPlane K)) (dnodes : List DNode) (dleafs : List DLeaf) :
    Nat → List (DecPlane K) → Int → Option (Outcome (List (Task K)))
  | 0, _, _ => none
  | fuel + 1, stack, n =>
    if n < 0 then some (leafTask dleafs stack n)
    else
      match dnodes[n.toNat]? with
      | none => some .error
      | some node =>
        match dplanes[node.planenum]? with
        | none => some .error
        | some pl =>
          match gather dplanes dnodes dleafs fuel (stack ++ [⟨negPlane pl.plane, some n.toNat, none⟩]) node.c0 with
          | some (.ok a) =>
            match gather dplanes dnodes dleafs fuel (stack ++ [⟨pl.plane, some n.toNat, none⟩]) node.c1 with
            | some (.ok b) => some (.ok (a ++ b))
            | r => r
          | r => r

/-- The tasks of a model (common/decompile.cc:1253-1261). -/
def modelTasks (dplanes : List (DPlane K)) (dnodes : List DNode) (dleafs : List DLeaf) (mins maxs : Vec K) (fuel : Nat)
    (head : Int) : Option (Outcome (List (Task K))) :=
  if head < 0 then some .error else gather dplanes dnodes dleafs fuel (boundsPlanes mins maxs) head

/-- `DecompileClipLeaf` (common/decompile.cc:1034-1043). -/
def clipLeafTask (stack : List (DecPlane K)) (n : Int) : List (Task K) :=
  if n = -1 then [] else [⟨stack, n, none⟩]

/-- `DecompileClipNode` (common/decompile.cc:1045-1067). -/
def gatherClip (dplanes : List (DPlane K)) (dclipnodes : List ClipNode) :
    Nat → List (DecPlane K) → Int → Option (Outcome (List (Task K)))
  | 0, _, _ => none
  | fuel + 1, stack, n =>
    if n < 0 then some (.ok (clipLeafTask stack n))
    else
      match dclipnodes[n.toNat]? with
      | none => some .ub
      | some node =>
        match dplanes[node.planenum]? with
        | none => some .error
        | some pl =>
          match gatherClip dplanes dclipnodes fuel (stack ++ [⟨negPlane pl.plane, none, none⟩]) node.c0 with
          | some (.ok a) =>
            match gatherClip dplanes dclipnodes fuel (stack ++ [⟨pl.plane, none, none⟩]) node.c1 with
            | some (.ok b) => some (.ok (a ++ b))
            | r => r
          | r => r

/-- The tasks of a hull of a model (common/decompile.cc:1187-1194): the clip node with the number of the head is read
without a test. -/
def hullTasks (dplanes : List (DPlane K)) (dclipnodes : List ClipNode) (mins maxs : Vec K) (fuel : Nat) (head : Int) :
    Option (Outcome (List (Task K))) :=
  if head < 0 then some .ub else gatherClip dplanes dclipnodes fuel (boundsPlanes mins maxs) head

/-! ## Redundant planes -/

/-- A polygon clipped by planes that face out: what is behind all of them is kept (common/decompile.cc:243-255,
658-676). -/
def clipAll (eps : K) : List (DecPlane K) → List (Vec K) → Option (List (Vec K))
  | [], w => some w
  | q :: l, w =>
    match clipFront (negPlane q.plane) eps false w with
    | none => none
    | some w' => clipAll eps l w'

/-- `std::remove_if` with the test of `RemoveRedundantPlanes` (common/decompile.cc:235-260) from the plane number `i` on.
The planes that are kept are moved to the front of the vector while the test still looks at all of it: it sees the
planes kept so far, then what is left in the places behind them, then the planes to come. -/
def removeLoop (eps : K) (base : Plane K → List (Vec K)) (all : List (DecPlane K)) :
    Nat → List (DecPlane K) → List (DecPlane K) → List (DecPlane K)
  | _, kept, [] => kept
  | i, kept, p :: rest =>
    let others := kept ++ ((all.drop kept.length).take (i - kept.length) ++ rest)
    if (clipAll eps others (base p.plane)).isNone then removeLoop eps base all (i + 1) kept rest
    else removeLoop eps base all (i + 1) (kept ++ [p]) rest

/-- `RemoveRedundantPlanes` (common/decompile.cc:235-260). -/
def removeRedundant (eps : K) (base : Plane K → List (Vec K)) (planes : List (DecPlane K)) : List (DecPlane K) :=
  removeLoop eps base planes 0 [] planes

/-- The loop of `BuildInitialBrush_Q2` (common/decompile.cc:642-696), which goes from the last plane to the first:
`before` are the planes to come, the last one first, `used` the planes behind that were not clipped away, in their order.
`thin`: fewer than three points are left by `remove_colinear`. The result are the planes that get a side, and their
polygons. -/
def q2Loop (eps : K) (base : Plane K → List (Vec K)) (thin : List (Vec K) → Bool) :
    List (DecPlane K) → List (DecPlane K) → List (DecPlane K × List (Vec K))
  | _, [] => []
  | used, p :: before =>
    match clipAll eps (before.reverse ++ used) (base p.plane) with
    | none => q2Loop eps base thin used before
    | some w =>
      if thin w then q2Loop eps base thin (p :: used) before
      else (p, w) :: q2Loop eps base thin (p :: used) before

/-- `BuildInitialBrush_Q2` (common/decompile.cc:642-696). -/
def q2Sides (eps : K) (base : Plane K → List (Vec K)) (thin : List (Vec K) → Bool) (planes : List (DecPlane K)) :
    List (DecPlane K × List (Vec K)) :=
  q2Loop eps base thin [] planes.reverse

/-! ## Sides with more than one texture -/

/-- `decomp_brush_face_t` (common/decompile.cc:264-339): the part of a face that is on the brush and the number of its
texture definition. -/
structure BFace (K : Type) where
  w : List (Vec K)
  texinfo : Nat
  deriving DecidableEq

/-- `decomp_brush_side_t` (common/decompile.cc:383-453). -/
structure BSide (K : Type) where
  plane : DecPlane K
  faces : List (BFace K)
  deriving DecidableEq

/-- `decomp_brush_side_t::clipToPlane` (common/decompile.cc:434-452) and `decomp_brush_face_t::clipToPlane`
(common/decompile.cc:324-336). -/
def BSide.clip (eps : K) (pl : Plane K) (s : BSide K) : BSide K × BSide K :=
  (⟨s.plane, s.faces.filterMap fun f => (Geom.clip pl eps false f.w).1.map fun w => ⟨w, f.texinfo⟩⟩,
   ⟨s.plane, s.faces.filterMap fun f => (Geom.clip pl eps false f.w).2.map fun w => ⟨w, f.texinfo⟩⟩)

/-- `decomp_brush_t::clipToPlane` (common/decompile.cc:464-486). -/
def clipBrush (eps : K) (pl : Plane K) (sides : List (BSide K)) : List (BSide K) × List (BSide K) :=
  (sides.map (fun s => (s.clip eps pl).1) ++ [⟨⟨negPlane pl, none, none⟩, []⟩],
   sides.map (fun s => (s.clip eps pl).2) ++ [⟨⟨pl, none, none⟩, []⟩])

/-- `BuildInitialBrush` (common/decompile.cc:615-640): the faces of each side clipped by the other planes. `facesOn`: what
`BuildDecompFacesOnPlane` finds for a plane. A plane is told from the others by its number. -/
def initialBrush (eps : K) (facesOn : DecPlane K → List (BFace K)) (planes : List (DecPlane K)) : List (BSide K) :=
  planes.zipIdx.map fun p =>
    planes.zipIdx.foldl (fun s q => if q.2 = p.2 then s else (s.clip eps q.1.plane).2) ⟨p.1, facesOn p.1⟩

/-- `SideNeedsSplitting` (common/decompile.cc:698-714). -/
def needsSplit (s : BSide K) : Bool :=
  match s.faces with
  | [] => false
  | f :: rest => rest.any fun g => g.texinfo != f.texinfo

/-- The plane with nothing but zeros. -/
def zeroPlane : Plane K := ⟨⟨0, 0, 0⟩, 0⟩

/-- One candidate of `SuggestSplit` (common/decompile.cc:725-744): the best plane so far and the number of faces that it
leaves, `none` for `SIZE_MAX`. -/
def tryPlane (eps : K) (s : BSide K) (best : Plane K × Option Nat) (pl : Plane K) : Plane K × Option Nat :=
  let c := s.clip eps pl
  if c.1.faces = [] then best
  else if c.2.faces = [] then best
  else
    let n := c.1.faces.length + c.2.faces.length
    if (match best.2 with
        | none => true
        | some m => decide (n < m)) then (pl, some n) else best

/-- `SuggestSplit` (common/decompile.cc:716-751). `edgePlanes`: `MakeInwardFacingEdgePlanes`. -/
def suggest (eps : K) (edgePlanes : List (Vec K) → List (Plane K)) (s : BSide K) : Plane K :=
  ((s.faces.flatMap fun f => edgePlanes f.w).foldl (tryPlane eps s) (zeroPlane, none)).1

/-- `SplitDifferentTexturedPartsOfBrush_R` (common/decompile.cc:753-774): the brushes that are put out and, for the
specification, the ones that are not because no split was found. `none`: out of fuel. -/
def splitR (eps : K) (edgePlanes : List (Vec K) → List (Plane K)) :
    Nat → List (BSide K) → Option (List (List (BSide K)) × List (List (BSide K)))
  | 0, _ => none
  | fuel + 1, sides =>
    match sides.find? needsSplit with
    | none => some ([sides], [])
    | some s =>
      if suggest eps edgePlanes s = zeroPlane then some ([], [sides])
      else
        match splitR eps edgePlanes fuel (clipBrush eps (suggest eps edgePlanes s) sides).1,
              splitR eps edgePlanes fuel (clipBrush eps (suggest eps edgePlanes s) sides).2 with
        | some a, some b => some (a.1 ++ b.1, a.2 ++ b.2)
        | _, _ => none

/-! ## What is written -/

/-- `qv::indexOfLargestMagnitudeComponent` (include/common/qvec.hh:537-553). -/
def largest (n : Vec K) : Fin 3 :=
  if |n.y| > |n.x| then (if |n.z| > |n.y| then 2 else 1) else (if |n.z| > |n.x| then 2 else 0)

/-- The vectors along the other two axes (include/common/qvec.hh:559-568). -/
def otherA (i : Fin 3) : Vec K := if i = 0 then ⟨0, 1, 0⟩ else if i = 1 then ⟨0, 0, 1⟩ else ⟨1, 0, 0⟩
def otherB (i : Fin 3) : Vec K := if i = 0 then ⟨0, 0, 1⟩ else if i = 1 then ⟨1, 0, 0⟩ else ⟨0, 1, 0⟩

/-- `qv::MakeTangentAndBitangentUnnormalized` (include/common/qvec.hh:555-592). -/
def tangents (n : Vec K) : Vec K × Vec K :=
  let t := BrushBsp.cross n (otherA (largest n))
  let b := BrushBsp.cross n (otherB (largest n))
  if dot (BrushBsp.cross t b) n < 0 then (b, t) else (t, b)

def vadd (a b : Vec K) : Vec K := ⟨a.x + b.x, a.y + b.y, a.z + b.z⟩
def vsub (a b : Vec K) : Vec K := ⟨a.x - b.x, a.y - b.y, a.z - b.z⟩
def vmul (c : K) (a : Vec K) : Vec K := ⟨c * a.x, c * a.y, c * a.z⟩

/-- `NormalDistanceToThreePoints` (common/decompile.cc:116-124). -/
def threePoints (pl : Plane K) : Vec K × Vec K × Vec K :=
  let p0 := vmul pl.dist pl.normal
  (p0, vadd p0 (tangents pl.normal).2, vadd p0 (tangents pl.normal).1)

/-- One axis of `texdef_valve_t` (common/decompile.cc:46-88). -/
structure ValveAxis (K : Type) where
  axis : Vec K
  shift : K
  scale : K
  deriving DecidableEq

/-- The axis of a row of the texture vectors (common/decompile.cc:68-87). `len`: the length of a vector. -/
def valveOf (len : Vec K → K) (v : Vec K) (d : K) : ValveAxis K :=
  let l := len v
  ⟨if l = 0 then v else vmul (1 / l) v, d, if l ≠ 0 then 1 / l else 0⟩

/-- `compiled_brush_side_t` as it is written (common/decompile.cc:160-187). -/
structure Written (K : Type) where
  p0 : Vec K
  p1 : Vec K
  p2 : Vec K
  s : ValveAxis K
  t : ValveAxis K

/-- The axis of a side of a brush that is moved (common/decompile.cc:175-176). -/
def moveAxis (o : Vec K) (a : ValveAxis K) : ValveAxis K := { a with shift := a.shift - dot o a.axis }

/-- One side of `compiled_brush_t::write` (common/decompile.cc:160-187). `w`: the first three points of the polygon, if
it is there and has an area of more than 1. -/
def writeSide (w : Option (Vec K × Vec K × Vec K)) (pl : Plane K) (s t : ValveAxis K) (offset : Option (Vec K)) :
    Written K :=
  let p := w.getD (threePoints pl)
  match offset with
  | none => ⟨p.1, p.2.1, p.2.2, s, t⟩
  | some o => ⟨vadd p.1 o, vadd p.2.1 o, vadd p.2.2 o, moveAxis o s, moveAxis o t⟩

/-! ## Textures of sides without a face -/

/-- A side as far as the last step needs it: its normal and its texture. -/
structure TSide (K : Type) where
  normal : Vec K
  tex : String
  deriving DecidableEq

/-- One candidate in the search for the side that faces the other way (common/decompile.cc:1305-1320). `i`: the number of
the side in want of a texture. -/
def nearer (skip : String) (n : Vec K) (i : Nat) (best : Option (K × String)) (c : TSide K × Nat) : Option (K × String) :=
  if c.2 = i then best
  else if c.1.tex = skip then best
  else
    let d := dot (negVec n) c.1.normal
    match best with
    | none => some (d, c.1.tex)
    | some b => if d > b.1 then some (d, c.1.tex) else best

/-- The texture that a side gets (common/decompile.cc:1296-1326), given all sides as they are now. -/
def textureFor (skip dflt : String) (sides : List (TSide K)) (s : TSide K) (i : Nat) : String :=
  if s.tex ≠ skip then s.tex
  else
    match sides.zipIdx.foldl (nearer skip s.normal i) none with
    | some b => b.2
    | none => dflt

/-- The loop over the sides of a brush (common/decompile.cc:1295-1327): `done` are the sides with the textures they have
by now. -/
def fillLoop (skip dflt : String) : List (TSide K) → List (TSide K) → List (TSide K)
  | done, [] => done
  | done, s :: rest =>
    fillLoop skip dflt (done ++ [{ s with tex := textureFor skip dflt (done ++ s :: rest) s done.length }]) rest

def fillTextures (skip dflt : String) (sides : List (TSide K)) : List (TSide K) := fillLoop skip dflt [] sides

/-! ## Keys of entities -/

/-- What the loop over the keys finds (common/decompile.cc:1147-1177): the keys that are printed, the number of the model
and the offset of its brushes. -/
structure Keys (K : Type) where
  printed : List (String × String)
  modelNum : Int
  offset : Option (Vec K)

/-- One round of the loop (common/decompile.cc:1149-1176). `atoi`, `vec`: how numbers and the three numbers of an origin
are read. -/
def keyStep (atoi : String → Int) (vec : String → Vec K) (portal : Bool) (st : Keys K) (kv : String × String) : Keys K :=
  if kv.1 = "model" ∧ kv.2.toList.head? = some '*' then { st with modelNum := atoi (String.ofList kv.2.toList.tail) }
  else if portal = true ∧ kv.1 = "style" then st
  else if st.modelNum > 0 ∧ kv.1 = "origin" then
    if vec kv.2 ≠ ⟨0, 0, 0⟩ then { st with offset := some (vec kv.2) } else st
  else { st with printed := st.printed ++ [kv] }

/-- The first value of a key; `none` for the end of the dictionary. -/
def findKey (dict : List (String × String)) (k : String) : Option String := (dict.find? fun p => p.1 = k).map (·.2)

/-- `DecompileEntity` up to the brushes (common/decompile.cc:1109-1177): `none` for a `func_group`, which is left out.
`portal`: the brush of an area portal was found. The value of the class name is read without a test. -/
def entityKeys (atoi : String → Int) (vec : String → Vec K) (portal isWorld : Bool) (dict : List (String × String)) :
    Outcome (Option (Keys K)) :=
  match findKey dict "classname" with
  | none => .ub
  | some c =>
    if c = "func_group" then .ok none
    else .ok (some (dict.foldl (keyStep atoi vec (portal && c == "func_areaportal")) ⟨[], if isWorld then 0 else -1, none⟩))

/-- The brush of an area portal (common/decompile.cc:1121-1141): the number of the brush, given which brushes are area
portals and the value of `style` as a `size_t`. -/
def portalBrush : List Bool → Nat → Nat → Option Nat
  | [], _, _ => none
  | a :: l, i, n =>
    if a then (if n = 1 then some i else portalBrush l (i + 1) (if n = 0 then 2 ^ 64 - 1 else n - 1))
    else portalBrush l (i + 1) n

end Verif.Decompile
