import Verif.Geom.Model
import Verif.Common.Outcome
import Mathlib.Algebra.Order.Floor.Ring

/-!
Model of the faces that qbsp makes from portals (qbsp/faces.cc), cuts to the size of a lightmap and hands to the leafs that
they touch; and of how faces are cut by a plane (qbsp/csg.cc).

Simplification: `double` is replaced by an ordered field `K`, that is, arithmetic is exact.
-/

namespace Verif.Surfaces

open Verif.Geom

variable {K : Type} [Field K] [LinearOrder K]

/-- `face_t` (include/qbsp/qbsp.hh): the polygon, the ball around it, and what a part of a face takes from it
(`planenum`, `texinfo`, the contents on both sides, `original_side`). Sides, texinfos and contents are named by numbers. -/
structure Face (K : Type) where
  w : List (Vec K)
  origin : Vec K
  radius : K
  planenum : Nat
  texinfo : Nat
  contents : Nat × Nat
  side : Nat

/-- `NewFaceFromFace` (qbsp/csg.cc:49-62) followed by setting the polygon, as in `SplitFace` (qbsp/csg.cc:114-118) and
`CopyFace` (qbsp/csg.cc:64-69). The ball is that of the face it is made from. -/
def newFace (f : Face K) (w : List (Vec K)) : Face K :=
  { w := w, origin := f.origin, radius := f.radius, planenum := f.planenum, texinfo := f.texinfo,
    contents := f.contents, side := f.side }

/-- `SplitFace` (qbsp/csg.cc:88-121): the parts of a face in front of a plane and behind it. First the ball around the
face is tested. The last case, in which `value` throws, is never met: `clip` returns one part at least. -/
def splitFace (eps : K) (f : Face K) (pl : Plane K) : Option (Face K) × Option (Face K) :=
  if f.radius < pl.distTo f.origin then (some f, none)
  else if pl.distTo f.origin < -f.radius then (none, some f)
  else
    match clip pl eps true f.w with
    | (some _, none) => (some f, none)
    | (none, some _) => (none, some f)
    | (some a, some b) => (some (newFace f a), some (newFace f b))
    | (none, none) => (none, none)

/-- The sum of points. -/
def sumVec : List (Vec K) → Vec K
  | [] => ⟨0, 0, 0⟩
  | v :: l => ⟨v.x + (sumVec l).x, v.y + (sumVec l).y, v.z + (sumVec l).z⟩

/-- The difference of points. -/
def subVec (a b : Vec K) : Vec K := ⟨a.x - b.x, a.y - b.y, a.z - b.z⟩

/-- `UpdateFaceSphere` (qbsp/csg.cc:71-79): the middle of the vertices and the largest distance to one of them. `sqrt`: the
square root. -/
def updateSphere (sqrt : K → K) (f : Face K) : Face K :=
  let n : K := f.w.length
  let s := sumVec f.w
  let o : Vec K := ⟨s.x / n, s.y / n, s.z / n⟩
  { f with
    origin := o
    radius := sqrt (f.w.foldl (fun r v => max r (dot (subVec v o) (subVec v o))) 0) }

/-! ### Cutting faces to the size of a lightmap -/

/-- The smallest and the largest product of a vertex with a direction (qbsp/faces.cc:397-408). -/
def range (t : Vec K) : List (Vec K) → Option (K × K)
  | [] => none
  | v :: l =>
    match range t l with
    | none => some (dot v t, dot v t)
    | some (a, b) => some (min a (dot v t), max b (dot v t))

section
variable [FloorRing K]

/-- `extent` (qbsp/faces.cc:410), `ceil(maxs) - floor(mins)`. -/
def extent (r : K × K) : Int := ⌈r.2⌉ - ⌊r.1⌋

/-- The plane that cuts a face (qbsp/faces.cc:418-428): along the direction, `subdiv - 16` after the smallest product.
`len`: `qv::length`. A direction of length 0 is left as it is by `normalizeInPlace` (include/common/qvec.hh:463-470). -/
def cutPlane (len : Vec K → K) (subdiv : Int) (t : Vec K) (mins : K) : Plane K :=
  let l := len t
  ⟨if l = 0 then t else ⟨t.x / l, t.y / l, t.z / l⟩, (mins + subdiv - 16) / l⟩

/-- The loop over the faces for one direction (qbsp/faces.cc:391-449): `surfaces` are still to be looked at, `chopped` are
small enough. `fuel`: the number of rounds; `none` if the loop has not ended after them. A face without vertices has the
extent `-2 * VECT_MAX` and is left as it is. -/
def chop (len : Vec K → K) (eps : K) (subdiv : Int) (t : Vec K) :
    Nat → List (Face K) → List (Face K) → Option (List (Face K))
  | _, [], chopped => some chopped
  | 0, _ :: _, _ => none
  | fuel + 1, f :: surfaces, chopped =>
    match range t f.w with
    | none => chop len eps subdiv t fuel surfaces (chopped ++ [f])
    | some r =>
      if extent r ≤ subdiv then chop len eps subdiv t fuel surfaces (chopped ++ [f])
      else
        match splitFace eps f (cutPlane len subdiv t r.1) with
        | (front, back) => chop len eps subdiv t fuel (surfaces ++ front.toList) (back.toList ++ chopped)

/-- What `SubdivideFace` looks at: the flags of the face's texinfo, whether the target game cuts faces with them
(`surf_is_subdivided`), the texture vectors and `lmshift` of the side. -/
structure Tex (K : Type) where
  isNodraw : Bool
  isHint : Bool
  isSubdivided : Bool
  s : Vec K
  t : Vec K
  lmshift : Nat

/-- The largest extent (qbsp/faces.cc:371-378). -/
def subdivOf (setting : Int) (lmshift : Nat) : Int := min setting ((255 : Int) * 2 ^ min lmshift 4)

/-- `SubdivideFace` (qbsp/faces.cc:350-455). `setting`: the value of `-subdivide`. -/
def subdivideFace (len : Vec K → K) (eps : K) (setting : Int) (tex : Tex K) (fuel : Nat) (f : Face K) :
    Option (List (Face K)) :=
  if tex.isNodraw || tex.isHint || !tex.isSubdivided then some [f]
  else
    (chop len eps (subdivOf setting tex.lmshift) tex.s fuel [f] []).bind fun l =>
      chop len eps (subdivOf setting tex.lmshift) tex.t fuel l []

/-- `SubdivideNodeFaces` (qbsp/faces.cc:457-469): the faces of a node. `texOf`: what belongs to a face's texinfo and
side. -/
def subdivideNode (len : Vec K → K) (eps : K) (setting : Int) (texOf : Face K → Tex K) (fuel : Nat) :
    List (Face K) → Option (List (Face K))
  | [] => some []
  | f :: l =>
    match subdivideFace len eps setting (texOf f) fuel f, subdivideNode len eps setting texOf fuel l with
    | some a, some b => some (a ++ b)
    | _, _ => none

end

/-! ### The faces of leafs -/

/-- The tree with the faces that are on its nodes (`node_t`, `facelist`). -/
inductive Tree (K : Type) where
  | leaf
  | node (pl : Plane K) (faces : List (Face K)) (front back : Tree K)

/-- A node or leaf, by the turns to it from the head: `true` for `children[1]`. -/
abbrev Path := List Bool

/-- `AddMarksurfaces_r` (qbsp/faces.cc:294-312): the leafs to which a face is added, in order. Simplification: the lists
`markfaces` of the leafs and `markleafs` of the face are one list of leafs, named by the turns to them. -/
def addMarks (eps : K) : Face K → Tree K → Path → List Path
  | _, .leaf, p => [p]
  | f, .node pl _ front back, p =>
    let r := splitFace eps f pl
    (match r.1 with
      | some g => addMarks eps g front (p ++ [false])
      | none => []) ++
    (match r.2 with
      | some g => addMarks eps g back (p ++ [true])
      | none => [])

/-- A face of the tree: its node and its place in the node's list. -/
abbrev FaceId := Path × Nat

/-- The loop over the faces of a node (qbsp/faces.cc:330-335): each goes to the child that `planenum & 1` names. -/
def markNode (eps : K) (front back : Tree K) (p : Path) : Nat → List (Face K) → List (Path × FaceId)
  | _, [] => []
  | i, f :: l =>
    ((if f.planenum % 2 = 0 then addMarks eps (newFace f f.w) front (p ++ [false])
      else addMarks eps (newFace f f.w) back (p ++ [true])).map fun leaf => (leaf, (p, i))) ++
    markNode eps front back p (i + 1) l

/-- `MakeMarkFaces` (qbsp/faces.cc:321-340): which leaf is given which face, in order. -/
def makeMarks (eps : K) : Tree K → Path → List (Path × FaceId)
  | .leaf, _ => []
  | .node _ faces front back, p =>
    markNode eps front back p 0 faces ++
      (makeMarks eps front (p ++ [false]) ++ makeMarks eps back (p ++ [true]))

/-! ### Faces from portals -/

/-- `side_t`, as `FaceFromPortal` reads it: `source` names the side of the brush in the map. -/
structure PSide where
  texinfo : Nat
  planenum : Nat
  source : Nat

/-- `portal_t`: the polygon, the contents of the leafs in front and behind, the sides that were found to be visible from
them, and the node whose plane it is on, if any. -/
structure Portal (K : Type) where
  winding : List (Vec K)
  contents : Nat × Nat
  sides : Option PSide × Option PSide
  onnode : Option Path

/-- One of two, by the side. -/
def pick {α : Type} (pside : Bool) (x : α × α) : α := if pside then x.2 else x.1

/-- `FaceFromPortal` (qbsp/faces.cc:481-508). The new face's ball is set by `UpdateFaceSphere`. -/
def faceFromPortal (sqrt : K → K) (p : Portal K) (pside : Bool) : Option (Face K) :=
  match pick pside p.sides with
  | none => none
  | some side =>
    some (updateSphere sqrt
      { w := if pside then p.winding.reverse else p.winding
        origin := ⟨0, 0, 0⟩
        radius := 0
        planenum := side.planenum / 2 * 2 + (if pside then 1 else 0)
        texinfo := side.texinfo
        contents := (pick pside p.contents, pick (!pside) p.contents)
        side := side.source })

/-- A tree of leafs with their portals: whether the leaf is solid, and the portals around it, each with whether the leaf is
on its back side (`nodes.back == node`). Simplification: the list that goes through `next` is given. -/
inductive PTree (K : Type) where
  | leaf (solid : Bool) (portals : List (Bool × Portal K))
  | node (front back : PTree K)

/-- The face lists of the nodes. -/
abbrev Lists (K : Type) := Path → List (Face K)

/-- Adding a face to the list of a node. -/
def Lists.push (s : Lists K) (n : Path) (f : Face K) : Lists K := fun m => if m = n then s m ++ [f] else s m

/-- The loop over the portals of a leaf (qbsp/faces.cc:551-560). `ub`: `onnode` is a null pointer. -/
def leafFaces (sqrt : K → K) : List (Bool × Portal K) → Lists K → Outcome (Lists K)
  | [], s => .ok s
  | (back, p) :: l, s =>
    match faceFromPortal sqrt p back with
    | none => leafFaces sqrt l s
    | some f =>
      match p.onnode with
      | none => .ub
      | some n => leafFaces sqrt l (s.push n f)

/-- `MakeFaces_r` (qbsp/faces.cc:523-561). `merge`: `MergeNodeFaces`, unless `-nomerge`; `subdivide`: `SubdivideNodeFaces`,
if `-subdivide` is not 0. -/
def makeFaces (sqrt : K → K) (nomerge doSubdivide : Bool) (merge subdivide : List (Face K) → List (Face K)) :
    PTree K → Path → Lists K → Outcome (Lists K)
  | .leaf solid portals, _, s => if solid then .ok s else leafFaces sqrt portals s
  | .node front back, p, s =>
    makeFaces sqrt nomerge doSubdivide merge subdivide front (p ++ [false]) s >>= fun s1 =>
    makeFaces sqrt nomerge doSubdivide merge subdivide back (p ++ [true]) s1 >>= fun s2 =>
    let l := if nomerge then s2 p else merge (s2 p)
    let l := if doSubdivide then subdivide l else l
    .ok fun m => if m = p then l else s2 m

end Verif.Surfaces
