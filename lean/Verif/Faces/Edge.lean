import Verif.Geom.Model
import Verif.Geom.Aabb
import Verif.Contents.Model

/-!
Model of how qbsp finds the vertices on the edges of a face (qbsp/tjunc.cc:56-120, 179-237, 306-335).

Simplifications: `double` is replaced by an ordered field `K`; the conversion of `start` and `end` to `float` by the
parameters of `PointOnEdge` is a parameter `rnd`. The counters of the statistics are left out.
-/

namespace Verif.Faces

open Verif.Geom

variable {K : Type} [Field K] [LinearOrder K]

/-- `a - b`. -/
def vsub (a b : Vec K) : Vec K := ⟨a.x - b.x, a.y - b.y, a.z - b.z⟩

/-- `a + d * t`. -/
def along (a d : Vec K) (t : K) : Vec K := ⟨a.x + d.x * t, a.y + d.y * t, a.z + d.z * t⟩

/-- A line with the tolerance: `edge_start`, `edge_dir`, `DEFAULT_ON_EPSILON`, and the conversion to `float`. -/
structure Line (K : Type) where
  start : Vec K
  dir : Vec K
  eps : K
  rnd : K → K

/-- `PointOnEdge` (qbsp/tjunc.cc:56-78). The length of `off` is compared with the tolerance by their squares. -/
def pointOnEdge (l : Line K) (p : Vec K) (start stop : K) : Option K :=
  let dist := dot (vsub p l.start) l.dir
  if dist ≤ l.rnd start ∨ dist ≥ l.rnd stop then none
  else
    let off := vsub p (along l.start l.dir dist)
    if dot off off > l.eps * l.eps then none else some dist

/-- `TestEdge` (qbsp/tjunc.cc:87-120): what it appends to the superface. `pos`: the positions of the vertices; the list
is `edge_verts` from `startvert` on. -/
def testEdge (l : Line K) (pos : Nat → Vec K) (start stop : K) (p1 p2 : Nat) : List Nat → List Nat
  | [] => if p1 = p2 then [] else [p1]
  | j :: js =>
    if p1 = p2 then []
    else if j = p1 ∨ j = p2 then testEdge l pos start stop p1 p2 js
    else
      match pointOnEdge l (pos j) start stop with
      | none => testEdge l pos start stop p1 p2 js
      | some dist => testEdge l pos start dist p1 j js ++ testEdge l pos dist stop j p2 js

/-- `face_t`: what decides about interaction (`contents.back`), and `original_vertices`. -/
structure TFace (C : Type) where
  contents : C
  verts : List Nat
  deriving DecidableEq

/-- What `Welds` asks the game about contents. -/
structure WeldOps (C : Type) where
  typesEqual : C → C → Bool
  isDetailWall : C → Bool
  isOpaque : C → Bool
  isEmpty : C → Bool

/-- `Welds` (qbsp/tjunc.cc:147-177). -/
def welds {C : Type} (o : WeldOps C) (a b : C) : Bool :=
  if o.typesEqual a b then true
  else if o.isDetailWall a || o.isDetailWall b then false
  else if !o.isOpaque a && o.isOpaque b then false
  else if !o.isOpaque b && o.isOpaque a then false
  else if o.isEmpty a || o.isEmpty b then false
  else true

/-- The answers of the Quake-like games (common/bspfile.cc:295-302, 321-326, 368-375, 446-460). -/
def q1Weld (transwater : Bool) : WeldOps Contents.Contents :=
  ⟨fun a b => a == b, Contents.Q1.isDetailWall, fun c => Contents.Q1.isOpaque c transwater, Contents.Q1.isEmpty⟩

/-- The answers of Quake II (common/bspfile.cc:1006-1009, 1027-1036, 1086-1089, 1195-1209). -/
def q2Weld : WeldOps Contents.Contents :=
  ⟨fun a b => Contents.Q2.contentType a == Contents.Q2.contentType b,
    fun c => if Contents.tst c Contents.SOLID then false
      else c &&& (Contents.DETAIL ||| Contents.DETAIL_WALL) == (Contents.DETAIL ||| Contents.DETAIL_WALL),
    Contents.Q2.isOpaque, Contents.Q2.isEmpty⟩

/-- `HasTJuncInteraction` (qbsp/tjunc.cc:179-186). -/
def interacts {C : Type} (o : WeldOps C) (f g : TFace C) : Bool := welds o f.contents g.contents

/-- `node_t` with its bounds and `facelist`. -/
inductive FTree (K C : Type) where
  | leaf
  | node (bounds : Box K 3) (faces : List (TFace C)) (front back : FTree K C)

variable {C : Type}

/-- A point as an array. -/
def toPt (v : Vec K) : Pt K 3 := fun i => if i = 0 then v.x else if i = 1 then v.y else v.z

/-- `FindEdgeVerts_FaceBounds_R` (qbsp/tjunc.cc:196-218). `inter`: `HasTJuncInteraction`, see `interacts`. -/
def findVertsIn (pos : Nat → Vec K) (inter : TFace C → TFace C → Bool) (f : TFace C) (box : Box K 3) :
    FTree K C → List Nat
  | .leaf => []
  | .node bounds faces front back =>
    if bounds.disjoint box 0 then []
    else
      (faces.filter (inter f)).flatMap (fun g => g.verts.filter fun v => box.containsPoint (toPt (pos v)))
        ++ findVertsIn pos inter f box front ++ findVertsIn pos inter f box back

/-- `FindEdgeVerts_FaceBounds` (qbsp/tjunc.cc:230-237). `lowest`, `max`: those of `numeric_limits<double>`. -/
def findEdgeVerts (lowest max : K) (pos : Nat → Vec K) (inter : TFace C → TFace C → Bool) (head : FTree K C)
    (f : TFace C) (p1 p2 : Vec K) : List Nat :=
  let box : Box K 3 := (((Box.empty lowest max).expand (toPt p1)).expand (toPt p2)).grow fun _ => 1
  findVertsIn pos inter f box head

/-- The vertices of a polygon with their successors: `[(i + 1) % size]`. -/
def cyclicPairs (vs : List Nat) : List (Nat × Nat) := vs.zip (vs.drop 1 ++ vs.take 1)

/-- The surroundings of `CreateSuperFace`: the constants above, `qv::normalize` (the direction and the length of a
vector), the positions of the vertices, the interaction of faces and the tree. -/
structure World (K C : Type) where
  lowest : K
  max : K
  eps : K
  rnd : K → K
  normalize : Vec K → Vec K × K
  pos : Nat → Vec K
  inter : TFace C → TFace C → Bool
  head : FTree K C

/-- The part of `CreateSuperFace` for one edge (qbsp/tjunc.cc:319-331). -/
def superEdge (w : World K C) (f : TFace C) (v1 v2 : Nat) : List Nat :=
  let verts := findEdgeVerts w.lowest w.max w.pos w.inter w.head f (w.pos v1) (w.pos v2)
  let n := w.normalize (vsub (w.pos v2) (w.pos v1))
  testEdge ⟨w.pos v1, n.1, w.eps, w.rnd⟩ w.pos 0 n.2 v1 v2 verts

/-- `CreateSuperFace` (qbsp/tjunc.cc:306-335). -/
def createSuperFace (w : World K C) (f : TFace C) : List Nat :=
  (cyclicPairs f.verts).flatMap fun e => superEdge w f e.1 e.2

end Verif.Faces
