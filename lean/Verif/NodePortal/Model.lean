import Verif.Common.Outcome
import Verif.Geom.Model

/-!
Model of the winding of the portal that a node makes: the winding of its plane (include/common/polylib.hh:759-805), clipped by
the planes of the nodes above it (qbsp/portals.cc:201-219) and by the portals around it (qbsp/portals.cc:230-271).

Simplifications: exact arithmetic in an ordered field `K`; the inverse of a length, which `qv::normalize` multiplies with, is a given
function, and so is `WindingIsTiny`. The chain of `parent` pointers is the way from the root of the tree to the node, and comparing
a child with the node is the step of that way. Which side of a portal the node is on is a given value, or none for a portal that
has the node on no side.
-/

namespace Verif.NodePortal

open Verif.Geom

variable {K : Type} [Field K] [LinearOrder K]

/-- A tree of nodes with their planes: the front child and the back child (include/qbsp/qbsp.hh:395-437). -/
inductive Tree (K : Type) where
  | leaf
  | node (plane : Plane K) (front back : Tree K)

/-- The node at the end of a way; `true` is a step to the front child. -/
def Tree.sub : Tree K → List Bool → Option (Tree K)
  | t, [] => some t
  | .leaf, _ :: _ => none
  | .node _ f b, s :: way => if s then f.sub way else b.sub way

/-- A sum of vectors. -/
def plus (a b : Vec K) : Vec K := ⟨a.x + b.x, a.y + b.y, a.z + b.z⟩
/-- A multiple of a vector. -/
def times (a : Vec K) (c : K) : Vec K := ⟨a.x * c, a.y * c, a.z * c⟩
/-- A difference of vectors. -/
def minus (a b : Vec K) : Vec K := ⟨a.x - b.x, a.y - b.y, a.z - b.z⟩
/-- `qv::cross` (include/common/qvec.hh). -/
def cross (a b : Vec K) : Vec K := ⟨a.y * b.z - a.z * b.y, a.z * b.x - a.x * b.z, a.x * b.y - a.y * b.x⟩

/-- The axis that is made perpendicular to the normal (include/common/polylib.hh:762-784): the first of the largest parts of the
normal is taken, and without NaN there is always one. -/
def upAxis (n : Vec K) : Vec K :=
  let xy := if |n.y| > |n.x| then |n.y| else |n.x|
  if |n.z| > xy then ⟨1, 0, 0⟩ else ⟨0, 0, 1⟩

/-- `from_plane` (include/common/polylib.hh:759-805); `inv` is the inverse of the length. -/
def fromPlane (inv : Vec K → K) (pl : Plane K) (extent : K) : List (Vec K) :=
  let vup := upAxis pl.normal
  let v := dot vup pl.normal
  let vup := plus vup (times pl.normal (-v))
  let vup := times vup (inv vup)
  let org := times pl.normal pl.dist
  let vright := cross vup pl.normal
  let vup := times vup extent
  let vright := times vright extent
  [plus (minus org vright) vup, plus (plus org vright) vup, minus (plus org vright) vup, minus (minus org vright) vup]

/-- The planes above the node at the end of a way, the nearest one first, and whether the way goes to the front child
(qbsp/portals.cc:206-216). -/
def above : Tree K → List Bool → List (Plane K × Bool)
  | .node pl f b, s :: way => above (if s then f else b) way ++ [(pl, s)]
  | _, _ => []

/-- The loop of `BaseWindingForNode` (qbsp/portals.cc:206-216). -/
def clipAbove : List (Plane K × Bool) → Option (List (Vec K)) → Option (List (Vec K))
  | [], w => w
  | _, none => none
  | (pl, s) :: r, some w => clipAbove r (if s then clipFront pl (1 / 1000) false w else clipBack pl (1 / 1000) false w)

/-- `BaseWindingForNode` (qbsp/portals.cc:201-219) for the node at the end of a way. -/
def baseWinding (inv : Vec K → K) (extent : K) (t : Tree K) (way : List Bool) (pl : Plane K) : Option (List (Vec K)) :=
  clipAbove (above t way) (some (fromPlane inv pl extent))

/-- `-p.plane` (include/common/qplane3d.hh). -/
def opposite (pl : Plane K) : Plane K := ⟨⟨-pl.normal.x, -pl.normal.y, -pl.normal.z⟩, -pl.dist⟩

/-- A portal around the node: its plane, and whether the node is in front of it (`nodes[0]`) or behind it (`nodes[1]`). -/
structure Around (K : Type) where
  plane : Plane K
  inFront : Option Bool

/-- The loop over the portals around the node (qbsp/portals.cc:236-252). -/
def clipAround : List (Around K) → Option (List (Vec K)) → Outcome (Option (List (Vec K)))
  | [], w => .ok w
  | _, none => .ok none
  | p :: ps, some w =>
    match p.inFront with
    | some true => clipAround ps (clipFront p.plane (1 / 10) false w)
    | some false => clipAround ps (clipFront (opposite p.plane) (1 / 10) false w)
    | none => .error

/-- `MakeNodePortal` (qbsp/portals.cc:230-271): the plane and the winding of the new portal. -/
def nodePortal (inv : Vec K → K) (tiny : List (Vec K) → Bool) (extent : K) (t : Tree K) (way : List Bool) (pl : Plane K)
    (around : List (Around K)) : Outcome (Option (Plane K × List (Vec K))) :=
  clipAround around (baseWinding inv extent t way pl) >>= fun w =>
    match w with
    | none => .ok none
    | some w => if tiny w then .ok none else .ok (some (pl, w))

end Verif.NodePortal
