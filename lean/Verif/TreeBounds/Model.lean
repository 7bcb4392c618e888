import Verif.Common.Outcome
import Verif.Geom.Aabb

/-!
Model of the bounds of the nodes and leafs of a tree, which are found from the portals of the leafs (qbsp/portals.cc:384-434).

Simplifications: arithmetic is exact. Of the portals of a leaf only the points matter. The tasks for the two children of a node
write to different nodes and only read the bounds of their parent, which are written when both have ended, so they are modelled
one after the other. The warning is left out.
-/

namespace Verif.TreeBounds

open Geom

/-- A tree before: every node and leaf has the bounds it had so far; a leaf the points of its portals. -/
inductive Tree (K : Type) where
  | leaf (old : Box K 3) (points : List (Pt K 3))
  | node (old : Box K 3) (l r : Tree K)

/-- A tree with its new bounds. -/
inductive Bounded (K : Type) where
  | leaf (b : Box K 3)
  | node (b : Box K 3) (l r : Bounded K)

def Bounded.box {K : Type} : Bounded K → Box K 3
  | .leaf b => b
  | .node b _ _ => b

variable {K : Type} [Field K] [LinearOrder K]

/-- The test for a volume, and what is done without one (qbsp/portals.cc:420-426): `parent` has the bounds of the parent, if there
is one. -/
def fixFlat (parent : Option (Box K 3)) (b : Box K 3) : Outcome (Box K 3) :=
  if b.mins 0 ≥ b.maxs 0 then
    match parent with
    | none => .ub
    | some p => .ok (Box.mk' p.mins p.mins)
  else .ok b

/-- `CalcTreeBounds_r` with `CalcNodeBounds` (qbsp/portals.cc:390-434): `lowest` and `top` are those of `numeric_limits<double>`. -/
def bounds (lowest top : K) (parent : Option (Box K 3)) : Tree K → Outcome (Bounded K)
  | .leaf _ points => fixFlat parent (Box.ofPoints lowest top points) >>= fun b => .ok (.leaf b)
  | .node old l r => bounds lowest top (some old) l >>= fun l' => bounds lowest top (some old) r >>= fun r' =>
    fixFlat parent (l'.box.unionWith r'.box) >>= fun b => .ok (.node b l' r')

end Verif.TreeBounds
