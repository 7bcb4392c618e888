import Verif.NodePortal.Model
import Verif.Geom.Spec

/-! What the region of a node is. -/

namespace Verif.NodePortal.Spec

open Verif.Geom Verif.Geom.Spec

variable {K : Type} [Field K] [LinearOrder K]

/-- The region of the node at the end of a way is in front of (`true`) or behind (`false`) this plane: it is the plane of a node on the
way, from where the way goes to that side. -/
def BoundedBy (t : Tree K) (way : List Bool) (pl : Plane K) (side : Bool) : Prop :=
  ∃ start rest f b, way = start ++ side :: rest ∧ t.sub start = some (.node pl f b)

/-- How far a point is on a side of a plane. -/
def depth (pl : Plane K) (side : Bool) (p : Vec K) : K := if side then pl.distTo p else -pl.distTo p

/-- All planes in the tree have normals of length 1. -/
def UnitTree : Tree K → Prop
  | .leaf => True
  | .node pl f b => UnitNormal pl ∧ UnitTree f ∧ UnitTree b

/-- A segment lies along a plane. -/
def Along (pl : Plane K) (eps : K) (e : Vec K × Vec K) : Prop := |pl.distTo e.1| ≤ eps ∧ |pl.distTo e.2| ≤ eps

/-- A segment is part of another one. -/
def PartOf (e o : Vec K × Vec K) : Prop := OnSeg e.1 o.1 o.2 ∧ OnSeg e.2 o.1 o.2

end Verif.NodePortal.Spec
