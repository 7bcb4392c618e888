import Verif.Surfaces.Spec

/-! Specification of the faces that portals make. -/

namespace Verif.Surfaces.Spec

open Verif.Geom

variable {K : Type} [Field K] [LinearOrder K]

/-- The leafs that are not solid, in order, each with the turns to it and its portals. -/
def openLeafs : PTree K → Path → List (Path × List (Bool × Portal K))
  | .leaf solid portals, p => if solid then [] else [(p, portals)]
  | .node front back, p => openLeafs front (p ++ [false]) ++ openLeafs back (p ++ [true])

/-- The nodes of a tree. -/
def nodes : PTree K → Path → List Path
  | .leaf _ _, _ => []
  | .node front back, p => p :: (nodes front (p ++ [false]) ++ nodes back (p ++ [true]))

/-- Every portal of an open leaf at which something is seen is on a node above the leaf. -/
def OnNodes (t : PTree K) : Prop :=
  ∀ l ∈ openLeafs t [], ∀ x ∈ l.2, (pick x.1 x.2.sides).isSome = true →
    ∃ n rest, x.2.onnode = some n ∧ l.1 = n ++ rest ∧ rest ≠ []

/-- The face is what is seen of a portal from one of its sides. -/
structure SeenFrom (p : Portal K) (pside : Bool) (f : Face K) : Prop where
  /-- The plane is that of the side, turned towards the viewer. -/
  plane : ∃ s, pick pside p.sides = some s ∧ f.planenum / 2 = s.planenum / 2 ∧ f.texinfo = s.texinfo ∧ f.side = s.source
  facing : f.planenum % 2 = if pside then 1 else 0
  /-- The polygon runs the other way around when seen from behind. -/
  polygon : f.w = if pside then p.winding.reverse else p.winding
  /-- In front of the face is the leaf from which it is seen. -/
  front : f.contents.1 = if pside then p.contents.2 else p.contents.1
  back : f.contents.2 = if pside then p.contents.1 else p.contents.2
  ball : BallOk f

end Verif.Surfaces.Spec
