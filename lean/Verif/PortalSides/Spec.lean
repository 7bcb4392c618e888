import Verif.PortalSides.Model

/-!
What is said about the sides found for portals, apart from how they are found.
-/

namespace Verif.PortalSides

open Verif.Geom

variable {C K : Type} [Field K] [LinearOrder K]

/-- A side of the brush that lies along the portal: it is no bevel, and no point of the portal is more than 0.1 off its
plane. -/
def Along (w : List (Vec K)) (b : Brush C K) (s : Side K) : Prop :=
  s ∈ b.sides ∧ s.bevel = false ∧ ∀ v ∈ w, |s.plane.distTo v| ≤ 1 / 10

/-- A brush of the leaf on side `j` makes a face that is seen from side `i`: from the other side of the portal this is
its outer face, from its own side the inner face. -/
def MakesFace (g : Game C) (leaf : Bool → Leaf C K) (i j : Bool) (b : Brush C K) : Prop :=
  b ∈ (leaf j).brushes ∧
    g.generates (g.visible (leaf false).contents (leaf true).contents) b.contents (decide (i = j)) = true

/-- The side is on the plane of the portal's node, in either direction. -/
def OnNode (n : Node K) (s : Side K) : Prop := s.num = n.num ∨ s.num = n.num + 1

/-- The cosine of the angle between the planes, without regard to their direction. -/
def Close (n : Node K) (s : Side K) : K := |dot n.normal s.plane.normal|

/-- A brush of the leaf on side `j` that makes a face seen from side `i` has a side along the portal that is on the plane
of the portal's node. -/
def Exact (g : Game C) (w : List (Vec K)) (n : Node K) (leaf : Bool → Leaf C K) (i j : Bool) (b : Brush C K) : Prop :=
  MakesFace g leaf i j b ∧ ∃ s, Along w b s ∧ OnNode n s

/-- A source is shown by a portal: it is the source of a side found for it. -/
def Shows (g : Game C) (leafs : Nat → Leaf C K) (p : Portal K) (x : Nat) : Prop :=
  ∃ n r i s, p.node = some n ∧ findSides g p.winding n (fun i => leafs (p.leaf i)) = .ok (some r) ∧ r i = some s ∧
    s.source = some x

end Verif.PortalSides
