import Verif.TreeBounds.Model

/-!
What is expected of the bounds.
-/

namespace Verif.TreeBounds.Spec

open Geom Geom.Spec

variable {K : Type} [Field K] [LinearOrder K]

/-- The points of a leaf differ along the first axis. -/
def Thick (points : List (Pt K 3)) : Prop := ∃ p ∈ points, ∃ q ∈ points, p 0 < q 0

/-- Some leaf of the tree is thick. -/
def HasThick : Tree K → Prop
  | .leaf _ points => Thick points
  | .node _ l r => HasThick l ∨ HasThick r

/-- All leafs of the tree are thick. -/
def AllThick : Tree K → Prop
  | .leaf _ points => Thick points
  | .node _ l r => AllThick l ∧ AllThick r

/-- The points of all thick leafs of a tree. -/
inductive PointOf : Tree K → Pt K 3 → Prop
  | leaf (old : Box K 3) (points : List (Pt K 3)) (p : Pt K 3) : Thick points → p ∈ points → PointOf (.leaf old points) p
  | left (old : Box K 3) (l r : Tree K) (p : Pt K 3) : PointOf l p → PointOf (.node old l r) p
  | right (old : Box K 3) (l r : Tree K) (p : Pt K 3) : PointOf r p → PointOf (.node old l r) p

/-- All coordinates are numbers that a `double` can hold. -/
def InRange (lowest top : K) : Tree K → Prop
  | .leaf _ points => ∀ p ∈ points, ∀ i, lowest ≤ p i ∧ p i ≤ top
  | .node _ l r => InRange lowest top l ∧ InRange lowest top r

/-- Every node and leaf with a thick leaf below, or itself thick, holds the points of all thick leafs below, and the bounds of
nodes hold those of both children. -/
def Holds : Tree K → Bounded K → Prop
  | .leaf _ points, .leaf b => Thick points → ∀ p ∈ points, Inside b p
  | .node old l r, .node b l' r' =>
    (HasThick (.node old l r) → (∀ p, PointOf (.node old l r) p → Inside b p) ∧ (∀ p, Inside l'.box p → Inside b p) ∧
      (∀ p, Inside r'.box p → Inside b p)) ∧ Holds l l' ∧ Holds r r'
  | _, _ => False

/-- No node or leaf has larger bounds than needed: every box with all points of the leafs below has the bounds. -/
def Least : Tree K → Bounded K → Prop
  | .leaf _ points, .leaf b => ∀ c : Box K 3, (∀ p ∈ points, Inside c p) → ∀ p, Inside b p → Inside c p
  | .node old l r, .node b l' r' =>
    (∀ c : Box K 3, (∀ p, PointOf (.node old l r) p → Inside c p) → ∀ p, Inside b p → Inside c p) ∧ Least l l' ∧ Least r r'
  | _, _ => False

end Verif.TreeBounds.Spec
