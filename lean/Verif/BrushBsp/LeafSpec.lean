import Verif.BrushBsp.TreeSpec
import Verif.BrushBsp.HullSpec

/-! Specification of the contents of the leafs: the points of a brush, closed brushes, and cuts in which no tolerance
plays a role. -/

namespace Verif.BrushBsp.Spec

open Geom Geom.Spec

variable {K C : Type} [Field K] [LinearOrder K]

/-- The point is in the brush: it is behind the planes of all sides. -/
def Inside (env : Env K C) (b : Brush K C) (q : Vec K) : Prop := ∀ s ∈ b.sides, (env.planes s.planenum).distTo q ≤ 0

instance (env : Env K C) (b : Brush K C) (q : Vec K) : Decidable (Inside env b q) := by
  unfold Inside; infer_instance

/-- The planes come in pairs with opposite normals of length 1. The first of a pair does not point along an axis
backwards. The base polygon of a plane is convex, lies in the plane, and spans every point of it in the world. -/
structure PlanesOk (env : Env K C) : Prop where
  unit : ∀ n, UnitNormal (env.planes n)
  flip : ∀ n q, (env.planes (flipNum n)).distTo q = -(env.planes n).distTo q
  axial : ∀ n, n % 2 = 0 → (env.planes n).normal.x ≠ -1 ∧ (env.planes n).normal.y ≠ -1 ∧ (env.planes n).normal.z ≠ -1
  baseConvex : ∀ n, ConvexPoly (env.base (env.planes n))
  baseOn : ∀ n, ∀ v ∈ env.base (env.planes n), (env.planes n).distTo v = 0
  baseSpans : ∀ n q, (env.planes n).distTo q = 0 → dot q q ≤ env.worldextent * env.worldextent →
    InHull (env.base (env.planes n)) q

/-- The point is in the box. -/
def InBox (b : Bounds K) (q : Vec K) : Prop :=
  (b.mins.x ≤ q.x ∧ q.x ≤ b.maxs.x) ∧ (b.mins.y ≤ q.y ∧ q.y ≤ b.maxs.y) ∧ (b.mins.z ≤ q.z ∧ q.z ≤ b.maxs.z)

/-- A closed convex body: the polygons of the sides are convex, lie in their planes and belong to the body, every point
of the body that is on the plane of a side is in a polygon, there is a point strictly inside, and the body is in the
world and in the bounds of the brush. -/
structure Closed (env : Env K C) (b : Brush K C) : Prop where
  convex : ∀ s ∈ b.sides, ConvexPoly s.w
  own : ∀ s ∈ b.sides, ∀ v ∈ s.w, (env.planes s.planenum).distTo v = 0
  verts : ∀ s ∈ b.sides, ∀ v ∈ s.w, Inside env b v
  border : ∀ q, Inside env b q → (∃ s ∈ b.sides, (env.planes s.planenum).distTo q = 0) → ∃ s ∈ b.sides, InHull s.w q
  core : ∃ c, ∀ s ∈ b.sides, (env.planes s.planenum).distTo c < 0
  world : ∀ q, Inside env b q → dot q q ≤ env.worldextent * env.worldextent
  box : ∀ q, Inside env b q → InBox b.bounds q

/-- While the polygon is clipped by the planes of the sides one after the other, no vertex is near a plane without
being on it. -/
def NoneNear (env : Env K C) : List (Side K) → List (Vec K) → Prop
  | [], _ => True
  | s :: l, w => (∀ v ∈ w, |(env.planes s.planenum).distTo v| ≤ 1 / 10 → (env.planes s.planenum).distTo v = 0) ∧
      ∀ w' ∈ clipBack (env.planes s.planenum) (1 / 10) false w, NoneNear env l w'

/-- The same for the polygon of the side with the number `i` and the tolerance `eps`, while it is clipped by the other
sides. -/
def NoneNearBy (env : Env K C) (eps : K) (i : Nat) : List (Side K × Nat) → List (Vec K) → Prop
  | [], _ => True
  | (s, j) :: l, w =>
    if i = j then NoneNearBy env eps i l w
    else (∀ v ∈ w, |(env.planes s.planenum).distTo v| ≤ eps → (env.planes s.planenum).distTo v = 0) ∧
      ∀ w' ∈ clipFront (env.planes (flipNum s.planenum)) eps false w, NoneNearBy env eps i l w'

/-- If the brush has points at least 0.1 before and behind the plane, it is cut in two, both halves are kept, and no
tolerance plays a role in the polygon of the cut. -/
def CleanCut (env : Env K C) (n : Nat) (b : Brush K C) : Prop :=
  (∃ s ∈ b.sides, ∃ v ∈ s.w, 1 / 10 ≤ (env.planes n).distTo v) →
  (∃ s ∈ b.sides, ∃ v ∈ s.w, (env.planes n).distTo v ≤ -(1 / 10)) →
  (splitBrush env n b).1.isSome ∧ (splitBrush env n b).2.isSome ∧ NoneNear env b.sides (env.base (env.planes n))

/-- The cuts that are made on the way to the leaf of a point: the planes, and the brushes that are on both sides of
them. -/
def cutsAt (env : Env K C) (p : Vec K) : Nat → List Nat → Option (Brush K C) → Bounds K → List (Brush K C) →
    List (Nat × Brush K C)
  | 0, _, _, _, _ => []
  | fuel + 1, parents, vol, nb, bs =>
    match selectSplit env parents vol nb bs with
    | .ok (some c) =>
      let n := c.planenum
      let lists := splitBrushList env n c.sides bs
      let vols := childVolumes env n vol
      let nbs := childBounds (env.planes n) nb
      ((bs.filter fun b => testBrush env n b = ⟨true, true, false⟩).map fun b => (n, b)) ++
        (if 0 ≤ (env.planes n).distTo p then cutsAt env p fuel (n :: parents) vols.1 nbs.1 lists.1
         else cutsAt env p fuel (n :: parents) vols.2 nbs.2 lists.2)
    | _ => []

/-- The cuts of `BrushBSP`. -/
def cuts (env : Env K C) (fromBounds : Bounds K → Brush K C) (sidespace : K) (p : Vec K) (fuel : Nat)
    (bs : List (Brush K C)) : List (Nat × Brush K C) :=
  let nb := grow sidespace (totalBounds env.huge bs)
  cutsAt env p fuel [] (some (fromBounds nb)) nb (bs.map clearOnnode)

end Verif.BrushBsp.Spec
