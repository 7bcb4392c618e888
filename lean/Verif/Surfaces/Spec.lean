import Verif.Surfaces.Model
import Verif.BrushBsp.HullSpec
import Mathlib.Algebra.Order.Group.Abs

/-! Specification of cutting faces, of the leafs they touch and of the faces that portals make. -/

namespace Verif.Surfaces.Spec

open Verif.Geom Verif.Geom.Spec

variable {K : Type} [Field K] [LinearOrder K]

/-- A convex polygon in a plane with the normal `n`: any three of its vertices, in their order, turn the same way. -/
structure ConvexRing (n : Vec K) (k : K) (w : List (Vec K)) : Prop where
  ne : 0 < dot n n
  flat : ∀ v ∈ w, dot n v = k
  turns : ∀ a b c, List.Sublist [a, b, c] w → 0 ≤ turnOf n a b c

/-- The ball of the face holds its vertices. -/
def BallOk (f : Face K) : Prop :=
  0 ≤ f.radius ∧ ∀ v ∈ f.w, dot (subVec v f.origin) (subVec v f.origin) ≤ f.radius * f.radius

/-- The square root of what is not negative. -/
def IsSqrt (sqrt : K → K) : Prop := ∀ x, 0 ≤ x → 0 ≤ sqrt x ∧ sqrt x * sqrt x = x

/-- `len` gives the length of the vector. -/
def IsLength (len : Vec K → K) (v : Vec K) : Prop := 0 ≤ len v ∧ len v * len v = dot v v

/-- A face is a part of another one: it is like it but for its polygon, which does not go beyond the other's. -/
def PartOf (f g : Face K) : Prop :=
  g.planenum = f.planenum ∧ g.texinfo = f.texinfo ∧ g.contents = f.contents ∧ g.side = f.side ∧
    ∀ q, InHull g.w q → InHull f.w q

/-- The polygon is at most `n` long in a direction: counted in whole units, as the engine does. -/
def FitsIn [FloorRing K] (n : Int) (t : Vec K) (w : List (Vec K)) : Prop :=
  ∀ a ∈ w, ∀ b ∈ w, ⌈dot a t⌉ - ⌊dot b t⌋ ≤ n

/-- Two faces are on different sides of a plane, but for the tolerance. -/
def Apart (eps : K) (f g : Face K) : Prop :=
  ∃ pl : Plane K, UnitNormal pl ∧ (∀ v ∈ f.w, -eps ≤ pl.distTo v) ∧ (∀ v ∈ g.w, pl.distTo v ≤ eps)

/-- The point is farther than the tolerance from the planes, or there is none. -/
def Clear (eps : K) (cuts : List (Plane K)) (q : Vec K) : Prop := eps = 0 ∨ ∀ c ∈ cuts, eps < |c.distTo q|

/-- The point goes down to the leaf and is more than `margin` away from each plane on its way. -/
def Reaches (margin : K) : Tree K → Vec K → Path → Prop
  | .leaf, _, p => p = []
  | .node pl _ front back, q, p =>
    match p with
    | [] => False
    | false :: p => margin < pl.distTo q ∧ Reaches margin front q p
    | true :: p => pl.distTo q < -margin ∧ Reaches margin back q p

/-- The path leads to a leaf, and the point is at most `margin` outside of the leaf at each plane on the way. -/
def Touches (margin : K) : Tree K → Vec K → Path → Prop
  | .leaf, _, p => p = []
  | .node pl _ front back, q, p =>
    match p with
    | [] => False
    | false :: p => -margin ≤ pl.distTo q ∧ Touches margin front q p
    | true :: p => pl.distTo q ≤ margin ∧ Touches margin back q p

/-- The faces and the children of the node at the end of a path. -/
def nodeAt : Tree K → Path → Option (List (Face K) × Tree K × Tree K)
  | .leaf, _ => none
  | .node _ faces front back, [] => some (faces, front, back)
  | .node _ _ front _, false :: p => nodeAt front p
  | .node _ _ _ back, true :: p => nodeAt back p

/-- The planes of the tree have unit normals. -/
def PlanesOk : Tree K → Prop
  | .leaf => True
  | .node pl _ front back => UnitNormal pl ∧ PlanesOk front ∧ PlanesOk back

/-- The faces of the tree have balls around them. -/
def BallsOk : Tree K → Prop
  | .leaf => True
  | .node _ faces front back => (∀ f ∈ faces, BallOk f) ∧ BallsOk front ∧ BallsOk back

end Verif.Surfaces.Spec
