import Verif.Decompile.Model
import Verif.BrushBsp.HullSpec

/-! Specification of decompiled brushes: the points they take up. -/

namespace Verif.Decompile

open Geom Geom.Spec

variable {K : Type} [Field K] [LinearOrder K]

/-- The points of the brush that the planes, which face out, enclose. -/
def Region (l : List (DecPlane K)) (x : Vec K) : Prop := ∀ q ∈ l, q.plane.distTo x ≤ 0

/-- The points inside the brush, off its surface. -/
def Inner (l : List (DecPlane K)) (x : Vec K) : Prop := ∀ q ∈ l, q.plane.distTo x < 0

/-- The points in a box, and the ones off its surface. -/
def InBox (mins maxs x : Vec K) : Prop :=
  (mins.x ≤ x.x ∧ x.x ≤ maxs.x) ∧ (mins.y ≤ x.y ∧ x.y ≤ maxs.y) ∧ (mins.z ≤ x.z ∧ x.z ≤ maxs.z)

def InnerBox (mins maxs x : Vec K) : Prop :=
  (mins.x < x.x ∧ x.x < maxs.x) ∧ (mins.y < x.y ∧ x.y < maxs.y) ∧ (mins.z < x.z ∧ x.z < maxs.z)

/-- The brush that has the planes of these sides. -/
def planesOf (b : List (BSide K)) : List (DecPlane K) := b.map (·.plane)

/-- All faces of the side have the same texture definition. -/
def Uniform (s : BSide K) : Prop := ∀ f ∈ s.faces, ∀ g ∈ s.faces, f.texinfo = g.texinfo

/-- No vertex of the polygons on the way of the clipping is within the tolerance of a plane without being on it. -/
def NoneNear (eps : K) : List (DecPlane K) → List (Vec K) → Prop
  | [], _ => True
  | q :: l, w => (∀ v ∈ w, |q.plane.distTo v| ≤ eps → q.plane.distTo v = 0) ∧
      ∀ w', clipFront (Tree.negPlane q.plane) eps false w = some w' → NoneNear eps l w'

/-- The base polygon of a plane is a convex polygon in the plane and spans all of it in a world of the size `r`. -/
structure BaseOk (r : K) (base : Plane K → List (Vec K)) (pl : Plane K) : Prop where
  convex : ConvexPoly (base pl)
  on : ∀ v ∈ base pl, pl.distTo v = 0
  spans : ∀ q, pl.distTo q = 0 → dot q q ≤ r * r → InHull (base pl) q

/-- The texture coordinate that a Valve axis gives a point: the point along the axis, over the scale, plus the shift. -/
def ValveAxis.coord (a : ValveAxis K) (x : Vec K) : K := dot x a.axis / a.scale + a.shift

/-- The plane through three points as the map compiler reads it: it goes through the second one and faces along the cross
product of the ways from there to the first and to the third. -/
def Through (p0 p1 p2 : Vec K) (pl : Plane K) : Prop :=
  pl.distTo p1 = 0 ∧ ∃ c, 0 < c ∧ BrushBsp.cross (vsub p0 p1) (vsub p2 p1) = vmul c pl.normal

end Verif.Decompile
