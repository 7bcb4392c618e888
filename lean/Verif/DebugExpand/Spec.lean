import Verif.DebugExpand.Model

/-! What the brushes of a map contain, and what growing by a box means. -/

namespace Verif.DebugExpand.Spec

open Verif.Geom Verif.NodePortal

variable {K Tex : Type} [Field K] [LinearOrder K]

/-- A point is behind the plane of a face of a brush. -/
def Behind (pl : Plane K) (p : Vec K) : Prop := dot p pl.normal ≤ pl.dist

/-- A point is behind the plane through the three points of a face in a map: that with the normal `(p0 - p1) × (p2 - p1)`. -/
def BehindFace (f : Face K Tex) (q : Vec K) : Prop :=
  dot (minus q f.p1) (cross (minus f.p0 f.p1) (minus f.p2 f.p1)) ≤ 0

/-- The three points span a plane. -/
def Spans (f : Face K Tex) : Prop :=
  let n := cross (minus f.p0 f.p1) (minus f.p2 f.p1)
  0 < dot n n

/-- A vector lies in the hull. -/
def InHullBox (h : Hull K) (v : Vec K) : Prop :=
  (h.lo.x ≤ v.x ∧ v.x ≤ h.hi.x) ∧ (h.lo.y ≤ v.y ∧ v.y ≤ h.hi.y) ∧ h.lo.z ≤ v.z ∧ v.z ≤ h.hi.z

/-- The inverse of a length is positive, except for the zero vector; no more is needed. -/
def LikeInverseLength (inv : Vec K → K) : Prop := ∀ v, 0 < dot v v → 0 < inv v

end Verif.DebugExpand.Spec
