import Verif.Geom.Spec

/-! Specification of convex polygons and of the points that they span. -/

namespace Verif.Geom.Spec

variable {K : Type} [Field K] [LinearOrder K]

/-- The point is in the convex hull of the others: in no direction it is farther out than all of them. -/
def InHull (w : List (Vec K)) (q : Vec K) : Prop := ∀ g : Vec K, ∃ v ∈ w, dot g q ≤ dot g v

/-- How the path `a b c` turns, as seen along `n`. -/
def turnOf (n a b c : Vec K) : K :=
  n.x * ((b.y - a.y) * (c.z - a.z) - (b.z - a.z) * (c.y - a.y)) +
  n.y * ((b.z - a.z) * (c.x - a.x) - (b.x - a.x) * (c.z - a.z)) +
  n.z * ((b.x - a.x) * (c.y - a.y) - (b.y - a.y) * (c.x - a.x))

/-- A convex polygon in a plane with the normal `n`: all vertices are on the same side of every edge. -/
structure ConvexIn (n : Vec K) (k : K) (w : List (Vec K)) : Prop where
  ne : 0 < dot n n
  flat : ∀ v ∈ w, dot n v = k
  turns : ∀ e ∈ edges w, ∀ c ∈ w, 0 ≤ turnOf n e.1 e.2 c

/-- A convex polygon. -/
def ConvexPoly (w : List (Vec K)) : Prop := ∃ n k, ConvexIn n k w

end Verif.Geom.Spec
