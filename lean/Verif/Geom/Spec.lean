import Verif.Geom.Model

/-! Specification of clipping: segments and edges of polygons. -/

namespace Verif.Geom.Spec

variable {K : Type} [Field K] [LinearOrder K]

/-- The point `t` of the way from `p` to `q`. -/
def along (p q : Vec K) (t : K) : Vec K := ⟨p.x + t * (q.x - p.x), p.y + t * (q.y - p.y), p.z + t * (q.z - p.z)⟩

/-- `x` lies on the segment from `p` to `q`. -/
def OnSeg (x p q : Vec K) : Prop := ∃ t, 0 ≤ t ∧ t ≤ 1 ∧ x = along p q t

/-- Consecutive elements. -/
def pairs {α : Type} : List α → List (α × α)
  | a :: b :: l => (a, b) :: pairs (b :: l)
  | _ => []

/-- The edges of a polygon; the last point is joined to the first one. -/
def edges {α : Type} (w : List α) : List (α × α) :=
  match w with
  | [] => []
  | a :: _ => pairs (w ++ [a])

/-- The plane has a normal of length 1. -/
def UnitNormal (pl : Plane K) : Prop := dot pl.normal pl.normal = 1

end Verif.Geom.Spec
