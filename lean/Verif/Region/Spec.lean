import Verif.Region.Model
import Verif.Geom.AabbProps

/-!
What is expected of regions.
-/

namespace Verif.Region.Spec

open Geom Geom.Spec

variable {K : Type} [Field K] [LinearOrder K]

/-- The point is in the brush, or on its surface. -/
def In (brush : List (Plane K)) (p : Vec K) : Prop := ∀ s ∈ brush, dot s.normal p ≤ s.dist

/-- The point is in the brush, and not on its surface. -/
def Interior (brush : List (Plane K)) (p : Vec K) : Prop := ∀ s ∈ brush, dot s.normal p < s.dist

/-- The point is on the surface of the brush. -/
def OnSurface (brush : List (Plane K)) (p : Vec K) : Prop := In brush p ∧ ∃ s ∈ brush, dot s.normal p = s.dist

/-- Some side of the brush faces the other way. -/
def HasOpposite (brush : List (Plane K)) (s : Plane K) : Prop := ∃ o ∈ brush, o.normal = neg s.normal

/-- The boxes have a point in common. -/
def Meet (a b : Box K 3) : Prop := ∃ p, Inside a p ∧ Inside b p

/-- An entity that stays: it has brushes, or it is in the region, if there is one, and in no anti-region. -/
def Stays (region : Option (Box K 3)) (anti : List (Box K 3)) (e : Ent K) : Prop :=
  e.brushes ≠ 0 ∨ ((∀ r, region = some r → Inside r e.origin) ∧ ∀ r ∈ anti, ¬ Inside r e.origin)

end Verif.Region.Spec
