import Verif.Samples.Model
import Verif.Phong.NormalLemmas

/-!
What the claims on the places and normals of light samples say.
-/

namespace Verif.Samples

open Verif.Geom Verif.Phong

/-- The length of a vector. -/
noncomputable abbrev L : Vec ℝ → ℝ := realOps.len

/-- Twice the area of a triangle, as a vector: it points to the side from which the corners run clockwise. -/
noncomputable def areaVec (a b c : Vec ℝ) : Vec ℝ := cross (sub c a) (sub b a)

/-- Two corners of a polygon that follow each other, the first after the last. -/
def IsEdge {α : Type} (ps : List α) (a b : α) : Prop :=
  ∃ i : Nat, ps[i]? = some a ∧ ps[(i + 1) % ps.length]? = some b

/-- A triangle of the fan around the first corner. -/
def IsFan {α : Type} (ps : List α) (a b c : α) : Prop :=
  ps[0]? = some a ∧ ∃ i : Nat, ps[i + 1]? = some b ∧ ps[i + 2]? = some c

/-- A mix of three vectors. -/
def Mix (w₀ w₁ w₂ : ℝ) (a b c : Vec ℝ) : Vec ℝ :=
  ⟨w₀ * a.x + w₁ * b.x + w₂ * c.x, w₀ * a.y + w₁ * b.y + w₂ * c.y, w₀ * a.z + w₁ * b.z + w₂ * c.z⟩

/-- How far a point is to the inner side of an edge of a polygon with this normal. -/
noncomputable def inward (n a b p : Vec ℝ) : ℝ := dot (cross (sub b a) n) (sub p a) / L (sub b a)

/-- Three corners in a row on a line through the first, on the same side of it. -/
def Flat (a b c : Vec ℝ) : Prop := ∃ t : ℝ, 0 < t ∧ sub c a = smul t (sub b a)

/-- A triangle that faces the normal and is not too small. -/
def Big (n a b c : Vec ℝ) : Prop :=
  (∃ s : ℝ, 2 * areaEps ≤ s ∧ areaVec a b c = smul s n) ∧
  pointEps ≤ L (sub b a) ∧ pointEps ≤ L (sub c b) ∧ pointEps ≤ L (sub a c)

/-- A face that has no tiny edge: each triangle around its first corner is flat or faces the normal, not all are flat. -/
structure WellFormed (n : Vec ℝ) (ps : List (Vec ℝ)) : Prop where
  unit : dot n n = 1
  edge : ∀ a b, IsEdge ps a b → pointEps ≤ L (sub b a)
  fan : ∀ a b c, IsFan ps a b c → Flat a b c ∨ Big n a b c
  some : ∃ a b c, IsFan ps a b c ∧ Big n a b c

end Verif.Samples
