import Verif.DivBounds.Model

/-!
What is expected of the measure.
-/

namespace Verif.DivBounds.Spec

open Geom Geom.Spec

variable {K : Type} [Field K] [LinearOrder K]

/-- The points on both sides of a plane. -/
def Front (s : Split K) (p : Pt K 3) : Prop := s.normal 0 * p 0 + s.normal 1 * p 1 + s.normal 2 * p 2 ≥ s.dist
def Back (s : Split K) (p : Pt K 3) : Prop := s.normal 0 * p 0 + s.normal 1 * p 1 + s.normal 2 * p 2 ≤ s.dist

/-- The parts of a box on both sides of a plane. -/
def FrontPart (b : Box K 3) (s : Split K) (p : Pt K 3) : Prop := Inside b p ∧ Front s p
def BackPart (b : Box K 3) (s : Split K) (p : Pt K 3) : Prop := Inside b p ∧ Back s p

/-- The type of a plane fits its normal: an axial plane faces along its axis. -/
def TypeFits (s : Split K) : Prop := ∀ t, s.axis = some t → ∀ a, s.normal a = if a = t then 1 else 0

/-- A box with a volume. -/
def Solid (b : Box K 3) : Prop := ∀ a, b.mins a < b.maxs a

/-- A box is the least one around some points. -/
def LeastBox (b : Box K 3) (part : Pt K 3 → Prop) : Prop :=
  (∀ p, part p → Inside b p) ∧ ∀ a, (∃ p, part p ∧ p a = b.mins a) ∧ ∃ p, part p ∧ p a = b.maxs a

end Verif.DivBounds.Spec
