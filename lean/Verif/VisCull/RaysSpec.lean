import Verif.VisCull.Rays

/-!
What the estimate of the space that a light sees shall be.
-/

namespace Verif.VisCull.Spec

open Verif.Geom Verif.Geom.Spec

/-- The directions that are tried: 32 turns around the vertical axis with 32 heights each. -/
def Tried (d : Pt ℝ 3) : Prop :=
  ∃ x y : Nat, x < 32 ∧ y < 32 ∧ d 2 = 2 * ((y : ℝ) / 31) - 1 ∧ d 0 ^ 2 + d 1 ^ 2 + d 2 ^ 2 = 1 ∧
    d 0 = Real.sqrt (1 - d 2 ^ 2) * Real.cos (2 * Real.pi * x / 31) ∧
    d 1 = Real.sqrt (1 - d 2 ^ 2) * Real.sin (2 * Real.pi * x / 31)

/-- The places that the light is known to see: its own, and the ends of the rays. -/
def Seen (hit : Pt ℝ 3 → Pt ℝ 3 → ℝ) (p q : Pt ℝ 3) : Prop := q = p ∨ ∃ d, Tried d ∧ ∀ i, q i = p i + hit p d * d i

/-- The smallest box around a set of places. -/
def Tight (s : Pt ℝ 3 → Prop) (t : Box ℝ 3) : Prop :=
  Proper t ∧ (∀ q, s q → Inside t q) ∧ ∀ c : Box ℝ 3, (∀ q, s q → Inside c q) → ∀ q, Inside t q → Inside c q

/-- The box made larger on each side by a quarter of its size. -/
def Widened (t b : Box ℝ 3) : Prop :=
  ∀ i, b.mins i = t.mins i - (t.maxs i - t.mins i) / 4 ∧ b.maxs i = t.maxs i + (t.maxs i - t.mins i) / 4

/-- An empty space between a floor and a ceiling, at heights `-h` and `h`; a ray from the middle ends at one of them. -/
noncomputable def slabHit (h : ℝ) (_p d : Pt ℝ 3) : ℝ := h / |d 2|

/-- Nothing is between two places in that space. -/
def ClearView (h : ℝ) (p q : Pt ℝ 3) : Prop := ∀ t : ℝ, 0 ≤ t → t ≤ 1 → |p 2 + t * (q 2 - p 2)| < h

end Verif.VisCull.Spec
