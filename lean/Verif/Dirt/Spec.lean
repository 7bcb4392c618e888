import Verif.Dirt.Model

/-!
What C215 says, apart from the model.
-/

namespace Verif.Dirt.Spec

open Verif.Geom

/-- The limits of the settings (light/light.cc:180-184). -/
def Valid (cfg : Conf) : Prop := 1 ≤ cfg.depth ∧ 1 ≤ cfg.angle ∧ cfg.angle ≤ 90

/-- Numbers of `Random()`. -/
def Draws (rnd : ℕ → ℝ × ℝ) : Prop := ∀ j, 0 ≤ (rnd j).1 ∧ (rnd j).1 ≤ 1 ∧ 0 ≤ (rnd j).2 ∧ (rnd j).2 ≤ 1

/-- The point on a ray at a multiple of its direction. -/
def along (o d : Vec ℝ) (t : ℝ) : Vec ℝ := ⟨o.x + t * d.x, o.y + t * d.y, o.z + t * d.z⟩

/-- A tracer that finds the first of the given points on each ray, up to its limit. -/
def Traces (solid : Vec ℝ → Prop) (hit : Tracer) : Prop := ∀ o d m,
  (∀ t, hit o d m = some t → 0 ≤ t ∧ t ≤ m ∧ solid (along o d t) ∧ ∀ s, 0 ≤ s → s < t → ¬ solid (along o d s)) ∧
  (hit o d m = none → ∀ s, 0 ≤ s → s ≤ m → ¬ solid (along o d s))

/-- The square of the distance of two points. -/
def distSq (a b : Vec ℝ) : ℝ := (a.x - b.x) ^ 2 + (a.y - b.y) ^ 2 + (a.z - b.z) ^ 2

/-- A vector of length one. -/
def Normed (n : Vec ℝ) : Prop := n.x ^ 2 + n.y ^ 2 + n.z ^ 2 = 1

end Verif.Dirt.Spec
