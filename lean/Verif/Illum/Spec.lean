import Verif.Illum.Model

/-!
What the theorems about the light of entities say, apart from how the code computes it.
-/

namespace Verif.Illum

open Verif.Geom

/-- A vector of length one. -/
def Unit (v : Vec ℝ) : Prop := dot v v = 1

/-- The settings and the keys of a light as the documentation allows them: distances scaled by a number that is not
negative, a colour in 0 to 255, an angle scale in 0 to 1, dirt that does not brighten, a soft cone within the cone, and
no projected texture. -/
structure Fair (cfg : Cfg) (l : Light) : Prop where
  scaledist : 0 ≤ cfg.scaledist
  gate : 0 ≤ cfg.gate
  atten : 0 < l.atten
  color : ∀ c ∈ [l.color.x, l.color.y, l.color.z], 0 ≤ c ∧ c ≤ 255
  angle : 0 ≤ l.anglescale ∧ l.anglescale ≤ 1
  dirt : 0 ≤ cfg.dirtscale ∧ 0 ≤ l.dirtscale
  spot : ∀ s, l.spot = some s → s.falloff2 ≤ s.falloff
  proj : l.proj = none

/-- The samples of a surface have normals of length one and are within the bounding sphere. -/
def Within (s : Surf) : Prop :=
  ∀ p ∈ s.samples, Unit p.normal ∧ len (vsub p.point s.center) ≤ s.radius

/-- The samples of a surface that is not smoothed have the normal of its plane and are in front of it. -/
def InFront (s : Surf) : Prop :=
  s.curved = false → ∀ p ∈ s.samples, p.normal = s.plane.normal ∧ 1 / 10 ≤ s.plane.distTo p.point

/-- The angle at the light between the axis of the spotlight and the way to the sample, in radians: `dir` is the
direction from the sample to the light. -/
noncomputable def offAxis (vec dir : Vec ℝ) : ℝ := Real.arccos (-(dot vec dir))

/-- Degrees to radians, of half a cone's diameter. -/
noncomputable def half (degrees : ℝ) : ℝ := degrees / 2 * Real.pi / 180

end Verif.Illum
