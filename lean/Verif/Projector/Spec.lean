import Mathlib.Analysis.SpecialFunctions.Trigonometric.Arctan
import Verif.Geom.Model

/-!
What the claims on lights that project a texture say: a projector at a place, that looks into a direction.
-/

namespace Verif.Projector

open Verif.Geom

/-- Degrees in radians. -/
noncomputable def rad (d : ℝ) : ℝ := d * (Real.pi / 180)

/-- Where a projector with a yaw and a pitch points. -/
noncomputable def ahead (yaw pitch : ℝ) : Vec ℝ :=
  ⟨Real.cos (rad yaw) * Real.cos (rad pitch), Real.sin (rad yaw) * Real.cos (rad pitch), Real.sin (rad pitch)⟩

/-- Its right side, which is level without roll. -/
noncomputable def level (yaw : ℝ) : Vec ℝ := ⟨Real.sin (rad yaw), -Real.cos (rad yaw), 0⟩

/-- Its upper side without roll. -/
noncomputable def upright (yaw pitch : ℝ) : Vec ℝ :=
  ⟨-(Real.cos (rad yaw) * Real.sin (rad pitch)), -(Real.sin (rad yaw) * Real.sin (rad pitch)), Real.cos (rad pitch)⟩

/-- A mix of two vectors. -/
def mix (a : ℝ) (u : Vec ℝ) (b : ℝ) (v : Vec ℝ) : Vec ℝ :=
  ⟨a * u.x + b * v.x, a * u.y + b * v.y, a * u.z + b * v.z⟩

/-- The right side with roll: it turns downwards. -/
noncomputable def right (yaw pitch roll : ℝ) : Vec ℝ :=
  mix (Real.cos (rad roll)) (level yaw) (-Real.sin (rad roll)) (upright yaw pitch)

/-- The upper side with roll: it turns to the right. -/
noncomputable def up (yaw pitch roll : ℝ) : Vec ℝ :=
  mix (Real.sin (rad roll)) (level yaw) (Real.cos (rad roll)) (upright yaw pitch)

/-- From one point to another. -/
def fromTo (o p : Vec ℝ) : Vec ℝ := ⟨p.x - o.x, p.y - o.y, p.z - o.z⟩

/-- The tangent of half an angle in degrees. -/
noncomputable def halfTan (deg : ℝ) : ℝ := Real.tan (rad (deg / 2))

/-- The tangent of half the angle that a side of the image spans, if the longer side spans an angle and the pixels are
square. -/
noncomputable def sideTan (fov : ℝ) (side other : Nat) : ℝ := halfTan fov * (side / max side other : ℝ)

/-- Three directions of length one, at right angles, so that right, up and backwards are a right-handed system. -/
structure Frame (f r u : Vec ℝ) : Prop where
  ff : dot f f = 1
  rr : dot r r = 1
  uu : dot u u = 1
  fr : dot f r = 0
  fu : dot f u = 0
  ru : dot r u = 0
  hand : (⟨r.y * u.z - r.z * u.y, r.z * u.x - r.x * u.z, r.x * u.y - r.y * u.x⟩ : Vec ℝ) = ⟨-f.x, -f.y, -f.z⟩

end Verif.Projector
