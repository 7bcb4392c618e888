import Mathlib.Analysis.SpecialFunctions.Trigonometric.Basic
import Mathlib.Tactic.Linarith
import Mathlib.Tactic.NormNum
import Verif.Geom.Model

/-!
Model of the occlusion used for dirt (light/ltface.cc:2255-2424, include/common/qvec.hh:537-593).

Simplifications: `float` is replaced by the reals, that is, arithmetic is exact. What a ray hits is a parameter (which triangles
count is modelled in `Verif.Shadow`). The numbers of `rand` are a parameter.
-/

namespace Verif.Dirt

open Verif.Geom

/-- `operator*` of `qvec` with a number. -/
def smul (k : ℝ) (a : Vec ℝ) : Vec ℝ := ⟨k * a.x, k * a.y, k * a.z⟩

/-- `operator+` of `qvec`. -/
def vadd (a b : Vec ℝ) : Vec ℝ := ⟨a.x + b.x, a.y + b.y, a.z + b.z⟩

/-- `qv::cross`. -/
def cross (a b : Vec ℝ) : Vec ℝ := ⟨a.y * b.z - a.z * b.y, a.z * b.x - a.x * b.z, a.x * b.y - a.y * b.x⟩

/-- `qv::normalize`. -/
noncomputable def normalize (a : Vec ℝ) : Vec ℝ := smul (1 / Real.sqrt (dot a a)) a

/-- `indexOfLargestMagnitudeComponent` (include/common/qvec.hh:537-553): the first of the largest. -/
noncomputable def largest (v : Vec ℝ) : Fin 3 :=
  if |v.x| ≥ |v.y| then (if |v.x| ≥ |v.z| then 0 else 2) else (if |v.y| ≥ |v.z| then 1 else 2)

/-- The unit vector of an axis. -/
def unit (i : Fin 3) : Vec ℝ := match i with | 0 => ⟨1, 0, 0⟩ | 1 => ⟨0, 1, 0⟩ | 2 => ⟨0, 0, 1⟩

/-- `MakeTangentAndBitangentUnnormalized` (include/common/qvec.hh:555-593). -/
noncomputable def tangents (normal : Vec ℝ) : Vec ℝ × Vec ℝ :=
  let axis := largest normal
  let tangent := cross normal (unit (axis + 1))
  let bitangent := cross normal (unit (axis + 2))
  if dot (cross tangent bitangent) normal < 0 then (bitangent, tangent) else (tangent, bitangent)

/-- A vector from its angles, in radians (light/ltface.cc:2318-2320, 2345). -/
noncomputable def vector (angle elevation : ℝ) : Vec ℝ :=
  ⟨Real.sin elevation * Real.cos angle, Real.sin elevation * Real.sin angle, Real.cos elevation⟩

/-- `DEG2RAD`. -/
noncomputable def deg2rad (a : ℝ) : ℝ := a * (Real.pi / 180)

/-- `SetupDirt` (light/ltface.cc:2307-2323): the table of 16 angles with 3 elevations each. -/
noncomputable def dirtVectors (dirtangle : ℝ) : List (Vec ℝ) :=
  (List.range 16).flatMap fun (i : ℕ) => (List.range 3).map fun (j : ℕ) =>
    vector (i * deg2rad (360 / 16)) (deg2rad (dirtangle / 3) * (1 / 2) + j * deg2rad (dirtangle / 3))

/-- The settings used here (light/light.cc:180-184); their limits are in `Spec.Valid`. -/
structure Conf where
  random : Bool
  depth : ℝ
  angle : ℝ

/-- `GetDirtVector` (light/ltface.cc:2337-2349), with the next two numbers of `Random()`. -/
noncomputable def getVector (cfg : Conf) (rnd : ℝ × ℝ) (i : ℕ) : Vec ℝ :=
  if cfg.random then vector (rnd.1 * deg2rad 360) (rnd.2 * deg2rad cfg.angle) else (dirtVectors cfg.angle).getD i ⟨0, 0, 0⟩

/-- `TransformToTangentSpace` (light/ltface.cc:2330-2334) with the vectors of a normal (2376-2379). -/
noncomputable def toTangentSpace (normal v : Vec ℝ) : Vec ℝ :=
  vadd (vadd (smul v.x (normalize (tangents normal).2)) (smul v.y (normalize (tangents normal).1))) (smul v.z normal)

/-- What is hit by a ray with an origin, a direction and a limit: the nearest solid hit, as a multiple of the direction, unless the
nearest hit is sky or beyond the limit (light/ltface.cc:2404-2411, include/light/trace_embree.hh:276-288). -/
abbrev Tracer := Vec ℝ → Vec ℝ → ℝ → Option ℝ

/-- One ray for a sample (light/ltface.cc:2394-2397, 2410-2415). -/
noncomputable def rayDist (cfg : Conf) (hit : Tracer) (point normal : Vec ℝ) (rnd : ℝ × ℝ) (j : ℕ) : ℝ :=
  match hit point (toTangentSpace normal (getVector cfg rnd j)) cfg.depth with
  | some dist => min cfg.depth dist
  | none => cfg.depth

/-- `LightFace_CalculateDirt` (light/ltface.cc:2356-2424) for one sample; `rnd j` are the numbers drawn for its ray `j`. -/
noncomputable def occlusion (cfg : Conf) (hit : Tracer) (point normal : Vec ℝ) (occluded : Bool) (rnd : ℕ → ℝ × ℝ) : ℝ :=
  let sum := if occluded then 0 else ((List.range 48).map fun j => rayDist cfg hit point normal (rnd j) j).sum
  1 - sum / 48 / cfg.depth

/-- The keys `SetupDirt` looks at; `dirtCmdline` is true if `dirt` comes from the command line. -/
structure Keys where
  dirt : Bool
  dirtCmdline : Bool
  minlightDirt : Bool
  sunlightDirt : ℝ
  sunlight2Dirt : ℝ
  lights : List ℝ

/-- `boolValue` of a number (include/common/settings.hh:297). -/
noncomputable def boolValue (x : ℝ) : Bool := 0 < x

/-- `SetupDirt` (light/ltface.cc:2276-2302), after `ResetLight` (light/light.cc:1294): whether dirt is in use. -/
noncomputable def inUse (k : Keys) : Bool :=
  if !k.dirt && k.dirtCmdline then false
  else (k.dirt || k.minlightDirt || boolValue k.sunlightDirt || boolValue k.sunlight2Dirt) || k.lights.any boolValue

end Verif.Dirt
