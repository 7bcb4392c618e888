import Mathlib.Analysis.SpecialFunctions.Pow.Real
import Mathlib.Analysis.SpecialFunctions.Trigonometric.Inverse
import Mathlib.Tactic.Linarith
import Mathlib.Tactic.NormNum
import Verif.Geom.Model

/-!
Model of the light that an entity casts on a face (light/ltface.cc:800-1250) and of the checks of its keys
(light/entities.cc:241-345).

Simplifications: `float` and `double` are replaced by the reals, that is, arithmetic is exact. A division by zero, which
gives an infinity or a NaN in the code, is the result `none`. The two kinds of `-visapprox` are not modelled: nothing is
skipped because of them. A projected texture is a function from sample points to colours.
-/

namespace Verif.Illum

open Verif.Geom

/-- `light_formula_t` (include/light/entities.hh:45-58). -/
inductive Formula where
  | linear
  | inverse
  | inverse2
  | infinite
  | localmin
  | inverse2a
  deriving DecidableEq

/-- A spotlight: `spotvec`, `spotfalloff` and `spotfalloff2` (include/light/entities.hh:63-66). -/
structure Spot where
  vec : Vec ℝ
  falloff : ℝ
  falloff2 : ℝ

/-- The fields of `light_t` (include/light/entities.hh:60-118) that the light on a face depends on. `spot` is `none`
where `spotlight` is false; `proj` is `none` where there is no projected texture, and otherwise it gives what
`LightFace_SampleMipTex` (light/ltface.cc:920-957) says at a point. -/
structure Light where
  light : ℝ
  atten : ℝ
  formula : Formula
  falloff : ℝ
  anglescale : ℝ
  bleed : Bool
  origin : Vec ℝ
  color : Vec ℝ
  spot : Option Spot
  proj : Option (Vec ℝ → Option (Vec ℝ))
  dirt : ℝ
  dirtscale : ℝ
  dirtgain : ℝ
  onRadius : Option ℝ
  offRadius : Option ℝ
  mask : Nat

/-- The settings the light on a face depends on (light/light.cc:166-183 and 290). -/
structure Cfg where
  scaledist : ℝ
  gate : ℝ
  dirtInUse : Bool
  dirt : Bool
  dirtscale : ℝ
  dirtgain : ℝ

/-- `lightsurf_t::sample_data_t` (include/light/light.hh:116-129). -/
structure Sample where
  point : Vec ℝ
  normal : Vec ℝ
  occluded : Bool
  occlusion : ℝ

/-- The fields of `lightsurf_t` (include/light/light.hh:92-135) used here. `center` and `radius` are the bounding sphere
`extents.origin` and `extents.radius`. -/
structure Surf where
  plane : Plane ℝ
  center : Vec ℝ
  radius : ℝ
  curved : Bool
  twosided : Bool
  nodirt : Bool
  mask : Nat
  samples : List Sample

/-- `operator-` of `qvec`. -/
def vsub (a b : Vec ℝ) : Vec ℝ := ⟨a.x - b.x, a.y - b.y, a.z - b.z⟩

/-- `operator*` of `qvec` with a number. -/
def smul (k : ℝ) (a : Vec ℝ) : Vec ℝ := ⟨k * a.x, k * a.y, k * a.z⟩

/-- `qv::length`. -/
noncomputable def len (a : Vec ℝ) : ℝ := Real.sqrt (dot a a)

/-- `light / (value / LF_SCALE)` and the like: `none` where the divisor is zero. -/
noncomputable def over (a b : ℝ) : Option ℝ := if b = 0 then none else some (a / b)

/-- The linear formula (light/ltface.cc:836-840). -/
noncomputable def linearValue (light value : ℝ) : ℝ :=
  if light > 0 then if light - value > 0 then light - value else 0
  else if light + value < 0 then light + value else 0

/-- The part of `GetLightValue` after the falloff (light/ltface.cc:823-843). -/
noncomputable def plainValue (scaledist : ℝ) (l : Light) (dist : ℝ) : Option ℝ :=
  let value := scaledist * l.atten * dist
  match l.formula with
  | .infinite => some l.light
  | .localmin => some l.light
  | .inverse => over l.light (value / 128)
  | .inverse2a => over l.light ((value + 128) * (value + 128) / (128 * 128))
  | .inverse2 => over l.light (value * value / (128 * 128))
  | .linear => some (linearValue l.light value)

/-- `GetLightValue` (light/ltface.cc:806-844). -/
noncomputable def lightValue (scaledist : ℝ) (l : Light) (dist : ℝ) : Option ℝ :=
  if l.falloff > 0 ∧ l.formula = .linear then
    if l.falloff > dist then some (l.light * (1 - dist / l.falloff)) else some 0
  else plainValue scaledist l dist

/-- The scale of a spotlight; `none` outside the cone (light/ltface.cc:872-884). -/
noncomputable def spotScale (spot : Option Spot) (dir : Vec ℝ) : Option ℝ :=
  match spot with
  | none => some 1
  | some s =>
    let falloff := dot s.vec dir
    if falloff > s.falloff then none
    else if falloff > s.falloff2 then some (1 - (falloff - s.falloff2) / (s.falloff - s.falloff2))
    else some 1

/-- The cosine of the angle of incidence, before the angle scale (light/ltface.cc:849-864). -/
noncomputable def incidence (l : Light) (normal dir : Vec ℝ) (twosided : Bool) : ℝ :=
  let angle := dot dir normal
  if (l.bleed || twosided) = true ∧ angle < 0 then -angle else angle

/-- `GetLightValueWithAngle` with the normal in use (light/ltface.cc:846-890). -/
noncomputable def valueWithAngle (scaledist : ℝ) (l : Light) (normal dir : Vec ℝ) (dist : ℝ) (twosided : Bool) :
    Option ℝ :=
  let angle := incidence l normal dir twosided
  if angle < 0 then some 0
  else
    match spotScale l.spot dir with
    | none => some 0
    | some sc => (lightValue scaledist l dist).map fun v => v * ((1 - l.anglescale) + l.anglescale * angle) * sc

/-- The distance and the direction from a sample point to the light (light/ltface.cc:963-969; `GetDir`,
include/common/qvec.hh:1059-1062). -/
noncomputable def toLight (l : Light) (point : Vec ℝ) : ℝ × Vec ℝ :=
  let d := vsub l.origin point
  if len d < 1 / 10 then (1 / 10, ⟨0, 0, 1⟩) else (len d, smul (1 / len d) d)

/-- The colour that the light has at a point, in 0 to 255 (light/ltface.cc:974-988). -/
noncomputable def colorAt (l : Light) (point : Vec ℝ) : Vec ℝ :=
  match l.proj with
  | none => l.color
  | some f =>
    match f point with
    | none => ⟨0, 0, 0⟩
    | some c => ⟨c.x * (l.color.x * (1 / 255)), c.y * (l.color.y * (1 / 255)), c.z * (l.color.z * (1 / 255))⟩

/-- `GetLightContrib` (light/ltface.cc:959-992): the colour that is added. -/
noncomputable def contrib (scaledist : ℝ) (l : Light) (s : Sample) (twosided : Bool) : Option (Vec ℝ) :=
  let td := toLight l s.point
  (valueWithAngle scaledist l s.normal td.2 td.1 twosided).map fun add => smul (add * (1 / 255)) (colorAt l s.point)

/-- `fraction` (light/ltface.cc:1017-1025). -/
noncomputable def fraction (min val max : ℝ) : ℝ :=
  if val ≥ max then 1 else if val ≤ min then 0 else (val - min) / (max - min)

/-- Whether dirt is used at all (light/ltface.cc:1040-1063). -/
def usesDirt (cfg : Cfg) (l : Option Light) : Prop :=
  match l with
  | none => True
  | some e => e.dirt = 1 ∨ (e.dirt ≠ -1 ∧ cfg.dirt = true)

/-- The gain and the scale in use (light/ltface.cc:1036-1037 and 1069-1076). -/
noncomputable def dirtGain (cfg : Cfg) (l : Option Light) : ℝ :=
  match l with
  | none => cfg.dirtgain
  | some e => if e.dirtgain ≠ 0 then e.dirtgain else cfg.dirtgain

noncomputable def dirtScale (cfg : Cfg) (l : Option Light) : ℝ :=
  match l with
  | none => cfg.dirtscale
  | some e => if e.dirtscale ≠ 0 then e.dirtscale else cfg.dirtscale

/-- The dirt after gain and scale (light/ltface.cc:1083-1094). -/
noncomputable def rawDirt (cfg : Cfg) (l : Option Light) (occlusion : ℝ) : ℝ :=
  min (min (occlusion ^ dirtGain cfg l) 1 * dirtScale cfg l) 1

/-- The ramp between the two radii of the light (light/ltface.cc:1096-1116). -/
noncomputable def ramp (l : Option Light) (dist out : ℝ) : ℝ :=
  match l with
  | none => out
  | some e =>
    match e.onRadius, e.offRadius with
    | some on, some off =>
      if dist < off then 0 else if dist ≥ off ∧ dist < on then fraction off dist on * out else out
    | _, _ => out

open Classical in
/-- `Dirt_GetScaleFactor` (light/ltface.cc:1033-1120). -/
noncomputable def dirtFactor (cfg : Cfg) (nodirt : Bool) (occlusion : ℝ) (l : Option Light) (dist : ℝ) : ℝ :=
  if cfg.dirtInUse = false then 1
  else if nodirt = true then 1
  else if ¬ usesDirt cfg l then 1
  else if occlusion ≤ 0 then 1
  else 1 - ramp l dist (rawDirt cfg l occlusion)

/-- `LightSample_Brightness` (include/light/light.hh:50-54). -/
noncomputable def brightness (c : Vec ℝ) : ℝ := (c.x + c.y + c.z) / 3

/-- What `GetLightContrib` and the dirt give at a sample (light/ltface.cc:1233-1238). -/
noncomputable def sampleColor (cfg : Cfg) (l : Light) (s : Surf) (p : Sample) : Option (Vec ℝ) :=
  (contrib cfg.scaledist l p s.twosided).map
    (smul (dirtFactor cfg s.nodirt p.occlusion (some l) (toLight l p.point).1))

/-- `fabs(v) <= gate`, false for what is not a number or infinite. -/
def atMost (gate : ℝ) (v : Option ℝ) : Prop :=
  match v with
  | none => False
  | some x => |x| ≤ gate

open Classical in
/-- One round of the loop over the samples: the ray that is pushed, if any (light/ltface.cc:1219-1246). -/
noncomputable def pushed (cfg : Cfg) (l : Light) (s : Surf) (p : Sample) : Option (Option (Vec ℝ)) :=
  if p.occluded = true then none
  else if atMost cfg.gate ((sampleColor cfg l s p).map brightness) then none
  else some (sampleColor cfg l s p)

/-- The loop over the samples: the index of each sample that a ray is cast for, with its colour. -/
noncomputable def rays (cfg : Cfg) (l : Light) (s : Surf) : List (Nat × Option (Vec ℝ)) :=
  s.samples.zipIdx.filterMap fun p => (pushed cfg l s p.1).map fun c => (p.2, c)

/-- `CullLight` without `-visapprox rays` (light/ltface.cc:1120-1146). -/
noncomputable def cullLight (cfg : Cfg) (l : Light) (s : Surf) : Prop :=
  let dist := len (vsub l.origin s.center) - s.radius
  ¬ dist < 0 ∧ atMost cfg.gate (lightValue cfg.scaledist l dist)

/-- The light is behind the surface (light/ltface.cc:1191-1202). -/
def behind (l : Light) (s : Surf) : Prop :=
  s.plane.distTo l.origin < 0 ∧ l.bleed = false ∧ s.curved = false ∧ s.twosided = false

open Classical in
/-- The rays `LightFace_Entity` casts (light/ltface.cc:1177-1246), without `-visapprox`. -/
noncomputable def faceRays (cfg : Cfg) (l : Light) (s : Surf) : List (Nat × Option (Vec ℝ)) :=
  if behind l s then []
  else if cullLight cfg l s then []
  else if l.mask &&& s.mask = 0 then []
  else rays cfg l s

/-- `light_t` as it is read from the map, before `CheckEntityFields`: `lightSet` says that the `light` key is there. -/
structure Raw where
  base : Light
  lightSet : Bool
  deviance : ℝ
  samples : ℕ

/-- The number of jittered copies (light/entities.cc:307-315). -/
noncomputable def jitter (deviance : ℝ) (samples : ℕ) : ℕ :=
  let n := if deviance > 0 ∧ samples = 0 then 16 else samples
  if deviance ≤ 0 ∨ n ≤ 1 then 1 else n

/-- Whether the light value is divided by the number of samples (light/entities.cc:319-324). -/
def divides (addmin : Bool) : Formula → Bool
  | .inverse => true
  | .inverse2 => true
  | .infinite => true
  | .localmin => addmin
  | .inverse2a => true
  | .linear => false

/-- `CheckEntityFields` (light/entities.cc:290-345): the values, without the warnings. `global` is the worldspawn
`anglescale`, `addmin` the worldspawn `addmin`. -/
noncomputable def checkFields (global : ℝ) (addmin : Bool) (r : Raw) : Light × ℕ :=
  let n := jitter r.deviance r.samples
  let light := if r.lightSet then r.base.light else 300
  ({ r.base with
      light := if divides addmin r.base.formula then light / n else light
      atten := if r.base.atten ≤ 0 then 1 else r.base.atten
      anglescale := if r.base.anglescale < 0 ∨ r.base.anglescale > 1 then global else r.base.anglescale
      falloff := if r.base.falloff > 0 ∧ r.base.formula ≠ .linear then 0 else r.base.falloff }, n)

/-- The cone's diameter in degrees (light/entities.cc:254-274): `cone` and `angle` are there if the map sets them,
`dflt` is the default of the game. -/
noncomputable def baseAngle (cone angle : Option ℝ) (dflt : ℝ) : ℝ :=
  let a := match cone with
    | some c => c * 2
    | none => angle.getD 0
  if a = 0 then dflt else a

/-- The softer cone's diameter (light/entities.cc:278-280). -/
noncomputable def softAngle (base soft : ℝ) : ℝ := if soft ≤ 0 ∨ soft > base then base else soft

/-- The spotlight fields that `SetupSpotlights` (light/entities.cc:241-288) sets, `vec` being the direction. -/
noncomputable def setupSpot (vec : Vec ℝ) (base soft : ℝ) : Spot :=
  { vec := vec
    falloff := -Real.cos (base / 2 * Real.pi / 180)
    falloff2 := -Real.cos (softAngle base soft / 2 * Real.pi / 180) }

end Verif.Illum
