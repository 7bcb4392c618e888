import Verif.Illum.Lemmas

/-!
Model of the light that emissive surfaces and bounced light cast on a face (light/ltface.cc:1905-2060) and of the strength
of each point of such a surface (light/surflight.cc:100-206, light/bounce.cc:86-130).

Simplifications: as in `Verif.Illum.Model`. The rays that are pushed are listed; tracing them and the dirt are left out,
and what is done with those that arrive is `surfaceLight` in `Verif.Illum.Maps`.
-/

namespace Verif.Illum

open Verif.Geom

/-- `surfacelight_t` with one of its `per_style_t` (include/light/surflight.hh:38-70). -/
structure Emitter where
  normal : Vec ℝ
  pos : Vec ℝ
  points : List (Vec ℝ)
  intensity : ℝ
  total : ℝ
  color : Vec ℝ
  omni : Bool
  rescale : Bool

/-- `surflightscale`, `surflightskyscale` and `surflightskydist` (light/light.cc:193-195). -/
structure SurfCfg where
  scale : ℝ
  skyScale : ℝ
  skyDist : ℝ

/-- The arguments `standard_scale`, `sky_scale` and `hotspot_clamp` (light/ltface.cc:2009). -/
structure Pass where
  standard : ℝ
  sky : ℝ
  hotspot : ℝ

/-- The pass for emissive surfaces (light/ltface.cc:2639-2640). -/
noncomputable def surfacePass (c : SurfCfg) : Pass := ⟨c.scale, c.skyScale, 16⟩

/-- The pass for bounced light (light/ltface.cc:2679-2680). -/
noncomputable def bouncePass (bouncescale : ℝ) : Pass := ⟨bouncescale * (1 / 2), bouncescale, 128⟩

/-- `SurfaceLight_ColorAtDist` (light/ltface.cc:1906-1915). -/
noncomputable def colorAtDist (scale intensity : ℝ) (color : Vec ℝ) (dist hotspot : ℝ) : Vec ℝ :=
  smul (intensity * scale * (1 / (max dist hotspot * max dist hotspot))) color

/-- `0.5f + dp * 0.5f` where `rescale` is set (light/ltface.cc:1937-1940). -/
noncomputable def rescaled (r : Bool) (dp : ℝ) : ℝ := if r then 1 / 2 + dp * (1 / 2) else dp

/-- `dotProductFactor` (light/ltface.cc:1924-1948). -/
noncomputable def angleFactor (e : Emitter) (dir normal : Vec ℝ) (useNormal : Bool) : ℝ :=
  let dp1 := dot e.normal dir
  let dp2 := if useNormal then dot (smul (-1) dir) normal else 1
  if e.omni then max 0 (dp2 * (1 / 2))
  else if dp1 < -(1 / 100) then 0
  else if dp2 < -(1 / 100) then 0
  else max 0 (rescaled e.rescale dp1 * rescaled e.rescale dp2)

/-- `GetSurfaceLighting` (light/ltface.cc:1919-1967). -/
noncomputable def surfaceLighting (c : SurfCfg) (e : Emitter) (ps : Pass) (dir : Vec ℝ) (dist : ℝ) (normal : Vec ℝ)
    (useNormal : Bool) : Vec ℝ :=
  smul (angleFactor e dir normal useNormal)
    (colorAtDist (if e.omni then ps.sky else ps.standard) e.intensity e.color
      (if e.omni then dist + c.skyDist else dist) ps.hotspot)

/-- `qv::gate` of a colour (include/common/qvec.hh:509-523). -/
def gated (v : Vec ℝ) (gate : ℝ) : Prop := v.x ≤ gate ∧ v.y ≤ gate ∧ v.z ≤ gate

/-- `SurfaceLight_SphereCull` (light/ltface.cc:1969-1991), without `-visapprox rays`. -/
noncomputable def sphereCull (c : SurfCfg) (e : Emitter) (s : Surf) (gate hotspot : ℝ) : Prop :=
  gate ≠ 0 ∧ gated (colorAtDist (if e.omni then c.skyScale else c.scale) e.total e.color
    (len (vsub s.center e.pos) + s.radius) hotspot) gate

/-- What one point of the surface casts on a sample (light/ltface.cc:2037-2056). The branch for `dist == 0` is dead, as
the distance is at least 0.01. -/
noncomputable def fromPoint (c : SurfCfg) (e : Emitter) (ps : Pass) (s : Surf) (p : Sample) (pos : Vec ℝ) : Vec ℝ :=
  let d := vsub p.point pos
  let dist := max (1 / 100) (len d)
  surfaceLighting c e ps (smul (1 / dist) d) dist p.normal (!s.twosided)

open Classical in
/-- The rays pushed for one point of the surface (light/ltface.cc:2030-2059): the samples and the colours. -/
noncomputable def pointRays (c : SurfCfg) (e : Emitter) (ps : Pass) (gate : ℝ) (s : Surf) (pos : Vec ℝ) :
    List (Nat × Vec ℝ) :=
  s.samples.zipIdx.filterMap fun p =>
    if p.1.occluded = true then none
    else if gated (fromPoint c e ps s p.1 pos) gate then none
    else some (p.2, fromPoint c e ps s p.1 pos)

open Classical in
/-- The rays of `LightFace_SurfaceLight` (light/ltface.cc:2007-2059) for one emitter and style, without `-visapprox`, one
list for each point. Surface lights are on channel 1 (`CHANNEL_MASK_DEFAULT`, include/light/light.hh:194). -/
noncomputable def surfaceRays (c : SurfCfg) (e : Emitter) (ps : Pass) (gate : ℝ) (s : Surf) : List (List (Nat × Vec ℝ)) :=
  if s.mask &&& 1 = 0 then []
  else if sphereCull c e s gate ps.hotspot then []
  else e.points.map (pointRays c e ps gate s)

/-- The total of the surface and the strength of each of its points (light/surflight.cc:203-204): `before` is the number
of points before those in the void are dropped. -/
noncomputable def strength (intensity area : ℝ) (before : Nat) : ℝ × ℝ := (intensity * area, intensity * area / before)

end Verif.Illum
