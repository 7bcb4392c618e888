import Verif.SunRay.Model
import Verif.Illum.Surface

/-!
Model of the light of emissive surfaces and of bounced light at a point of the light grid (light/ltface.cc:2113-2191).

Simplifications: as in `Verif.SunRay.Model` and `Verif.Illum.Surface`. Whether a surface is skipped by `-visapprox vis`
(`SurfaceLight_VisCull`, modelled in `Verif.VisCull`) is a part of it.
-/

namespace Verif.SunRay

open Verif.Geom Verif.Illum

/-- One of the styles of an emissive surface (`surfacelight_t::per_style_t`, include/light/surflight.hh:38-70). -/
structure Glow where
  emitter : Emitter
  bounced : Bool
  style : Int

/-- An emissive surface with its points and styles. -/
structure GlowSurf where
  culled : Bool
  points : List (Vec ℝ)
  glows : List Glow

open Classical in
/-- The direction from a point of the surface (light/ltface.cc:2135-2141). -/
noncomputable def fromGlow (pos point : Vec ℝ) : Vec ℝ :=
  let d := vsub point pos
  if len d = 0 then ⟨0, 0, 1⟩ else smul (1 / len d) d

/-- The colour of a point of a surface at a point of the grid (light/ltface.cc:2134-2166, with `LIGHTPOINT_TAKE_MAX`,
light/ltface.cc:1303). -/
noncomputable def pointGlow (c : SurfCfg) (ps : Pass) (e : Emitter) (pos point : Vec ℝ) : Vec ℝ :=
  longest (cube.map fun n => surfaceLighting c e ps (fromGlow pos point) (len (vsub point pos)) n true)

open Classical in
/-- What a point of a surface adds in a style (light/ltface.cc:2131-2187). `clear` is `none` if the ray from a point of the
surface is blocked and otherwise what glass does to its colour. -/
noncomputable def glowRay (c : SurfCfg) (ps : Pass) (gate : ℝ) (bounce : Bool)
    (clear : Vec ℝ → Vec ℝ → Option (Vec ℝ → Vec ℝ)) (point pos : Vec ℝ) (g : Glow) : Option (Int × Vec ℝ) :=
  if g.bounced ≠ bounce then none
  else if gated (pointGlow c ps g.emitter pos point) gate then none
  else (clear pos point).map fun tint => (g.style, tint (pointGlow c ps g.emitter pos point))

/-- `LightPoint_SurfaceLight` (light/ltface.cc:2113-2191): the styles and colours added. -/
noncomputable def pointSurfaces (c : SurfCfg) (ps : Pass) (gate : ℝ) (bounce : Bool)
    (clear : Vec ℝ → Vec ℝ → Option (Vec ℝ → Vec ℝ)) (surfs : List GlowSurf) (point : Vec ℝ) : List (Int × Vec ℝ) :=
  surfs.flatMap fun s =>
    if s.culled then []
    else s.points.flatMap fun pos => s.glows.filterMap (glowRay c ps gate bounce clear point pos)

end Verif.SunRay
