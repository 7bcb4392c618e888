import Verif.Illum.Model
import Verif.Suns.Model

/-!
Model of sunlight on faces (light/ltface.cc:1360-1480) and of the light of suns and entities at a point of the light grid
(light/ltface.cc:1303-1358, 1482-1544).

Simplifications: `float` is replaced by the reals, that is, arithmetic is exact. What a ray meets is a parameter (which triangles count
is modelled in `Verif.Shadow`). A division by zero in the formula of a light is `none`, as in `Verif.Illum`.
-/

namespace Verif.SunRay

open Verif.Geom Verif.Illum
open Verif.Cmdlib (Str)

/-- `qv::normalize` (include/common/qvec.hh:455-460). -/
noncomputable def norm (v : Vec ℝ) : Vec ℝ := if len v = 0 then v else smul (1 / len v) v

/-- The first thing a ray to the sun meets, as far as it matters: sky has a texture, and the ray has noted the style of a switchable
shadow and glass, by which its colour is changed (`getPushedRayHitType`, `getPushedRayHitFaceInfo`, `dynamic_style` and
`getPushedRayColor`, include/light/trace_embree.hh:80-98, 278-303). -/
inductive Seen where
  | nothing
  | solid
  | sky (texture : Str) (style : Int) (tint : Vec ℝ → Vec ℝ)

/-- The texture of a sun (`suntexture_value`; light/entities.cc:394-397): `find` is whether `img::find` knows a name. -/
def sunTexture (find : Str → Bool) (sun : Suns.Sun) : Option Str :=
  if sun.texture ≠ [] ∧ find sun.texture = true then some sun.texture else none

/-- The share of the light at an angle (light/ltface.cc:1407-1409, 1505-1506). -/
noncomputable def share (anglescale angle : ℝ) : ℝ := (1 - anglescale) + anglescale * max 0 angle

/-- The colour of the sun at a sample (light/ltface.cc:1400-1416). -/
noncomputable def sunColor (cfg : Cfg) (sun : Suns.Sun) (surf : Surf) (p : Sample) : Vec ℝ :=
  let angle := dot (norm sun.vec) p.normal
  let angle := if surf.twosided = true ∧ angle < 0 then -angle else angle
  let value := share sun.anglescale angle * sun.light
  let value := if sun.dirt then value * dirtFactor cfg surf.nodirt p.occlusion none 0 else value
  smul (value / 255) sun.color

open Classical in
/-- One sample: the ray cast, if any, and what is added to which style (light/ltface.cc:1394-1426 and 1441-1473). -/
noncomputable def sample (cfg : Cfg) (find : Str → Bool) (sun : Suns.Sun) (surf : Surf) (see : Vec ℝ → Seen) (p : Sample) : Option (Int × Vec ℝ) :=
  if p.occluded = true then none
  else if |brightness (sunColor cfg sun surf p)| ≤ cfg.gate then none
  else
    match see p.point with
    | .nothing => none
    | .solid => none
    | .sky texture style tint =>
      if (sunTexture find sun).any (· ≠ texture) then none
      else some (if sun.style = 0 then style else sun.style, tint (sunColor cfg sun surf p))

open Classical in
/-- `LightFace_Sky` (light/ltface.cc:1365-1480): the sample, style and colour of everything that is added. `see` is what a ray from a
point to the sun meets. -/
noncomputable def faceSky (cfg : Cfg) (find : Str → Bool) (sun : Suns.Sun) (surf : Surf) (see : Vec ℝ → Seen) : List (Nat × Int × Vec ℝ) :=
  if dot (norm sun.vec) surf.plane.normal < -(1 / 100) ∧ surf.curved = false ∧ surf.twosided = false then []
  else if surf.mask &&& 1 = 0 then []
  else surf.samples.zipIdx.filterMap fun p => (sample cfg find sun surf see p.1).map fun c => (p.2, c.1, c.2)

/-! ### The light grid -/

/-- The six directions tried at a point (light/ltface.cc:1317-1323, 1496-1502). -/
def cube : List (Vec ℝ) := [⟨-1, 0, 0⟩, ⟨1, 0, 0⟩, ⟨0, -1, 0⟩, ⟨0, 1, 0⟩, ⟨0, 0, -1⟩, ⟨0, 0, 1⟩]

open Classical in
/-- The longest colour (light/ltface.cc:1331-1333, 1512-1514). -/
noncomputable def longest (l : List (Vec ℝ)) : Vec ℝ := l.foldl (fun c d => if dot d d > dot c c then d else c) ⟨0, 0, 0⟩

/-- The colour of the sun at a point (light/ltface.cc:1494-1519). -/
noncomputable def pointSun (sun : Suns.Sun) : Vec ℝ :=
  longest (cube.map fun n => smul (share sun.anglescale (dot (norm sun.vec) n) * sun.light / 255) sun.color)

open Classical in
/-- `LightPoint_Sky` (light/ltface.cc:1482-1544): the style and colour added. -/
noncomputable def pointSky (gate : ℝ) (sun : Suns.Sun) (see : Vec ℝ → Seen) (point : Vec ℝ) : Option (Int × Vec ℝ) :=
  if |brightness (pointSun sun)| ≤ gate then none
  else
    match see point with
    | .nothing => none
    | .solid => none
    | .sky _ _ tint => some (sun.style, tint (pointSun sun))

/-- The contributions of a light for a list of normals. -/
noncomputable def contribs (scaledist : ℝ) (l : Light) (point : Vec ℝ) : List (Vec ℝ) → Option (List (Vec ℝ))
  | [] => some []
  | n :: t => (contrib scaledist l ⟨point, n, false, 0⟩ false).bind fun c => (contribs scaledist l point t).map fun r => c :: r

/-- The colour of a light at a point (light/ltface.cc:1313-1338). -/
noncomputable def pointLight (scaledist : ℝ) (l : Light) (point : Vec ℝ) : Option (Vec ℝ) := (contribs scaledist l point cube).map longest

open Classical in
/-- `LightPoint_Entity` (light/ltface.cc:1308-1358): the style and colour added, where `clear` is `none` if the ray to the light is
blocked and otherwise what glass does to its colour. -/
noncomputable def pointEntity (cfg : Cfg) (l : Light) (style : Int) (clear : Vec ℝ → Option (Vec ℝ → Vec ℝ)) (point : Vec ℝ) : Option (Option (Int × Vec ℝ)) :=
  (pointLight cfg.scaledist l point).map fun c =>
    if |brightness c| ≤ cfg.gate then none else (clear point).map fun tint => (style, tint c)

end Verif.SunRay
