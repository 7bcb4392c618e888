import Verif.Radiosity.Dice
import Verif.Common.Outcome

/-!
Model of the surfaces that emit light (light/surflight.cc:53-272) and of bounced light (light/bounce.cc:43-233).

Simplifications: `float` is replaced by an ordered field `K`, that is, arithmetic is exact. What is only looked up is a
parameter: the area and the normal of a face, the average colour of its texture, the flags of its texture, the point
that `FixLightOnFace` moves a point to, the vector of length one. `-visapprox rays`, the count of the points and warnings
are left out. `dice` is a parameter, the function computed by `Radiosity.dice`.
-/

namespace Verif.Radiosity

open Verif.Geom Verif.SurfLights

variable {K : Type} [Field K] [LinearOrder K]

/-- `a + b`, `a - b`, `a * k` of `qvec`. -/
def vadd (a b : Vec K) : Vec K := ⟨a.x + b.x, a.y + b.y, a.z + b.z⟩
def vsub (a b : Vec K) : Vec K := ⟨a.x - b.x, a.y - b.y, a.z - b.z⟩
def scale (k : K) (a : Vec K) : Vec K := ⟨a.x * k, a.y * k, a.z * k⟩

/-- `qv::max` of a vector (include/common/qvec.hh:385-392). -/
def vmax (a : Vec K) : K := max a.z (max a.y a.x)

/-- `emissivequality` (include/light/light.hh). -/
inductive Quality where
  | low
  | medium
  | high
  deriving DecidableEq

/-- `surfacelight_t::per_style_t` (include/light/surflight.hh:50-65). -/
structure Setting (K : Type) where
  level : Option Nat
  style : Int
  omni : Bool
  rescale : Bool
  total : K
  intensity : K
  color : Vec K

/-- `surfacelight_t` (include/light/surflight.hh:38-69). -/
structure Vpl (K : Type) where
  pos : Vec K
  normal : Vec K
  before : Nat
  points : List (Vec K)
  styles : List (Setting K)

/-- What is looked up for a face. `own`: the flags and the value of a Quake II texture. `target`: the style found for
`surflight_targetname`. -/
structure Surface (K : Type) where
  emissive : Bool
  poly : List (Vec K)
  area : K
  normal : Vec K
  offset : Vec K
  avg : Vec K
  own : Option (Nat × Int)
  color : Option (Vec K)
  target : Option Int
  style : Option Int
  rescale : Option Bool

/-- Functions and options. `sky`: `_sky_surface` if it is set. -/
structure Env (K : Type) where
  quality : Quality
  unit : Vec K → Vec K
  fix : Vec K → Option (Vec K)
  patches : List (Vec K) → List (List (Vec K))
  sky : Option (Vec K)

/-- `remove_colinear` (include/common/polylib.hh:728-748): each corner with the next and the one before. -/
def removeColinear (unit : Vec K → Vec K) (vs : List (Vec K)) : List (Vec K) :=
  ((vs.zip (vs.rotate 1)).zip (vs.rotate (vs.length - 1))).filterMap fun c =>
    if dot (unit (vsub c.1.2 c.1.1)) (unit (vsub c.1.1 c.2)) < 1 - 1 / 10000 then some c.1.1 else none

/-- The points of a surface and how many there were before those in the void were dropped (light/surflight.cc:106-165). -/
def surfacePoints (e : Env K) (f : Surface K) : Vec K × List (Vec K) × Nat :=
  let w := removeColinear e.unit (f.poly.map fun p => vadd p f.offset)
  let pos := vadd (center w) f.normal
  match e.quality with
  | .low => (pos, [pos], 1)
  | .medium => (pos, pos :: w.filterMap fun p => e.fix (vadd (vadd p f.normal) (e.unit (vsub pos p))), 1 + w.length)
  | .high => (pos, (e.patches w).filterMap fun p => e.fix (vadd (center p) f.normal), (e.patches w).length)

/-- The colour that is emitted, before it is scaled (light/surflight.cc:74-88). -/
def surfaceColor (e : Env K) (f : Surface K) (color : Option (Vec K)) (sky : Bool) : Vec K :=
  match f.color with
  | some c => c
  | none =>
    match color with
    | some c => c
    | none =>
      match e.sky, sky with
      | some s, true => scale 255 s
      | _, _ => f.avg

/-- A reason for a face to emit light: the arguments of `MakeSurfaceLight`. -/
structure Source (K : Type) where
  color : Option (Vec K)
  directional : Bool
  sky : Bool
  style : Int
  value : Int

/-- `MakeSurfaceLight` (light/surflight.cc:53-206). -/
def makeSurfaceLight (e : Env K) (f : Surface K) (vpl : Option (Vpl K)) (s : Source K) : Option (Vpl K) :=
  if !f.emissive then vpl
  else if f.area < 1 then vpl
  else
    let c := scale (s.value : K) (scale (1 / 255) (surfaceColor e f s.color s.sky))
    let intensity := vmax c
    if intensity = 0 then vpl
    else
      let c' := if intensity > 1 then scale (1 / intensity) c else c
      let l := match vpl with
        | some l => l
        | none =>
          let p := surfacePoints e f
          ⟨p.1, f.normal, p.2.2, p.2.1, []⟩
      if l.points.isEmpty then some l
      else
        let style := match f.target with
          | some t => t
          | none => f.style.getD s.style
        let rescale := f.rescale.getD (!s.sky)
        some { l with styles := l.styles ++ [⟨none, style, !s.directional, rescale, intensity * f.area,
          intensity * f.area / l.before, c'⟩] }

/-- What is read of a template: whether it is meant for the face (`FaceMatchesSurfaceLightTemplate`, see
`SurfLights.fits`), its colour if it is set, `_surface_spotlight`, `_surface_is_sky`, `style` and `light`. -/
structure Tmpl (K : Type) where
  fits : Bool
  color : Option (Vec K)
  spot : Option Int
  sky : Int
  style : Int
  light : Int

/-- The call of `MakeSurfaceLight` for a template (light/surflight.cc:259-269). -/
def Tmpl.source (t : Tmpl K) : Source K :=
  { color := t.color
    directional := match t.spot with
      | none => true
      | some n => n != 0
    sky := t.sky != 0
    style := t.style
    value := t.light }

/-- `MakeSurfaceLightsThread` (light/surflight.cc:231-272) for a face without a surface light yet; `own` is `none` in other
games than Quake II. -/
def surfaceLights (e : Env K) (f : Surface K) (ts : List (Tmpl K)) : Option (Vpl K) :=
  let v := match f.own with
    | none => none
    | some (flags, value) =>
      if flags.testBit 0 = false ∨ value = 0 then none
      else makeSurfaceLight e f none ⟨none, !flags.testBit 2, flags.testBit 2, 0, value⟩
  ts.foldl (fun v t => if t.fits then makeSurfaceLight e f v t.source else v) v

/-- `IsSurfaceLitFace` (light/surflight.cc:208-229): whether there is a result. -/
def isLit (f : Surface K) (ts : List (Tmpl K)) : Bool :=
  (match f.own with
    | none => false
    | some (flags, value) => flags.testBit 0 && decide (value > 0)) || ts.any (·.fits)

/-! ## Bounced light -/

/-- `lightmap_t`: the style, the number of samples and the light collected. -/
structure Lm (K : Type) where
  style : Int
  samples : Nat
  bounce : Vec K

/-- What is kept for a face between passes: the light maps and the surface light. -/
structure Surf (K : Type) where
  maps : List (Lm K)
  vpl : Option (Vpl K)

/-- What is looked up for a face that bounces light. `solid`: it is one of the faces that always cast shadows. `normal` and
`poly` are those of its winding (`winding3f_t::from_face`). -/
structure BFace (K : Type) where
  solid : Bool
  lightmapped : Bool
  skip : Bool
  noBounce : Bool
  lit : Bool
  emissive : Bool
  poly : List (Vec K)
  area : K
  normal : Vec K
  blend : Vec K

/-- `Face_ShouldBounce` (light/bounce.cc:43-75). -/
def shouldBounce (f : BFace K) : Bool := f.solid && f.lightmapped && !f.skip && !f.noBounce && !f.lit

/-- The points of a face that bounces light (light/bounce.cc:196-215). -/
def bouncePoints (e : Env K) (f : BFace K) : Vec K × List (Vec K) :=
  let w := removeColinear e.unit f.poly
  let mid := vadd (center w) f.normal
  match e.quality with
  | .low => (mid, [mid])
  | .medium => (mid, mid :: w.map fun p => vadd p f.normal)
  | .high => (mid, (e.patches w).map fun p => vadd (center p) f.normal)

/-- `MakeBounceLight` (light/bounce.cc:77-131). -/
def makeBounceLight (e : Env K) (f : BFace K) (depth : Nat) (vpl : Option (Vpl K)) (style : Int) (c : Vec K) :
    Outcome (Option (Vpl K)) :=
  if !f.emissive then .ok vpl
  else
    let intensity := vmax c
    if intensity ≤ 0 then .ok vpl
    else
      let c' := if intensity > 1 then scale (1 / intensity) c else c
      let add (l : Vpl K) : Vpl K := { l with styles := l.styles ++ [⟨some depth, style, false, false,
        intensity * f.area, intensity * f.area / l.points.length, c'⟩] }
      match vpl with
      | some l => .ok (some (add l))
      | none =>
        let p := bouncePoints e f
        if p.2.isEmpty then .error else .ok (some (add ⟨p.1, f.normal, 0, p.2, []⟩))

/-- The light maps that are taken up (light/bounce.cc:163-177): the colours by style, and the light maps after. The table
is given as the list of its entries; later entries for a style replace earlier ones. -/
def collect (styled : Bool) (n : Nat) : List (Lm K) → List (Int × Vec K) × List (Lm K)
  | [] => ([], [])
  | m :: ms =>
    let r := collect styled n ms
    if m.style ≠ 0 ∧ styled = false then (r.1, m :: r.2)
    else
      let m' := { m with bounce := ⟨0, 0, 0⟩ }
      if m.bounce = ⟨0, 0, 0⟩ then (r.1, m' :: r.2)
      else if r.1.any fun p => p.1 == m.style then (r.1, m' :: r.2)
      else ((m.style, scale (1 / n) m.bounce) :: r.1, m' :: r.2)

/-- The loop over the colours (light/bounce.cc:217-219), in any order of the table. -/
def emitAll (e : Env K) (f : BFace K) (depth : Nat) : List (Int × Vec K) → Option (Vpl K) → Outcome (Option (Vpl K))
  | [], v => .ok v
  | (style, c) :: rest, v => do
    let v' ← makeBounceLight e f depth v style ⟨c.x * f.blend.x, c.y * f.blend.y, c.z * f.blend.z⟩
    emitAll e f depth rest v'

/-- `MakeBounceLightsThread` (light/bounce.cc:133-222): the face afterwards and the result. -/
def bounceFace (e : Env K) (styled : Bool) (f : BFace K) (depth : Nat) (s : Surf K) : Outcome (Surf K × Bool) :=
  if !shouldBounce f then .ok (s, false)
  else
    match s.maps with
    | [] => .ok (s, false)
    | m :: ms =>
      if f.area < 1 then .ok (s, false)
      else
        let r := collect styled m.samples (m :: ms)
        if r.1.isEmpty then .ok ({ s with maps := r.2 }, false)
        else do
          let v ← emitAll e f depth r.1 s.vpl
          .ok (⟨r.2, v⟩, true)

end Verif.Radiosity
