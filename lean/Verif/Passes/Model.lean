import Verif.Common.Outcome
import Mathlib.Data.Rat.Defs
import Mathlib.Algebra.Order.Ring.Unbundled.Rat
import Mathlib.Tactic.Linarith

/-!
Model of which faces are lit, and of the order of the lights on a face (light/light.cc:604-638, 775-833, light/ltface.cc:562-573,
2542-2757).

Simplification: what each step does to the samples of a face is modelled elsewhere (`Illum`, `SunRay`, `Surfaces`, `Radiosity`); here a
step is a name. How many bounces are made is a parameter.
-/

namespace Verif.Passes

/-- `debugmodes` (include/light/light.hh:153-166). -/
inductive Debug where
  | none | phong | phongObj | dirt | bounce | bouncelights | occluded | neighbours | tangents | bitangents | mottle
  deriving DecidableEq

/-- What is known of a face: whether it belongs to a model (`ModelInfoForFace`, light/light.cc:541-557), its edges, whether it
is lightmapped or emits light, whether its texture axes can be inverted (light/ltface.cc:569), whether lights are ignored by its model or
itself (`lightignore`, `light_ignore`), whether its model is the world, its minimum light, and the style and value of its minimum light as
a surface light (light/ltface.cc:2720-2728; the value is the light times the scale), if it is one. -/
structure Face where
  hasModel : Bool
  edges : ℕ
  lightmapped : Bool
  emissive : Bool
  axesOk : Bool
  ignores : Bool
  world : Bool
  minlight : ℚ
  glow : Option (Int × ℚ × ℚ)

/-- What matters of a `light_t`: whether it is a local minimum light, whether it is not static, and its light. -/
structure Lamp where
  localmin : Bool
  nostatic : Bool
  light : ℚ

/-- The options. `bounce` is the number of bounces asked for, `made` the number for which `MakeBounceLights` succeeds in a row. -/
structure Conf where
  debug : Debug
  nolighting : Bool
  bounce : ℕ
  made : ℕ
  minlight : ℚ

/-- What is done to a face. -/
inductive Step where
  | entity (i : ℕ)
  | sun (i : ℕ)
  | surface
  | localMin
  | bounced (depth : ℕ)
  | min (style : Int) (value : ℚ)
  | autoMin
  | debug (d : Debug)
  deriving DecidableEq

/-- Whether there is a surface for a face (`CreateLightmapSurface`, light/ltface.cc:2573-2592, and the beginning of `Lightsurf_Init`,
566-573). Otherwise the surface is empty and has no face. -/
def hasSurface (f : Face) : Bool :=
  if f.hasModel = false then false
  else if f.edges < 3 then false
  else if f.emissive = false ∧ f.lightmapped = false then false
  else f.axesOk

/-- The loops over the lights (light/ltface.cc:2625-2632, 2741-2748), for those whose light is `p`. -/
def entities (p : ℚ → Bool) (lamps : List Lamp) : List Step :=
  lamps.zipIdx.filterMap fun l =>
    if l.1.localmin then none else if l.1.nostatic then none else if p l.1.light then some (.entity l.2) else none

/-- The loops over the suns (light/ltface.cc:2633-2635, 2749-2751). -/
def suns (p : ℚ → Bool) (l : List ℚ) : List Step := l.zipIdx.filterMap fun s => if p s.1 then some (.sun s.2) else none

/-- `DirectLightFace` (light/ltface.cc:2616-2657). `LightFace_LocalMin` does nothing on a face that ignores lights (1699-1700). -/
def direct (c : Conf) (lamps : List Lamp) (ss : List ℚ) (f : Face) : List Step :=
  (if c.debug = .none then
    (if f.ignores = false then entities (fun x => decide (x > 0)) lamps ++ suns (fun x => decide (x > 0)) ss ++ [.surface] else []) ++
    (if f.ignores = false then [.localMin] else [])
   else []) ++
  (if c.debug = .dirt then [.debug .dirt] else []) ++ (if c.debug = .phong then [.debug .phong] else []) ++
  (if c.debug = .occluded then [.debug .occluded] else []) ++ (if c.debug = .neighbours then [.debug .neighbours] else [])

/-- `IndirectLightFace` (light/ltface.cc:2665-2683). -/
def indirect (c : Conf) (f : Face) (depth : ℕ) : List Step := if c.debug = .none ∧ f.ignores = false then [.bounced depth] else []

/-- The minimum light of a face (light/ltface.cc:2704-2737). -/
def minimums (c : Conf) (f : Face) : List Step :=
  (if (if f.minlight > c.minlight then f.minlight else c.minlight) ≠ 0 then
    [.min 0 (if f.minlight > c.minlight then f.minlight else c.minlight)] else []) ++
  (match f.glow with
   | some (style, value, scale) => if scale > 0 then [.min style (value * scale)] else []
   | none => []) ++
  (if f.world = false then [.autoMin] else [])

/-- `PostProcessLightFace` (light/ltface.cc:2690-2757). -/
def post (c : Conf) (lamps : List Lamp) (ss : List ℚ) (f : Face) : List Step :=
  (if c.debug = .none then
    minimums c f ++
    (if f.ignores = false then entities (fun x => decide (x < 0)) lamps ++ suns (fun x => decide (x < 0)) ss else [])
   else []) ++
  (if c.debug = .mottle then [.debug .mottle] else [])

/-- `bouncerequired` and the loop over the bounces (light/light.cc:780-783, 798-819). -/
def passes (c : Conf) : ℕ :=
  if (c.debug = .none ∨ c.debug = .bounce ∨ c.debug = .bouncelights) ∧ c.nolighting = false then Nat.min c.bounce c.made else 0

/-- What `LightWorld` does to a face (light/light.cc:788-833): each pass is over all faces, but on one face passes come one after the
other. For an empty surface the assertion in `Face_GetNum` (common/bsputils.cc:40, from light/ltface.cc:2602) fails. -/
def lightFace (c : Conf) (lamps : List Lamp) (ss : List ℚ) (f : Face) : Outcome (List Step) :=
  if f.lightmapped = false then .ok []
  else if hasSurface f = false then .error
  else .ok (direct c lamps ss f ++ (List.range (passes c)).flatMap (indirect c f) ++ (if c.nolighting then [] else post c lamps ss f))

/-- All faces; one that fails ends the program. -/
def lightFaces (c : Conf) (lamps : List Lamp) (ss : List ℚ) : List Face → Outcome (List (List Step))
  | [] => .ok []
  | f :: fs => lightFace c lamps ss f >>= fun s => lightFaces c lamps ss fs >>= fun r => .ok (s :: r)

end Verif.Passes
