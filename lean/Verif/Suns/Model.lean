import Mathlib.Analysis.SpecialFunctions.Complex.Arg
import Mathlib.Algebra.Order.Round
import Verif.Phong.NormalLemmas
import Verif.EntData.Dict
import Verif.Cmdlib.Model
import Verif.Illum.Model

/-!
Model of what becomes of the light entities before anything is lit (light/entities.cc:211-226, 357-693 and 1058-1095):
copies of jittered lights, targets, suns, domes of suns and lights that touch a wall.

Simplifications: `float` and `double` are replaced by the reals; the texture of a sun is its name. `Random()` gives the
numbers of a sequence, one after the other; the sequence is a parameter. `SetupSpotlights`, which runs between targets
and suns, is in `Verif.Illum`: it does not change the fields used here.
-/

namespace Verif.Suns

open Verif.Geom Verif.Phong
open Verif.EntData (Str Dict)

/-- What a sun takes over from an entity or from worldspawn keys as it is: the arguments of `SetupSun` and of
`SetupSkyDome` (light/entities.cc:416-418 and 513-516). -/
structure Look where
  color : Vec ℝ
  anglescale : ℝ
  dirt : Int
  style : Int
  texture : Str

/-- `sun_t` (include/light/light.hh:60-70); `vec` points from the world to the sun. -/
structure Sun where
  vec : Vec ℝ
  light : ℝ
  color : Vec ℝ
  anglescale : ℝ
  dirt : Bool
  style : Int
  texture : Str

/-- The fields of `light_t` (include/light/entities.hh:60-118) that matter here. `target` is `targetent`. -/
structure Lamp where
  light : ℝ
  origin : Vec ℝ
  mangle : Vec ℝ
  deviance : ℝ
  samples : ℕ
  sun : Bool
  sunlight2 : Bool
  sunlight3 : Bool
  look : Look
  nonudge : Bool
  mask : Nat
  shadowMask : Nat
  pairs : Dict
  target : Option Dict
  generated : Bool

/-- The settings of suns: `dirt` of worldspawn and `-sunsamples` (light/light.cc:291). -/
structure Cfg where
  dirt : Bool
  sunsamples : ℕ

/-! ### Targets -/

/-- The key `target`. -/
def kTarget : Str := [116, 97, 114, 103, 101, 116]
/-- The key `targetname`. -/
def kTargetname : Str := [116, 97, 114, 103, 101, 116, 110, 97, 109, 101]

/-- The inner loop of `MatchTargets` (light/entities.cc:219-224). -/
def findTarget (ents : List Dict) (name : Str) : Option Dict :=
  ents.find? fun e => Cmdlib.iequals name (EntData.get e kTargetname)

/-- `MatchTargets` (light/entities.cc:211-226) for one light. -/
def matchTarget (ents : List Dict) (l : Lamp) : Lamp :=
  let name := EntData.get l.pairs kTarget
  if name = [] then l
  else match findTarget ents name with
    | some e => { l with target := some e }
    | none => l

/-- `MatchTargets` (light/entities.cc:211-226). -/
def matchTargets (ents : List Dict) (ls : List Lamp) : List Lamp := ls.map (matchTarget ents)

/-! ### Jittered lights -/

/-- A coordinate of a copy (light/entities.cc:672-674). -/
noncomputable def nudge (x u deviance : ℝ) : ℝ := x + (u * 2 - 1) * deviance

/-- A copy of a light (light/entities.cc:668-675): `DuplicateEntity` copies all fields. -/
noncomputable def copyAt (l : Lamp) (u v w : ℝ) : Lamp :=
  { l with
    generated := true
    origin := ⟨nudge l.origin.x u l.deviance, nudge l.origin.y v l.deviance, nudge l.origin.z w l.deviance⟩ }

/-- The loop of `JitterEntity` (light/entities.cc:666-676), `n` copies to go; `at'` random numbers have been used. -/
noncomputable def copies (r : ℕ → ℝ) (l : Lamp) : ℕ → ℕ → List Lamp
  | 0, _ => []
  | n + 1, at' => copyAt l (r at') (r (at' + 1)) (r (at' + 2)) :: copies r l n (at' + 3)

/-- `JitterEntity` (light/entities.cc:656-684): the new lights. -/
noncomputable def jitterOne (r : ℕ → ℝ) (at' : ℕ) (l : Lamp) : List Lamp :=
  if l.sun then [] else copies r l (l.samples - 1) at'

/-- The new lights of all entities (light/entities.cc:690-692). -/
noncomputable def jitterNew (r : ℕ → ℝ) : ℕ → List Lamp → List Lamp
  | _, [] => []
  | at', l :: ls =>
    let new := jitterOne r at' l
    new ++ jitterNew r (at' + 3 * new.length) ls

/-- `JitterEntities` (light/entities.cc:686-693). -/
noncomputable def jitterAll (r : ℕ → ℝ) (at' : ℕ) (ls : List Lamp) : List Lamp := ls ++ jitterNew r at' ls

/-! ### Suns -/

/-- `DEG2RAD` (include/common/mathlib.hh:83-86). -/
noncomputable def rad (a : ℝ) : ℝ := a * (2 * Real.pi / 360)

/-- `qv::normalize` (include/common/qvec.hh:456-460). -/
noncomputable def normalize (v : Vec ℝ) : Vec ℝ :=
  if realOps.len v = 0 then v else smul (1 / realOps.len v) v

/-- `atan2`. -/
noncomputable def atan2 (y x : ℝ) : ℝ := Complex.arg ⟨x, y⟩

/-- `qv::vec_from_mangle` (include/common/qvec.hh:1218-1223 and common/mathlib.cc:45-67). -/
noncomputable def vecFromMangle (m : Vec ℝ) : Vec ℝ :=
  let yaw := m.x * (Real.pi / 180)
  let pitch := m.y * (Real.pi / 180)
  ⟨Real.cos yaw * Real.cos (-pitch), Real.sin yaw * Real.cos (-pitch), -Real.sin (-pitch)⟩

/-- `Dirt_ResolveFlag` (light/entities.cc:364-372). -/
def resolveDirt (cfg : Cfg) (dirt : Int) : Bool :=
  if dirt = 1 then true else if dirt = -1 then false else cfg.dirt

/-- `AddSun` (light/entities.cc:379-404): the suns it appends. -/
noncomputable def addSun (cfg : Cfg) (dir : Vec ℝ) (light : ℝ) (k : Look) : List Sun :=
  if light = 0 then []
  else [{ vec := smul (-16384) (normalize dir), light := light, color := k.color, anglescale := k.anglescale,
          dirt := resolveDirt cfg k.dirt, style := k.style, texture := k.texture }]

/-- The loop that draws two angles (light/entities.cc:446-449). It is not known beforehand how often it runs: `fuel`
rounds at most; `none` where they do not suffice. The second part of the result is the number of draws used. -/
noncomputable def drawAngles (r : ℕ → ℝ) (devRad devSq : ℝ) : ℕ → ℕ → Option ((ℝ × ℝ) × ℕ)
  | 0, _ => none
  | fuel + 1, at' =>
    let da := (r at' * 2 - 1) * devRad
    let de := (r (at' + 1) * 2 - 1) * devRad
    if da * da + de * de > devSq then drawAngles r devRad devSq fuel (at' + 2)
    else some ((da, de), at' + 2)

/-- The direction that is `da` and `de` off (light/entities.cc:441-443 and 450-456). -/
noncomputable def turned (v : Vec ℝ) (da de : ℝ) : Vec ℝ :=
  let d := Real.sqrt (v.x * v.x + v.y * v.y)
  let angle := atan2 v.y v.x + da
  let elevation := atan2 v.z d + de
  ⟨Real.cos angle * Real.cos elevation, Real.sin angle * Real.cos elevation, Real.sin elevation⟩

/-- The rounds of `SetupSun` after the first (light/entities.cc:433-462), `n` of them. -/
noncomputable def moreSuns (fuel : ℕ) (cfg : Cfg) (r : ℕ → ℝ) (v : Vec ℝ) (devRad devSq light : ℝ) (k : Look) :
    ℕ → ℕ → Option (List Sun × ℕ)
  | 0, at' => some ([], at')
  | n + 1, at' =>
    match drawAngles r devRad devSq fuel at' with
    | none => none
    | some (d, at'') =>
      match moreSuns fuel cfg r v devRad devSq light k n at'' with
      | none => none
      | some (suns, last) => some (addSun cfg (turned v d.1 d.2) light k ++ suns, last)

/-- The number of suns (light/entities.cc:421). -/
noncomputable def sunCount (cfg : Cfg) (deviance : ℝ) : ℕ := if deviance = 0 then 1 else cfg.sunsamples

/-- `SetupSun` (light/entities.cc:416-463): the suns it appends and how many random numbers are used then. -/
noncomputable def setupSun (fuel : ℕ) (cfg : Cfg) (r : ℕ → ℝ) (at' : ℕ) (light : ℝ) (k : Look) (dir : Vec ℝ)
    (deviance : ℝ) : Option (List Sun × ℕ) :=
  let n := sunCount cfg deviance
  let share := light / n
  let v := normalize dir
  if n = 0 then some ([], at')
  else
    match moreSuns fuel cfg r v (rad deviance) (deviance * deviance) share k (n - 1) at' with
    | none => none
    | some (suns, last) => some (addSun cfg v share k ++ suns, last)

/-- The direction of a sun entity (light/entities.cc:471-481); `place` reads the key `origin` of a target. -/
noncomputable def sunDir (place : Dict → Vec ℝ) (l : Lamp) : Vec ℝ :=
  match l.target with
  | some e => sub (place e) l.origin
  | none => if dot l.mangle l.mangle > 0 then l.mangle else smul (-1) l.origin

/-- Whether an entity is a sun (light/entities.cc:469). -/
def isSun (l : Lamp) : Prop := l.sun = true ∧ l.light > 0

noncomputable instance (l : Lamp) : Decidable (isSun l) := Classical.propDecidable _

/-- The loop of `SetupSuns` (light/entities.cc:467-490): the entities afterwards, the suns and the draws. -/
noncomputable def entitySuns (fuel : ℕ) (cfg : Cfg) (place : Dict → Vec ℝ) (r : ℕ → ℝ) :
    ℕ → List Lamp → Option (List Lamp × List Sun × ℕ)
  | at', [] => some ([], [], at')
  | at', l :: ls =>
    if isSun l then
      match setupSun fuel cfg r at' l.light l.look (sunDir place l) l.deviance with
      | none => none
      | some (suns, at'') =>
        match entitySuns fuel cfg place r at'' ls with
        | none => none
        | some (ls', suns', last) => some ({ l with light := 0 } :: ls', suns ++ suns', last)
    else
      match entitySuns fuel cfg place r at' ls with
      | none => none
      | some (ls', suns', last) => some (l :: ls', suns', last)

/-- A sun given by worldspawn keys: `_sunlight` or `_sun2`. -/
structure World where
  light : ℝ
  look : Look
  dir : Vec ℝ

/-- `SetupSuns` (light/entities.cc:465-500): `sun` is `_sunlight`, `sun2` is `_sun2`, `deviance` is
`_sunlight_penumbra`. -/
noncomputable def setupSuns (fuel : ℕ) (cfg : Cfg) (place : Dict → Vec ℝ) (r : ℕ → ℝ) (at' : ℕ) (ls : List Lamp)
    (sun sun2 : World) (deviance : ℝ) : Option (List Lamp × List Sun × ℕ) :=
  match entitySuns fuel cfg place r at' ls with
  | none => none
  | some (ls', suns, a) =>
    match setupSun fuel cfg r a sun.light sun.look sun.dir deviance with
    | none => none
    | some (s1, b) =>
      if sun2.light ≠ 0 then
        match setupSun fuel cfg r b sun2.light sun2.look sun2.dir deviance with
        | none => none
        | some (s2, c) => some (ls', suns ++ s1 ++ s2, c)
      else some (ls', suns ++ s1, b)

/-! ### Domes -/

/-- `iterations` (light/entities.cc:526-527). The division is one of integers. `rint` rounds a half to the even number,
`round` up: the square root of a whole number is never half way between two. -/
noncomputable def iterations (samples : ℕ) : ℕ :=
  max ((round (Real.sqrt (((samples - 1) / 4 : ℕ) : ℝ))).toNat + 1) 2

/-- A hemisphere: its light and its look. -/
structure Half where
  light : ℝ
  look : Look

/-- A sun of a hemisphere, if it is there (light/entities.cc:559-562 and 567-570). -/
noncomputable def domeSun (cfg : Cfg) (dir : Vec ℝ) (share : ℝ) (k : Look) : List Sun :=
  if share > 0 then addSun cfg dir share k else []

/-- The direction of a sun of the upper hemisphere (light/entities.cc:554-556). -/
noncomputable def domeDir (angle elevation : ℝ) : Vec ℝ :=
  ⟨Real.cos angle * Real.cos elevation, Real.sin angle * Real.cos elevation, -Real.sin elevation⟩

/-- That of the lower hemisphere (light/entities.cc:564). -/
def flip (v : Vec ℝ) : Vec ℝ := ⟨v.x, v.y, -v.z⟩

/-- The inner loop of `SetupSkyDome` (light/entities.cc:552-574), `n` suns to go; `s2` and `s3` are the shares of the
two hemispheres. The second part is `angle` afterwards. -/
noncomputable def ring (cfg : Cfg) (up low : Half) (s2 s3 step elevation : ℝ) : ℕ → ℝ → List Sun × ℝ
  | 0, angle => ([], angle)
  | n + 1, angle =>
    let rest := ring cfg up low s2 s3 step elevation n (angle + step)
    (domeSun cfg (domeDir angle elevation) s2 up.look ++ (domeSun cfg (flip (domeDir angle elevation)) s3 low.look
      ++ rest.1), rest.2)

/-- The outer loop (light/entities.cc:550-579), `n` rings to go; `k` is `elevationSteps`. -/
noncomputable def rings (cfg : Cfg) (up low : Half) (s2 s3 : ℝ) (k : ℕ) (step estep : ℝ) : ℕ → ℝ → ℝ → List Sun
  | 0, _, _ => []
  | n + 1, elevation, angle =>
    let row := ring cfg up low s2 s3 step elevation (k * 4) angle
    row.1 ++ rings cfg up low s2 s3 k step estep n (elevation + estep) (row.2 + step / k)

/-- `SetupSkyDome` (light/entities.cc:513-591): the suns it appends. -/
noncomputable def skyDome (cfg : Cfg) (up low : Half) : List Sun :=
  if up.light ≤ 0 ∧ low.light ≤ 0 then []
  else
    let k := iterations cfg.sunsamples - 1
    let estep := rad (90 / (k + 1 : ℕ))
    let step := rad (360 / (k * 4 : ℕ))
    let count := k * 4 * k + 1
    let s2 := up.light / count
    let s3 := low.light / count
    rings cfg up low s2 s3 k step estep k (estep * (1 / 2)) 0
      ++ (domeSun cfg ⟨0, 0, -1⟩ s2 up.look ++ domeSun cfg ⟨0, 0, 1⟩ s3 low.look)

/-- The empty hemisphere (light/entities.cc:606 and 609). -/
def noHalf : Half := ⟨0, ⟨⟨0, 0, 0⟩, 0, 0, 0, []⟩⟩

/-- Whether an entity is a dome (light/entities.cc:602). -/
def isDome (l : Lamp) : Prop := (l.sunlight2 = true ∨ l.sunlight3 = true) ∧ l.light > 0

noncomputable instance (l : Lamp) : Decidable (isDome l) := Classical.propDecidable _

/-- The suns of an entity that is a dome (light/entities.cc:603-612). -/
noncomputable def entityDome (cfg : Cfg) (l : Lamp) : List Sun :=
  if l.sunlight2 then skyDome cfg ⟨l.light, l.look⟩ noHalf else skyDome cfg noHalf ⟨l.light, l.look⟩

/-- `SetupSkyDomes` (light/entities.cc:593-618): the entities afterwards and the suns. -/
noncomputable def skyDomes (cfg : Cfg) (up low : Half) (ls : List Lamp) : List Lamp × List Sun :=
  (ls.map fun l => if isDome l then { l with light := 0 } else l,
    skyDome cfg up low ++ ls.flatMap fun l => if isDome l then entityDome cfg l else [])

/-! ### Lights that touch a wall -/

/-- The point tried in round `i` (light/entities.cc:1066-1072). -/
def testPoint (p : Vec ℝ) (d : ℝ) (i : ℕ) : Vec ℝ :=
  let o := if i % 2 = 1 then d else -d
  if i / 2 = 0 then ⟨p.x + o, p.y, p.z⟩ else if i / 2 = 1 then ⟨p.x, p.y + o, p.z⟩ else ⟨p.x, p.y, p.z + o⟩

/-- `FixLightOnFace` (light/entities.cc:1058-1083); `solid` is `Light_PointInWorld`. -/
def fixLight (solid : Vec ℝ → Bool) (p : Vec ℝ) (d : ℝ) : Vec ℝ × Bool :=
  if !solid p then (p, true)
  else match (List.range 6).find? fun i => !solid (testPoint p d i) with
    | some i => (testPoint p d i, true)
    | none => (p, false)

/-- `CHANNEL_MASK_DEFAULT` (include/light/light.hh:194). -/
def defaultMask : Nat := 1

/-- Whether a light may be moved (light/entities.cc:1088-1090). -/
def mayMove (l : Lamp) : Prop :=
  l.light ≠ 0 ∧ l.nonudge = false ∧ l.mask = defaultMask ∧ l.shadowMask = defaultMask

noncomputable instance (l : Lamp) : Decidable (mayMove l) := Classical.propDecidable _

/-- `FixLightsOnFaces` (light/entities.cc:1085-1095); the distance is the default (include/light/entities.hh:161). -/
noncomputable def fixLights (solid : Vec ℝ → Bool) (ls : List Lamp) : List Lamp :=
  ls.map fun l => if mayMove l then { l with origin := (fixLight solid l.origin 2).1 } else l

/-! ### From the keys -/

/-- A light as `CheckEntityFields` (light/entities.cc:305-355) leaves it: `raw` are the keys. -/
noncomputable def readLamp (global : ℝ) (addmin : Bool) (raw : Illum.Raw) (l : Lamp) : Lamp :=
  let c := Illum.checkFields global addmin raw
  { l with
    light := c.1.light
    samples := c.2
    deviance := if c.2 = 1 then 0 else raw.deviance }

/-- `SetupLights` (light/entities.cc:1194-1204) without surface lights and spotlights. -/
noncomputable def setupLights (fuel : ℕ) (cfg : Cfg) (ents : List Dict) (place : Dict → Vec ℝ) (solid : Vec ℝ → Bool)
    (r : ℕ → ℝ) (ls : List Lamp) (sun sun2 : World) (deviance : ℝ) (up low : Half) : Option (List Lamp × List Sun) :=
  let new := jitterNew r 0 ls
  match setupSuns fuel cfg place r (3 * new.length) (matchTargets ents (jitterAll r 0 ls)) sun sun2 deviance with
  | none => none
  | some (ls', suns, _) =>
    let d := skyDomes cfg up low ls'
    some (fixLights solid d.1, suns ++ d.2)

end Verif.Suns
