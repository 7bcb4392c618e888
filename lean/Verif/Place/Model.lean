import Verif.BrushBsp.Windings

/-!
Model of how qbsp moves the faces of brushes: `mapface_t::set_planepts` (qbsp/map.cc:1891-1907), `ScaleMapFace`,
`RotateMapFace` and `TranslateMapFace` (qbsp/map.cc:2790-2878), the part of `ProcessExternalMapEntity` that places an
external map (qbsp/map.cc:2947-2981), and the parts of `ProcessMapBrushes` that move the brushes of an entity with an
origin and apply the option `-scale` (qbsp/map.cc:3275-3311); the rotations of common/mathlib.cc:31-67.

Simplifications: arithmetic is exact, also where the code uses `float`. A face holds its plane; the table of planes, which
gives back a plane that is at most a tolerance away (C77), and that of the texinfos, are left out. `qv::normalize`, `cos`
and `sin` are parameters. The numbers of the keys are given, as `sscanf` found them.
-/

namespace Verif.Place

open Geom

variable {K : Type} [Field K] [LinearOrder K]

/-- A row of `texvecf`: the vector and the shift. -/
structure Row (K : Type) where
  v : Vec K
  d : K
  deriving DecidableEq

/-- `mapface_t` (include/qbsp/map.hh:40-87). -/
structure Face (K : Type) where
  p0 : Vec K
  p1 : Vec K
  p2 : Vec K
  plane : Plane K
  s : Row K
  t : Row K
  bevel : Bool
  deriving DecidableEq

/-- Parameters: `qv::normalize`, and the cosine and sine of an angle in degrees. -/
structure Env (K : Type) where
  normalize : Vec K → Vec K
  cos : K → K
  sin : K → K

def sub (a b : Vec K) : Vec K := ⟨a.x - b.x, a.y - b.y, a.z - b.z⟩
def add (a b : Vec K) : Vec K := ⟨a.x + b.x, a.y + b.y, a.z + b.z⟩

/-- `set_planepts` (qbsp/map.cc:1891-1907). -/
def setPts (env : Env K) (f : Face K) (p0 p1 p2 : Vec K) : Face K :=
  let n := env.normalize (BrushBsp.cross (sub p0 p1) (sub p2 p1))
  { f with p0 := p0, p1 := p1, p2 := p2, plane := ⟨n, dot p1 n⟩ }

/-- `qmat3x3d`, by rows. -/
structure Mat (K : Type) where
  r0 : Vec K
  r1 : Vec K
  r2 : Vec K

/-- The product with a vector. -/
def Mat.app (m : Mat K) (v : Vec K) : Vec K := ⟨dot m.r0 v, dot m.r1 v, dot m.r2 v⟩

def Mat.col0 (m : Mat K) : Vec K := ⟨m.r0.x, m.r1.x, m.r2.x⟩
def Mat.col1 (m : Mat K) : Vec K := ⟨m.r0.y, m.r1.y, m.r2.y⟩
def Mat.col2 (m : Mat K) : Vec K := ⟨m.r0.z, m.r1.z, m.r2.z⟩

/-- The product of matrices. -/
def Mat.mul (a b : Mat K) : Mat K :=
  ⟨⟨dot a.r0 b.col0, dot a.r0 b.col1, dot a.r0 b.col2⟩, ⟨dot a.r1 b.col0, dot a.r1 b.col1, dot a.r1 b.col2⟩,
    ⟨dot a.r2 b.col0, dot a.r2 b.col1, dot a.r2 b.col2⟩⟩

/-- `RotateAboutX` (common/mathlib.cc:31-43); the code lists the columns. -/
def rotX (c s : K) : Mat K := ⟨⟨1, 0, 0⟩, ⟨0, c, -s⟩, ⟨0, s, c⟩⟩

/-- `RotateAboutY` (common/mathlib.cc:45-55). -/
def rotY (c s : K) : Mat K := ⟨⟨c, 0, s⟩, ⟨0, 1, 0⟩, ⟨-s, 0, c⟩⟩

/-- `RotateAboutZ` (common/mathlib.cc:57-67). -/
def rotZ (c s : K) : Mat K := ⟨⟨c, -s, 0⟩, ⟨s, c, 0⟩, ⟨0, 0, 1⟩⟩

/-- A matrix with a diagonal. -/
def diag (v : Vec K) : Mat K := ⟨⟨v.x, 0, 0⟩, ⟨0, v.y, 0⟩, ⟨0, 0, v.z⟩⟩

/-- `ScaleMapFace` (qbsp/map.cc:2790-2825). -/
def scaleFace (env : Env K) (sc : Vec K) (f : Face K) : Face K :=
  let m := diag sc
  let i := diag ⟨1 / sc.x, 1 / sc.y, 1 / sc.z⟩
  let f := setPts env f (m.app f.p0) (m.app f.p1) (m.app f.p2)
  { f with s := ⟨i.app f.s.v, f.s.d⟩, t := ⟨i.app f.t.v, f.t.d⟩ }

/-- The rotation of `RotateMapFace` (qbsp/map.cc:2829-2833): pitch, yaw and roll. -/
def rotation (env : Env K) (a : Vec K) : Mat K :=
  ((rotZ (env.cos a.y) (env.sin a.y)).mul (rotY (env.cos a.x) (env.sin a.x))).mul (rotX (env.cos a.z) (env.sin a.z))

/-- `RotateMapFace` (qbsp/map.cc:2827-2855). -/
def rotateFace (env : Env K) (a : Vec K) (f : Face K) : Face K :=
  let m := rotation env a
  let f := setPts env f (m.app f.p0) (m.app f.p1) (m.app f.p2)
  { f with s := ⟨m.app f.s.v, f.s.d⟩, t := ⟨m.app f.t.v, f.t.d⟩ }

/-- `TranslateMapFace` (qbsp/map.cc:2857-2878). -/
def translateFace (env : Env K) (o : Vec K) (f : Face K) : Face K :=
  let f := setPts env f (add f.p0 o) (add f.p1 o) (add f.p2 o)
  let neg : Vec K := ⟨o.x * -1, o.y * -1, o.z * -1⟩
  { f with s := ⟨f.s.v, f.s.d + dot f.s.v neg⟩, t := ⟨f.t.v, f.t.d + dot f.t.v neg⟩ }

/-- The key `_external_map_scale`, of which `n` numbers were read (qbsp/map.cc:2961-2970). -/
def chooseScale (n : Nat) (v : Vec K) : Vec K :=
  if n < 3 then if v.x = 0 then ⟨1, 1, 1⟩ else ⟨v.x, v.x, v.x⟩ else v

/-- The keys `_external_map_angles` and `_external_map_angle` (qbsp/map.cc:2954-2959); `eps` is `QBSP_EQUAL_EPSILON`. -/
def chooseAngles (eps : K) (a : Vec K) (angle : K) : Vec K :=
  if |a.x| ≤ eps ∧ |a.y| ≤ eps ∧ |a.z| ≤ eps then { a with y := angle } else a

/-- The keys of `misc_external_map` (qbsp/map.cc:2951-2970). -/
structure Keys (K : Type) where
  origin : Vec K
  angles : Vec K
  angle : K
  scaleCount : Nat
  scale : Vec K

/-- The loop over the faces (qbsp/map.cc:2972-2978). -/
def placeFace (env : Env K) (eps : K) (k : Keys K) (f : Face K) : Face K :=
  translateFace env k.origin (rotateFace env (chooseAngles eps k.angles k.angle) (scaleFace env (chooseScale k.scaleCount k.scale) f))

/-- The loop over the brushes (qbsp/map.cc:2972-2978). -/
def placeBrushes (env : Env K) (eps : K) (k : Keys K) (bs : List (List (Face K))) : List (List (Face K)) :=
  bs.map fun b => b.map (placeFace env eps k)

/-- The body of the loop for entities that rotate (qbsp/map.cc:3279-3294); `old` is the option `-oldrottex`. -/
def offsetFace (origin : Vec K) (old : Bool) (f : Face K) : Face K :=
  let f := if old then f else { f with s := ⟨f.s.v, f.s.d + dot origin f.s.v⟩, t := ⟨f.t.v, f.t.d + dot origin f.t.v⟩ }
  { f with plane := ⟨f.plane.normal, f.plane.dist - dot f.plane.normal origin⟩ }

/-- What happens to the faces of an entity after the bevels were added (qbsp/map.cc:3275-3311): `origin`: for an entity
with an origin brush or one that rotates. -/
def finishFace (env : Env K) (origin : Option (Vec K)) (old : Bool) (scale : K) (f : Face K) : Face K :=
  let f := match origin with
    | none => f
    | some o => offsetFace o old f
  if scale ≠ 1 then scaleFace env ⟨scale, scale, scale⟩ f else f

end Verif.Place
