import Verif.Place.Model
import Verif.Common.Outcome

/-!
Model of the texture definitions of map files: what qbsp makes of them (qbsp/map.cc:860-893, 940-962, 1289-1353, 1355-1597)
and how the option `-convert` writes them in another format (qbsp/map.cc:920-962, 969-1104, 1166-1287, 1597-1618, 3469-3497).

Simplifications: arithmetic is exact, except where `normalizeShift` makes a `float` of an integer, and subtracts it. Square
roots, sines and cosines and the angle of a vector are parameters; all angles are in degrees. The 4x4 matrix of
`TexDef_BSPToQuakeEd` is not inverted: the two pairs of equations are solved. The direction to which a sheared axis is turned
is taken from the sign of the cross product. Numbers are not written and read as text.
-/

namespace Verif.TexDef

open Geom

variable {K : Type} [Field K] [LinearOrder K]

/-- `texvecf`: the rows for s and t. -/
structure Tex (K : Type) where
  s : Place.Row K
  t : Place.Row K
  deriving DecidableEq

/-- `uvs` (include/common/bspfile_common.hh:491-495). -/
def Tex.uvs (x : Tex K) (p : Vec K) : K × K :=
  (p.x * x.s.v.x + p.y * x.s.v.y + p.z * x.s.v.z + x.s.d, p.x * x.t.v.x + p.y * x.t.v.y + p.z * x.t.v.z + x.t.d)

/-- What the code depends on: the option `-oldaxis`, and functions of mathematics. -/
structure Env (K : Type) where
  old : Bool
  cosd : K → K
  sind : K → K
  /-- `atan2(y, x)`. -/
  angd : K → K → K
  /-- The square root of `x * x + y * y`. -/
  hyp : K → K → K
  /-- `qv::length`. -/
  len : Vec K → K
  /-- Rounding to `float`. -/
  fl : K → K
  /-- `static_cast<int>`, none if it is undefined. -/
  trunc : K → Option Int

/-- `v[i]`. -/
def at_ (v : Vec K) (i : Nat) : K := if i = 0 then v.x else if i = 1 then v.y else v.z

/-- `v[i] = a`. -/
def put (v : Vec K) (i : Nat) (a : K) : Vec K :=
  if i = 0 then { v with x := a } else if i = 1 then { v with y := a } else { v with z := a }

/-- `baseaxis` (qbsp/map.cc:866-873): the normal and the directions of s and t. -/
def baseAxes : List (Vec K × Vec K × Vec K) :=
  [(⟨0, 0, 1⟩, ⟨1, 0, 0⟩, ⟨0, -1, 0⟩), (⟨0, 0, -1⟩, ⟨1, 0, 0⟩, ⟨0, -1, 0⟩), (⟨1, 0, 0⟩, ⟨0, 1, 0⟩, ⟨0, 0, -1⟩),
    (⟨-1, 0, 0⟩, ⟨0, 1, 0⟩, ⟨0, 0, -1⟩), (⟨0, 1, 0⟩, ⟨1, 0, 0⟩, ⟨0, 0, -1⟩), (⟨0, -1, 0⟩, ⟨1, 0, 0⟩, ⟨0, 0, -1⟩)]

/-- The body of the loop (qbsp/map.cc:883-887). -/
def pick (old : Bool) (n : Vec K) (acc : K × Vec K × Vec K × Vec K) (a : Vec K × Vec K × Vec K) : K × Vec K × Vec K × Vec K :=
  let d := dot n a.1
  if d > acc.1 ∨ (d = acc.1 ∧ old = false) then (d, a) else acc

/-- `TextureAxisFromPlane` (qbsp/map.cc:864-893): the normal and the directions of s and t. -/
def textureAxis (old : Bool) (n : Vec K) : Vec K × Vec K × Vec K :=
  (baseAxes.foldl (pick old n) (0, (⟨0, 0, 1⟩, ⟨1, 0, 0⟩, ⟨0, -1, 0⟩))).2

/-- `getSTAxes` (qbsp/map.cc:1124-1133). -/
def stAxes (sn : Vec K) : Nat × Nat := if sn.x ≠ 0 then (1, 2) else if sn.y ≠ 0 then (0, 2) else (0, 1)

/-- `projectToAxisPlane` (qbsp/map.cc:1135-1140). -/
def project (sn p : Vec K) : K × K := (at_ p (stAxes sn).1, at_ p (stAxes sn).2)

/-- `qmat2x2f`, by rows. -/
structure M2 (K : Type) where
  a : K
  b : K
  c : K
  d : K
  deriving DecidableEq

def M2.mul (x y : M2 K) : M2 K :=
  ⟨x.a * y.a + x.b * y.c, x.a * y.b + x.b * y.d, x.c * y.a + x.d * y.c, x.c * y.b + x.d * y.d⟩

def M2.app (x : M2 K) (p : K × K) : K × K := (x.a * p.1 + x.b * p.2, x.c * p.1 + x.d * p.2)

/-- `qv::inverse` of a 2x2 matrix. -/
def M2.inv (x : M2 K) : M2 K :=
  let e := x.a * x.d - x.b * x.c
  ⟨x.d / e, -x.b / e, -x.c / e, x.a / e⟩

/-- `scale2x2` (qbsp/map.cc:940-945). -/
def scale2 (x y : K) : M2 K := ⟨x, 0, 0, y⟩

/-- `rotation2x2_deg` (qbsp/map.cc:947-960). -/
def rot2 (env : Env K) (r : K) : M2 K := ⟨env.cosd r, -env.sind r, env.sind r, env.cosd r⟩

/-- The matrix of the signs of the axes (qbsp/map.cc:1301-1306, 1233-1238). -/
def axisFlips (env : Env K) (n : Vec K) : M2 K :=
  let ax := textureAxis env.old n
  let s := project ax.1 ax.2.1
  let t := project ax.1 ax.2.2
  ⟨s.1, s.2, t.1, t.2⟩

/-- `old_texdef_quake_ed_t` (qbsp/map.cc:325-330). -/
structure Ed (K : Type) where
  shift : K × K
  rotate : K
  scale : K × K
  deriving DecidableEq

/-- A scale of 0 is none (qbsp/map.cc:1292-1295, 1395-1396). -/
def sane (s : K) : K := if s ≠ 0 then s else 1

/-- `SetTexinfo_QuakeEd_New` (qbsp/map.cc:1289-1353). -/
def quakeEdNew (env : Env K) (n : Vec K) (e : Ed K) : Tex K :=
  let ax := textureAxis env.old n
  let m := ((scale2 (1 / sane e.scale.1) (1 / sane e.scale.2)).mul (rot2 env e.rotate)).mul (axisFlips env n)
  let i := stAxes ax.1
  ⟨⟨put (put ⟨0, 0, 0⟩ i.1 m.a) i.2 m.b, e.shift.1⟩, ⟨put (put ⟨0, 0, 0⟩ i.1 m.c) i.2 m.d, e.shift.2⟩⟩

/-- The loop that turns the axes (qbsp/map.cc:1385-1390). -/
def turn (c s : K) (sv tv : Nat) (v : Vec K) : Vec K :=
  let ns := c * at_ v sv - s * at_ v tv
  let nt := s * at_ v sv + c * at_ v tv
  put (put v sv ns) tv nt

/-- The first component that is not 0 (qbsp/map.cc:1371-1383). -/
def firstAxis (v : Vec K) : Nat := if v.x ≠ 0 then 0 else if v.y ≠ 0 then 1 else 2

/-- `SetTexinfo_QuakeEd` (qbsp/map.cc:1355-1400). -/
def quakeEd (env : Env K) (n : Vec K) (e : Ed K) : Tex K :=
  let ax := textureAxis env.old n
  let sv := firstAxis ax.2.1
  let tv := firstAxis ax.2.2
  let row (v : Vec K) (sc sh : K) : Place.Row K :=
    let w := turn (env.cosd e.rotate) (env.sind e.rotate) sv tv v
    ⟨⟨w.x / sane sc, w.y / sane sc, w.z / sane sc⟩, sh⟩
  ⟨row ax.2.1 e.scale.1 e.shift.1, row ax.2.2 e.scale.2 e.shift.2⟩

/-- `SetTexinfo_QuArK` (qbsp/map.cc:1439-1500): `second` for `TX_QUARK_TYPE2`; `eps` is `ZERO_EPSILON`. -/
def quark (eps : K) (second : Bool) (p0 p1 p2 : Vec K) : Tex K :=
  let v0 := if second then Place.sub p1 p0 else Place.sub p2 p0
  let v1 := if second then Place.sub p2 p0 else Place.sub p1 p0
  let v0 : Vec K := ⟨v0.x * (1 / 128), v0.y * (1 / 128), v0.z * (1 / 128)⟩
  let v1 : Vec K := ⟨v1.x * (1 / 128), v1.y * (1 / 128), v1.z * (1 / 128)⟩
  let a := dot v0 v0
  let b := dot v0 v1
  let c := b
  let d := dot v1 v1
  let det := a * d - b * c
  let s : Vec K := if |det| < eps then ⟨0, 0, 0⟩
    else ⟨(d * v0.x - b * v1.x) / det, (d * v0.y - b * v1.y) / det, (d * v0.z - b * v1.z) / det⟩
  let t : Vec K := if |det| < eps then ⟨0, 0, 0⟩
    else ⟨-(a * v1.x - c * v0.x) / det, -(a * v1.y - c * v0.y) / det, -(a * v1.z - c * v0.z) / det⟩
  ⟨⟨s, -dot s p0⟩, ⟨t, -dot t p0⟩⟩

/-- A row of a Valve 220 definition. -/
structure ValveRow (K : Type) where
  axis : Vec K
  shift : K
  scale : K

/-- `SetTexinfo_Valve220` (qbsp/map.cc:1502-1512). -/
def valveRow (r : ValveRow K) : Place.Row K := ⟨⟨r.axis.x / r.scale, r.axis.y / r.scale, r.axis.z / r.scale⟩, r.shift⟩

def valve (r : ValveRow K × ValveRow K) : Tex K := ⟨valveRow r.1, valveRow r.2⟩

/-- Small components are taken for 0 (qbsp/map.cc:1530-1538); `eps` is 1e-6. -/
def clean (eps : K) (n : Vec K) : Vec K :=
  ⟨if |n.x| < eps then 0 else n.x, if |n.y| < eps then 0 else n.y, if |n.z| < eps then 0 else n.z⟩

/-- `ComputeAxisBase` (qbsp/map.cc:1523-1553): `texX` and `texY`. -/
def axisBase (env : Env K) (eps : K) (n0 : Vec K) : Vec K × Vec K :=
  let n := clean eps n0
  let ry := -env.angd n.z (env.hyp n.y n.x)
  let rz := env.angd n.y n.x
  (⟨-env.sind rz, env.cosd rz, 0⟩, ⟨-env.sind ry * env.cosd rz, -env.sind ry * env.sind rz, -env.cosd ry⟩)

/-- The matrix of a brush primitive: a row for s and one for t. -/
structure Prim (K : Type) where
  s : Vec K
  t : Vec K

/-- `SetTexinfo_BrushPrimitives` (qbsp/map.cc:1555-1595). -/
def primitives (env : Env K) (eps : K) (m : Prim K) (n : Vec K) (w h : K) : Tex K :=
  let ax := axisBase env eps n
  let row (w : K) (r : Vec K) : Place.Row K :=
    ⟨⟨w * (ax.1.x * r.x + ax.2.x * r.y), w * (ax.1.y * r.x + ax.2.y * r.y), w * (ax.1.z * r.x + ax.2.z * r.y)⟩, w * r.z⟩
  ⟨row w m.s, row h m.t⟩

/-- `TexDef_BSPToBrushPrimitives` (qbsp/map.cc:1597-1618). -/
def toPrimitives (env : Env K) (eps : K) (pl : Plane K) (w h : K) (x : Tex K) : Prim K :=
  let ax := axisBase env eps pl.normal
  let proj : Vec K := ⟨pl.normal.x * pl.dist, pl.normal.y * pl.dist, pl.normal.z * pl.dist⟩
  let st (p : Vec K) : K × K := ((x.uvs p).1 / w, (x.uvs p).2 / h)
  let s0 := st proj
  let s1 := st (Place.add ax.1 proj)
  let s2 := st (Place.add ax.2 proj)
  ⟨⟨s1.1 - s0.1, s2.1 - s0.1, s0.1⟩, ⟨s1.2 - s0.2, s2.2 - s0.2, s0.2⟩⟩

/-- The body of the loop of `TexDef_BSPToValve` (qbsp/map.cc:3482-3494). -/
def toValveRow (env : Env K) (r : Place.Row K) : ValveRow K :=
  let l := env.len r.v
  ⟨if l ≠ 0 then ⟨r.v.x / l, r.v.y / l, r.v.z / l⟩ else r.v, r.d, if l ≠ 0 then 1 / l else 0⟩

/-- `TexDef_BSPToValve` (qbsp/map.cc:3469-3497). -/
def toValve (env : Env K) (x : Tex K) : ValveRow K × ValveRow K := (toValveRow env x.s, toValveRow env x.t)

/-- `qv::normalize` of a vector in the plane. -/
def normalize2 (env : Env K) (v : K × K) : K × K :=
  if env.hyp v.1 v.2 ≠ 0 then (v.1 / env.hyp v.1 v.2, v.2 / env.hyp v.1 v.2) else v

def dot2 (u v : K × K) : K := u.1 * v.1 + u.2 * v.2

/-- The part of `Reverse_QuakeEd` that removes shear (qbsp/map.cc:1169-1220), `preserveX` being false. -/
def unshear (env : Env K) (m : M2 K) : Outcome (M2 K) :=
  let xv := (m.a, m.b)
  let yv := (m.c, m.d)
  if |dot2 (normalize2 env xv) (normalize2 env yv)| > 1 / 1000 then
    let cw := decide (yv.1 * xv.2 - yv.2 * xv.1 < 0)
    let dir := normalize2 env (if cw then (yv.2, -yv.1) else (-yv.2, yv.1))
    let l := dot2 xv dir
    let xv' := (dir.1 * l, dir.2 * l)
    if |dot2 (normalize2 env xv') (normalize2 env yv)| > 1 / 1000 then .error
    else .ok ⟨xv'.1, xv'.2, m.c, m.d⟩
  else .ok m

/-- A guess of the signs (qbsp/map.cc:1256-1278): the rotation and the scale, if the matrix is about right. -/
def guess (env : Env K) (m flips : M2 K) (ax ay : K) (sg : K × K) : Option (K × K × K) :=
  let flipRotate := ((scale2 ax ay).inv.mul m).mul flips.inv
  let g := (scale2 sg.1 sg.2).inv.mul flipRotate
  let p := g.app (1, 0)
  let angle := env.angd p.2 p.1
  let mg := (((scale2 sg.1 sg.2).mul (scale2 ax ay)).mul (rot2 env angle)).mul flips
  if |m.a - mg.a| < 1 / 1000 ∧ |m.c - mg.c| < 1 / 1000 ∧ |m.b - mg.b| < 1 / 1000 ∧ |m.d - mg.d| < 1 / 1000 then
    some (angle, sg.1 / ax, sg.2 / ay)
  else none

/-- `Reverse_QuakeEd` (qbsp/map.cc:1166-1287): rotation and scale. -/
def reverse (env : Env K) (m : M2 K) (n : Vec K) : Outcome (K × K × K) := do
  let m ← unshear env m
  let ax := env.hyp m.a m.b
  let ay := env.hyp m.c m.d
  let flips := axisFlips env n
  .ok (([(-1, -1), (-1, 1), (1, -1), (1, 1)].findSome? (guess env m flips ax ay)).getD (0, 0, 0))

/-- A component of `normalizeShift` (qbsp/map.cc:1006-1010). The width is unsigned, so the division is too. -/
def normalizeOne (env : Env K) (w : BitVec 32) (x : K) : Outcome K :=
  if w = 0 then .ub
  else
    match env.trunc x with
    | none => .ub
    | some i => .ok (env.fl (x - env.fl (((BitVec.ofInt 32 i / w * w).toNat : Nat) : K)))

/-- `normalizeShift` (qbsp/map.cc:1000-1013). -/
def normalizeShift (env : Env K) (size : Option (BitVec 32 × BitVec 32)) (x : K × K) : Outcome (K × K) :=
  match size with
  | none => .ok x
  | some s => do
    let a ← normalizeOne env s.1 x.1
    let b ← normalizeOne env s.2 x.2
    .ok (a, b)

/-- The matrix that maps the three points to their texture coordinates (qbsp/map.cc:1020-1080). -/
def planeToUV (env : Env K) (n : Vec K) (x : Tex K) (p0 p1 p2 : Vec K) : M2 K :=
  let sn := (textureAxis env.old n).1
  let uv0 := x.uvs p0
  let uv1 := x.uvs p1
  let uv2 := x.uvs p2
  let q0 := project sn p0
  let q1 := project sn p1
  let q2 := project sn p2
  let a : K × K := (q1.1 - q0.1, q1.2 - q0.2)
  let b : K × K := (q2.1 - q0.1, q2.2 - q0.2)
  let u : K × K := (uv1.1 - uv0.1, uv1.2 - uv0.2)
  let v : K × K := (uv2.1 - uv0.1, uv2.2 - uv0.2)
  let e := a.1 * b.2 - a.2 * b.1
  ⟨(u.1 * b.2 - v.1 * a.2) / e, (a.1 * v.1 - b.1 * u.1) / e, (u.2 * b.2 - v.2 * a.2) / e, (a.1 * v.2 - b.1 * u.2) / e⟩

/-- `TexDef_BSPToQuakeEd` (qbsp/map.cc:1015-1104). -/
def toQuakeEd (env : Env K) (n : Vec K) (size : Option (BitVec 32 × BitVec 32)) (x : Tex K) (p0 p1 p2 : Vec K) :
    Outcome (Ed K) := do
  let r ← reverse env (planeToUV env n x p0 p1 p2) n
  let actual := (quakeEdNew env n ⟨(0, 0), r.1, (r.2.1, r.2.2)⟩).uvs p0
  let desired := x.uvs p0
  let shift ← normalizeShift env size (desired.1 - actual.1, desired.2 - actual.2)
  .ok ⟨shift, r.1, (r.2.1, r.2.2)⟩

end Verif.TexDef
