import Mathlib.Algebra.Order.Floor.Ring
import Verif.Common.Outcome
import Verif.Geom.Model

/-!
Model of the lightmap coordinates of a face: `faceextents_t` (common/bsputils.cc:811-1089), the inverse of a matrix
(common/qvec.cc:75-138), and the grid of sample points (light/ltface.cc:415-460).

Simplifications: numbers are elements of an ordered field, arithmetic is exact. A matrix or number that is not a number in
the code is `none`. A conversion of a number to `int` that does not fit is undefined. The matrices between the world and the
texture are kept only where they are used. Messages are left out.
-/

namespace Verif.Extents

open Verif.Geom

variable {K : Type} [Field K] [LinearOrder K]

/-- `qmat4x4`: the sixteen values, column by column (include/common/qvec.hh:840-960). -/
abbrev Mat (K : Type) := Nat → K

/-- A matrix from its values. -/
def mat (l : List K) : Mat K := fun i => l.getD i 0

/-- `operator*` of two matrices (include/common/qvec.hh:974-990). -/
def mul (a b : Mat K) : Mat K := fun i =>
  a (i % 4) * b (i / 4 * 4) + a (i % 4 + 4) * b (i / 4 * 4 + 1) + a (i % 4 + 8) * b (i / 4 * 4 + 2) +
    a (i % 4 + 12) * b (i / 4 * 4 + 3)

/-- `operator*` with a vector (include/common/qvec.hh:963-972). -/
def app (a : Mat K) (x y z w : K) (r : Nat) : K := a r * x + a (r + 4) * y + a (r + 8) * z + a (r + 12) * w

/-- The adjugate in `gluInvertMatrixd` (common/qvec.cc:77-112). -/
def adjugate (m : Mat K) : List K :=
  [m 5 * m 10 * m 15 - m 5 * m 11 * m 14 - m 9 * m 6 * m 15 + m 9 * m 7 * m 14 + m 13 * m 6 * m 11 - m 13 * m 7 * m 10,
   -m 1 * m 10 * m 15 + m 1 * m 11 * m 14 + m 9 * m 2 * m 15 - m 9 * m 3 * m 14 - m 13 * m 2 * m 11 + m 13 * m 3 * m 10,
   m 1 * m 6 * m 15 - m 1 * m 7 * m 14 - m 5 * m 2 * m 15 + m 5 * m 3 * m 14 + m 13 * m 2 * m 7 - m 13 * m 3 * m 6,
   -m 1 * m 6 * m 11 + m 1 * m 7 * m 10 + m 5 * m 2 * m 11 - m 5 * m 3 * m 10 - m 9 * m 2 * m 7 + m 9 * m 3 * m 6,
   -m 4 * m 10 * m 15 + m 4 * m 11 * m 14 + m 8 * m 6 * m 15 - m 8 * m 7 * m 14 - m 12 * m 6 * m 11 + m 12 * m 7 * m 10,
   m 0 * m 10 * m 15 - m 0 * m 11 * m 14 - m 8 * m 2 * m 15 + m 8 * m 3 * m 14 + m 12 * m 2 * m 11 - m 12 * m 3 * m 10,
   -m 0 * m 6 * m 15 + m 0 * m 7 * m 14 + m 4 * m 2 * m 15 - m 4 * m 3 * m 14 - m 12 * m 2 * m 7 + m 12 * m 3 * m 6,
   m 0 * m 6 * m 11 - m 0 * m 7 * m 10 - m 4 * m 2 * m 11 + m 4 * m 3 * m 10 + m 8 * m 2 * m 7 - m 8 * m 3 * m 6,
   m 4 * m 9 * m 15 - m 4 * m 11 * m 13 - m 8 * m 5 * m 15 + m 8 * m 7 * m 13 + m 12 * m 5 * m 11 - m 12 * m 7 * m 9,
   -m 0 * m 9 * m 15 + m 0 * m 11 * m 13 + m 8 * m 1 * m 15 - m 8 * m 3 * m 13 - m 12 * m 1 * m 11 + m 12 * m 3 * m 9,
   m 0 * m 5 * m 15 - m 0 * m 7 * m 13 - m 4 * m 1 * m 15 + m 4 * m 3 * m 13 + m 12 * m 1 * m 7 - m 12 * m 3 * m 5,
   -m 0 * m 5 * m 11 + m 0 * m 7 * m 9 + m 4 * m 1 * m 11 - m 4 * m 3 * m 9 - m 8 * m 1 * m 7 + m 8 * m 3 * m 5,
   -m 4 * m 9 * m 14 + m 4 * m 10 * m 13 + m 8 * m 5 * m 14 - m 8 * m 6 * m 13 - m 12 * m 5 * m 10 + m 12 * m 6 * m 9,
   m 0 * m 9 * m 14 - m 0 * m 10 * m 13 - m 8 * m 1 * m 14 + m 8 * m 2 * m 13 + m 12 * m 1 * m 10 - m 12 * m 2 * m 9,
   -m 0 * m 5 * m 14 + m 0 * m 6 * m 13 + m 4 * m 1 * m 14 - m 4 * m 2 * m 13 - m 12 * m 1 * m 6 + m 12 * m 2 * m 5,
   m 0 * m 5 * m 10 - m 0 * m 6 * m 9 - m 4 * m 1 * m 10 + m 4 * m 2 * m 9 + m 8 * m 1 * m 6 - m 8 * m 2 * m 5]

/-- The determinant (common/qvec.cc:114). -/
def det (m : Mat K) : K :=
  m 0 * (adjugate m).getD 0 0 + m 1 * (adjugate m).getD 4 0 + m 2 * (adjugate m).getD 8 0 + m 3 * (adjugate m).getD 12 0

/-- `qv::inverse` (common/qvec.cc:115-138). -/
def inverse (m : Mat K) : Option (Mat K) :=
  if det m = 0 then none else some fun i => (adjugate m).getD i 0 * (1 / det m)

/-- A row of a `texvecf` (include/common/bspfile_common.hh:486-510): the vector and the offset. -/
structure TexRow (K : Type) where
  vec : Vec K
  ofs : K

/-- A face: its corners, its plane (`Face_Plane`) and the texture vectors of its texinfo. -/
structure Face (K : Type) where
  points : List (Vec K)
  plane : Plane K
  s : TexRow K
  t : TexRow K

/-- One of the two values of `texvecf::uvs` (include/common/bspfile_common.hh:490-495). -/
def TexRow.at (r : TexRow K) (p : Vec K) : K := p.x * r.vec.x + p.y * r.vec.y + p.z * r.vec.z + r.ofs

/-- The matrix whose rows are two texture rows, the plane and the unit row (common/bsputils.cc:847-853, 942-945,
1010-1013). -/
def frame (s t : TexRow K) (p : Plane K) : Mat K :=
  mat [s.vec.x, t.vec.x, p.normal.x, 0, s.vec.y, t.vec.y, p.normal.y, 0, s.vec.z, t.vec.z, p.normal.z, 0,
    s.ofs, t.ofs, -p.dist, 1]

/-- `WorldToTexSpace` (common/bsputils.cc:833-855). -/
def worldToTex (f : Face K) : Mat K := frame f.s f.t f.plane

/-- `TexSpaceToWorld` (common/bsputils.cc:857-860). -/
def texToWorld (f : Face K) : Option (Mat K) := inverse (worldToTex f)

/-- The least and the largest of some numbers, as `aabb` collects them (include/common/aabb.hh:99-125). -/
def bounds1 : List K → Option (K × K)
  | [] => none
  | x :: xs => some (xs.foldl (fun b y => (min b.1 y, max b.2 y)) (x, x))

/-- The conversion of a number to `int`. -/
def toInt [FloorRing K] (x : K) : Outcome Int :=
  let n := if 0 ≤ x then ⌊x⌋ else ⌈x⌉
  if -2 ^ 31 ≤ n ∧ n < 2 ^ 31 then .ok n else .ub

/-- `faceextents_t` (include/common/bsputils.hh:147-175): the extents, the matrices between the world and the lightmap,
the middle of the bounding box, and half of its diagonal, whose length is `radius`. -/
structure Ext (K : Type) where
  w : Int
  h : Int
  toLM : Mat K
  toWorld : Option (Mat K)
  origin : Vec K
  half : Vec K

/-- The middle and half the diagonal of the bounding box of the corners (common/bsputils.cc:911-915, 953-956, 1034-1038). -/
def sphere (f : Face K) : Option (Vec K × Vec K) :=
  match bounds1 (f.points.map (·.x)), bounds1 (f.points.map (·.y)), bounds1 (f.points.map (·.z)) with
  | some bx, some by_, some bz =>
    let r : Vec K := ⟨(bx.2 - bx.1) * (1 / 2), (by_.2 - by_.1) * (1 / 2), (bz.2 - bz.1) * (1 / 2)⟩
    some (⟨bx.1 + r.x, by_.1 + r.y, bz.1 + r.z⟩, r)
  | _, _, _ => none

/-- The first lightmap coordinate and the extent along one axis (common/bsputils.cc:893-898, 1003-1008): `b` are the bounds
of the coordinates, in luxels. -/
def axisExtent [FloorRing K] (b : Option (K × K)) : Outcome (Int × Int) :=
  match b with
  | none => .ub
  | some b => do
    let lo ← toInt (⌊b.1⌋ : K)
    let n ← toInt ((⌈b.2⌉ : K) - (⌊b.1⌋ : K))
    pure (lo, n)

/-- The bounds of texture coordinates, divided by the size of a luxel (common/bsputils.cc:875-895). -/
def scaledBounds (shift : K) (r : TexRow K) (f : Face K) : Option (K × K) :=
  (bounds1 (f.points.map r.at)).map fun b => (b.1 / shift, b.2 / shift)

/-- `LMToTexCoordMatrix` (common/bsputils.cc:917-918). -/
def lmToTex (shift : K) (s0 t0 : Int) : Mat K :=
  mat [shift, 0, 0, 0, 0, shift, 0, 0, 0, 0, 1, 0, (s0 : K) * shift, (t0 : K) * shift, 0, 1]

/-- The constructor for a lightmap scale (common/bsputils.cc:868-924). A matrix product with a matrix that is not a number is
none; the inverse of `LMToTexCoordMatrix` exists unless the scale is 0, when the values divided by it are infinite. -/
def vanilla [FloorRing K] (f : Face K) (shift : K) : Outcome (Ext K) := do
  let a ← axisExtent (scaledBounds shift f.s f)
  let b ← axisExtent (scaledBounds shift f.t f)
  match sphere f, inverse (lmToTex shift a.1 b.1) with
  | some sp, some i =>
    pure { w := a.2, h := b.2, toLM := mul i (worldToTex f)
           toWorld := (texToWorld f).map fun m => mul m (lmToTex shift a.1 b.1), origin := sp.1, half := sp.2 }
  | _, _ => .ub

/-- The constructor for data of the `DECOUPLED_LM` lump (common/bsputils.cc:926-957). If a size is 0, `lm_extents` is never
set, and reading it is undefined; here there is no such object. -/
def stored (f : Face K) (lmw lmh : Nat) (s t : TexRow K) : Outcome (Ext K) :=
  if 0 < lmw ∧ 0 < lmh then
    match sphere f with
    | some sp => .ok { w := lmw - 1, h := lmh - 1, toLM := frame s t f.plane, toWorld := inverse (frame s t f.plane)
                       origin := sp.1, half := sp.2 }
    | none => .ub
  else .ub

/-- `qv::indexOfLargestMagnitudeComponent` (include/common/qvec.hh:537-553). -/
def largest (v : Vec K) : Nat :=
  let i := if |v.x| > 0 then 0 else 0
  let m := if |v.x| > 0 then |v.x| else 0
  let i' := if |v.y| > m then 1 else i
  let m' := if |v.y| > m then |v.y| else m
  if |v.z| > m' then 2 else i'

/-- The unit vector along an axis with a sign. -/
def axisVec (i : Nat) (x : K) : Vec K := ⟨if i = 0 then x else 0, if i = 1 then x else 0, if i = 2 then x else 0⟩

/-- A component of a vector. -/
def comp (v : Vec K) (i : Nat) : K := if i = 0 then v.x else if i = 1 then v.y else v.z

/-- `qv::cross`. -/
def crs (a b : Vec K) : Vec K := ⟨a.y * b.z - a.z * b.y, a.z * b.x - a.x * b.z, a.x * b.y - a.y * b.x⟩

/-- `MakeTangentAndBitangentUnnormalized` (include/common/qvec.hh:555-592). -/
def tangents (n : Vec K) : Vec K × Vec K :=
  let axis := largest n
  let tan := crs n (axisVec ((axis + 1) % 3) 1)
  let bit := crs n (axisVec ((axis + 2) % 3) 1)
  if dot (crs tan bit) n < 0 then (bit, tan) else (tan, bit)

/-- `snapped_normal` (common/bsputils.cc:961-976). -/
def snapped (n : Vec K) : Vec K := axisVec (largest n) (if comp n (largest n) > 0 then 1 else -1)

/-- A vector times a number. -/
def scale (k : K) (v : Vec K) : Vec K := ⟨v.x * k, v.y * k, v.z * k⟩

/-- The constructor for `-world_units_per_luxel` (common/bsputils.cc:958-1039). With 0 units the products are not numbers,
and their conversion to `int` is undefined. -/
def decoupled [FloorRing K] (f : Face K) (units : K) : Outcome (Ext K) :=
  if units = 0 then .ub
  else do
    let tb := tangents (snapped f.plane.normal)
    let tan := scale (1 / units) tb.1
    let bit := scale (1 / units) tb.2
    let a ← axisExtent (bounds1 (f.points.map fun p => dot tan p))
    let b ← axisExtent (bounds1 (f.points.map fun p => dot bit p))
    match sphere f with
    | some sp =>
      let m := frame ⟨tan, -(a.1 : K)⟩ ⟨bit, -(b.1 : K)⟩ f.plane
      pure { w := a.2, h := b.2, toLM := m, toWorld := inverse m, origin := sp.1, half := sp.2 }
    | none => .ub

/-- `width` and `height` (common/bsputils.cc:1041-1049): `int` additions. -/
def Ext.width (e : Ext K) : Outcome Int := if e.w + 1 < 2 ^ 31 then .ok (e.w + 1) else .ub

def Ext.height (e : Ext K) : Outcome Int := if e.h + 1 < 2 ^ 31 then .ok (e.h + 1) else .ub

/-- `worldToLMCoord` (common/bsputils.cc:1076-1081). -/
def Ext.lmCoord (e : Ext K) (p : Vec K) : K × K := (app e.toLM p.x p.y p.z 1 0, app e.toLM p.x p.y p.z 1 1)

/-- `LMCoordToWorld` (common/bsputils.cc:1083-1088). -/
def Ext.world (e : Ext K) (s t : K) : Option (Vec K) :=
  e.toWorld.map fun m => ⟨app m s t 0 1 0, app m s t 0 1 1, app m s t 0 1 2⟩

/-- The lightmap coordinate of a column or row of samples (light/ltface.cc:424-426, 441-442), `extra` being 1, 2 or 4. -/
def gridCoord (extra : Nat) (i : Nat) : K := (-(1 / 2) + 1 / 2 / (extra : K)) + (i : K) * (1 / (extra : K))

/-- The point of a sample before it is corrected (light/ltface.cc:441-445). -/
def samplePoint (e : Ext K) (n : Vec K) (extra s t : Nat) : Option (Vec K) :=
  (e.world (gridCoord extra s) (gridCoord extra t)).map fun p => ⟨p.x + n.x, p.y + n.y, p.z + n.z⟩

/-- The values `SaveLightmapSurface` stores in the `DECOUPLED_LM` lump (light/write.cc:824-829): the sizes are cut to 16
bits. -/
def store (e : Ext K) : Nat × Nat × TexRow K × TexRow K :=
  ((e.w + 1).toNat % 65536, (e.h + 1).toNat % 65536,
    ⟨⟨e.toLM 0, e.toLM 4, e.toLM 8⟩, e.toLM 12⟩, ⟨⟨e.toLM 1, e.toLM 5, e.toLM 9⟩, e.toLM 13⟩)

end Verif.Extents
