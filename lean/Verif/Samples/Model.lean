import Verif.Phong.Model

/-!
Model of the places and normals of light samples: the functions on polygons (common/mathlib.cc) and the search for the
face and the place that a sample belongs to (light/ltface.cc).

Simplifications: `float` is replaced by an ordered field `K`, that is, arithmetic is exact; `qv::length` is a parameter.
`FLT_MAX` is larger than any number. Points and normals of a face are as many as its edges.
-/

namespace Verif.Samples

open Verif.Geom Verif.Phong

variable {K : Type} [Field K] [LinearOrder K]

/-- `POINT_EQUAL_EPSILON` (include/common/mathlib.hh:52). -/
def pointEps : K := 1 / 20

/-- `ZERO_TRI_AREA_EPSILON` (include/common/mathlib.hh:51). -/
def areaEps : K := 1 / 10000

/-- `qv::TriangleArea` (include/common/qvec.hh:594-598). -/
def triangleArea (len : Vec K → K) (a b c : Vec K) : K := 1 / 2 * len (cross (sub c a) (sub b a))

/-- The loop of `FaceNormal` (common/mathlib.cc:179-188): the two points after the first of the largest triangle, and its
area. -/
def largestTriangle (len : Vec K → K) (p0 : Vec K) : List (Vec K) → Option (Vec K × Vec K × K) →
    Option (Vec K × Vec K × K)
  | p1 :: p2 :: ps, best =>
    let area := triangleArea len p0 p1 p2
    let better := match best with
      | none => true
      | some b => decide (area > b.2.2)
    largestTriangle len p0 (p2 :: ps) (if better then some (p1, p2, area) else best)
  | _, best => best

/-- `FaceNormal` (common/mathlib.cc:171-197); the zero vector for a polygon without area. -/
def faceNormal (len : Vec K → K) : List (Vec K) → Vec K
  | [] => ⟨0, 0, 0⟩
  | p0 :: ps =>
    match largestTriangle len p0 ps none with
    | none => ⟨0, 0, 0⟩
    | some (p1, p2, area) =>
      if area < areaEps then ⟨0, 0, 0⟩
      else
        let c := cross (sub p2 p0) (sub p1 p0)
        smul (1 / len c) c

/-- `MakeInwardFacingEdgePlane` (common/mathlib.cc:206-217); none for a short edge. -/
def edgePlane (len : Vec K → K) (v0 v1 n : Vec K) : Option (Plane K) :=
  let l := len (sub v1 v0)
  if l < pointEps then none
  else
    let m := cross (smul (1 / l) (sub v1 v0)) n
    some ⟨m, dot m v0⟩

/-- The edges of a polygon. -/
def edges (ps : List (Vec K)) : List (Vec K × Vec K) :=
  match ps with
  | [] => []
  | p :: qs => (p :: qs).zip (qs ++ [p])

/-- `MakeInwardFacingEdgePlanes` (common/mathlib.cc:219-245). -/
def edgePlanes (len : Vec K → K) (ps : List (Vec K)) : List (Plane K) :=
  if ps.length < 3 then []
  else
    let n := faceNormal len ps
    if n = ⟨0, 0, 0⟩ then []
    else (edges ps).filterMap fun e => edgePlane len e.1 e.2 n

/-- `DistAbovePlane` (common/mathlib.cc:274-277). -/
def above (pl : Plane K) (p : Vec K) : K := dot pl.normal p - pl.dist

/-- `EdgePlanes_PointInsideDist` (common/mathlib.cc:247-258) is at least the number. -/
def insideBy (planes : List (Plane K)) (p : Vec K) (d : K) : Bool := planes.all fun pl => decide (above pl p ≥ d)

/-- `EdgePlanes_PointInside` (common/mathlib.cc:260-267). -/
def pointInside (planes : List (Plane K)) (p : Vec K) : Bool :=
  if planes = [] then false else insideBy planes p (-pointEps)

/-- `ProjectPointOntoPlane` (common/mathlib.cc:279-284). -/
def project (pl : Plane K) (p : Vec K) : Vec K := add p (smul (-(above pl p)) pl.normal)

/-- `Barycentric_FromPoint` (include/common/qvec.hh:653-673); none where it divides by zero, so that the result is not
finite (common/mathlib.cc:396). -/
def baryFrom (p t0 t1 t2 : Vec K) : Option (K × K × K) :=
  let v0 := sub t1 t0
  let v1 := sub t2 t0
  let v2 := sub p t0
  let d00 := dot v0 v0
  let d01 := dot v0 v1
  let d11 := dot v1 v1
  let d20 := dot v2 v0
  let d21 := dot v2 v1
  let denom := d00 * d11 - d01 * d01
  if denom = 0 then none
  else
    let b1 := (d11 * d20 - d01 * d21) * (1 / denom)
    let b2 := (d00 * d21 - d01 * d20) * (1 / denom)
    some (1 - b1 - b2, b1, b2)

/-- `Barycentric_ToPoint` (include/common/qvec.hh:686-692). -/
def baryTo (b : K × K × K) (t0 t1 t2 : Vec K) : Vec K := add (add (smul b.1 t0) (smul b.2.1 t1)) (smul b.2.2 t2)

/-- One triangle of `InterpolateNormal` (common/mathlib.cc:382-401): a result, or on to the next. -/
def interpolateIn (len : Vec K → K) (p : Vec K) (a b c : Vec K × Vec K) : Option (Vec K) :=
  let planes := edgePlanes len [a.1, b.1, c.1]
  if planes.length ≠ 3 then none
  else if pointInside planes p then
    match baryFrom p a.1 b.1 c.1 with
    | none => none
    | some w => some (baryTo w a.2 b.2 c.2)
  else none

/-- The loop of `InterpolateNormal` (common/mathlib.cc:381-402) over points with their normals. -/
def interpolateLoop (len : Vec K → K) (p : Vec K) (a : Vec K × Vec K) : List (Vec K × Vec K) → Option (Vec K)
  | b :: c :: rest =>
    match interpolateIn len p a b c with
    | some n => some n
    | none => interpolateLoop len p a (c :: rest)
  | _ => none

/-- `InterpolateNormal` (common/mathlib.cc:367-405). -/
def interpolate (len : Vec K → K) (pns : List (Vec K × Vec K)) (p : Vec K) : Option (Vec K) :=
  match pns with
  | a :: rest => if pns.length < 3 then none else interpolateLoop len p a rest
  | [] => none

/-- `FractionOfLine` (common/mathlib.cc:441-455). -/
def fraction (v w p : Vec K) : K :=
  let l2 := dot (sub w v) (sub w v)
  if l2 = 0 then 0 else dot (sub p v) (sub w v) / l2

/-- `ClosestPointOnLine` (common/mathlib.cc:463-477). -/
def closestOnLine (len : Vec K → K) (v w p : Vec K) : Vec K :=
  let l := len (sub w v)
  let d := if l = 0 then sub w v else smul (1 / l) (sub w v)
  if d = ⟨0, 0, 0⟩ then p
  else add v (smul (dot (sub p v) d) d)

/-- `ClosestPointOnLineSegment` (common/mathlib.cc:485-494). -/
def closestOnSegment (len : Vec K → K) (v w p : Vec K) : Vec K :=
  let f := fraction v w p
  if f ≥ 1 then w else if f ≤ 0 then v else closestOnLine len v w p

/-- The loop of `ClosestPointOnPolyBoundary` (common/mathlib.cc:337-349): the number, the distance and the point found so
far. -/
def closestLoop (len : Vec K → K) (p : Vec K) : List (Vec K × Vec K) → Nat → Option (Nat × K × Vec K) →
    Option (Nat × K × Vec K)
  | [], _, best => best
  | e :: es, i, best =>
    let c := closestOnSegment len e.1 e.2 p
    let d := len (sub c p)
    let better := match best with
      | none => true
      | some b => decide (d < b.2.1)
    closestLoop len p es (i + 1) (if better then some (i, d, c) else best)

/-- `ClosestPointOnPolyBoundary` (common/mathlib.cc:329-354): the number of an edge and a point on it; none where the
assertion fails. -/
def closestOnPoly (len : Vec K → K) (ps : List (Vec K)) (p : Vec K) : Option (Nat × Vec K) :=
  (closestLoop len p (edges ps) 0 none).map fun b => (b.1, b.2.2)

/-! The place of a sample -/

/-- A model as the test for solids sees it: `modelinfo_t` with its tree (`Light_PointInSolid`). -/
structure Solid (K : Type) where
  inside : Vec K → Bool
  offset : Vec K
  mask : Nat
  opaqueModel : Bool

/-- `Light_PointInAnySolid` (light/ltface.cc:295-324). `world`: `Light_PointInWorld`; 1 is `CHANNEL_MASK_DEFAULT`. -/
def pointInAnySolid (world : Vec K → Bool) (tracelist : List (Solid K)) (self : Solid K) (p : Vec K) : Bool :=
  if self.inside p then true
  else if self.mask = 1 ∧ world p then true
  else tracelist.any fun m => decide (m.mask = self.mask) && m.inside (sub p m.offset) && m.opaqueModel

/-- A face as the search sees it: `face_cache_t`, and the model of the face, if it has one. -/
structure SFace (K : Type) where
  points : List (Vec K)
  normals : List (Vec K)
  plane : Plane K
  model : Option (Solid K)

/-- What the search works on: the faces, the face across an edge (`Face_EdgeIndexSmoothed`), the test for solids, and the
distance of two points on the lightmap of the face that is lit. -/
structure Scene (K : Type) where
  face : Nat → SFace K
  across : Nat → Nat → Option Nat
  solid : Solid K → Vec K → Bool
  luxelDist : Vec K → Vec K → K
  phong : Bool
  offset : Vec K

/-- `position_t` (light/ltface.cc:72-93). -/
inductive Position (K : Type) where
  | occluded (p : Vec K)
  | at (face : Nat) (p n : Vec K)
  deriving DecidableEq

/-- The points tried around a point in a solid (light/ltface.cc:376-379). -/
def jitters : List (Vec K) :=
  [⟨-1, -1, -1⟩, ⟨-1, -1, 1⟩, ⟨-1, 1, -1⟩, ⟨-1, 1, 1⟩, ⟨1, -1, -1⟩, ⟨1, -1, 1⟩, ⟨1, 1, -1⟩, ⟨1, 1, 1⟩]

/-- The last part of `PositionSamplePointOnFace` (light/ltface.cc:371-407). -/
def placeAt (s : Scene K) (g : Nat) (m : Solid K) (p n : Vec K) : Position K :=
  if s.solid m (add p s.offset) then
    match jitters.find? fun j => !s.solid m (add (add p (smul (1 / 2) j)) s.offset) with
    | some j => .at g (add p (smul (1 / 2) j)) n
    | none => .occluded p
  else .at g p n

/-- `PositionSamplePointOnFace` (light/ltface.cc:326-408). -/
def positionOnFace (len : Vec K → K) (s : Scene K) (g : Nat) (p : Vec K) : Position K :=
  let f := s.face g
  let planes := edgePlanes len f.points
  if planes = [] then .occluded p
  else if ¬(|above f.plane p - 1| ≤ 1 / 10) then .occluded p
  else if !insideBy planes p (-pointEps) then .occluded p
  else match f.model with
    | none => .occluded p
    | some m =>
      if s.phong then
        match interpolate len (f.points.zip f.normals) p with
        | none => .occluded p
        | some n => placeAt s g m p n
      else placeAt s g m p f.plane.normal

/-- `edgedist` (light/ltface.cc:208-219). -/
def edgeDist (len : Vec K → K) (v0 v1 p : Vec K) : K :=
  let t := fraction v0 v1 p
  let l := len (sub v1 v0)
  if t < 0 then |t| * l else if t > 1 then t * l else 0

/-- The search for an edge (light/ltface.cc:190-226). -/
def bestEdge (len : Vec K → K) (n p : Vec K) : List (Vec K × Vec K) → Nat → Option (Nat × K) → Option (Nat × K)
  | [], _, best => best
  | e :: es, i, best =>
    match edgePlane len e.1 e.2 n with
    | none => bestEdge len n p es (i + 1) best
    | some pl =>
      if above pl p < pointEps then
        let d := edgeDist len e.1 e.2 p
        let better := match best with
          | none => true
          | some b => decide (d < b.2)
        bestEdge len n p es (i + 1) (if better then some (i, d) else best)
      else bestEdge len n p es (i + 1) best

/-- Snapping to the polygon (light/ltface.cc:242-262). The polygon is not empty, so there is a closest point. -/
def snap (len : Vec K → K) (s : Scene K) (g : Nat) (p : Vec K) : Position K :=
  match closestOnPoly len (s.face g).points p with
  | none => .occluded p
  | some c =>
    if s.luxelDist p c.2 ≤ 1 then positionOnFace len s g (add c.2 (s.face g).plane.normal)
    else .occluded p

/-- `CalcPointNormal` (light/ltface.cc:127-263); `depth`: how often it may still call itself. -/
def calcPoint (len : Vec K → K) (s : Scene K) : Nat → Nat → Vec K → Position K
  | depth, g, orig =>
    let f := s.face g
    let planes := edgePlanes len f.points
    if f.points = [] ∨ planes = [] then .occluded orig
    else
      let p := add (project f.plane orig) f.plane.normal
      if pointInside planes p then positionOnFace len s g p
      else match bestEdge len f.plane.normal p (edges f.points) 0 none with
        | none => snap len s g p
        | some b =>
          match s.across g b.1, depth with
          | some g', d + 1 => calcPoint len s d g' p
          | _, _ => snap len s g p

end Verif.Samples
