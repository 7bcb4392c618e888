import Verif.Geom.Model
import Verif.Common.Outcome

/-!
Model of phong shading (light/phong.cc): which faces are smoothed with each other, the normals at the vertices of the
faces, and the faces along an edge.

Simplifications: `float` is replaced by an ordered field `K`, that is, arithmetic is exact; no weight is infinite or not a
number. Cosine, arc cosine, length and rounding are parameters. The texinfo of every face exists, and a face is named by
its number. Tangents and bitangents are left out.
-/

namespace Verif.Phong

open Verif.Geom

variable {K : Type} [Field K] [LinearOrder K]

/-- What phong shading reads of a texinfo (include/common/bspfile_common.hh:248-277, include/common/bspfile.hh): `noPhong`,
`angle`, `concave` and `group` are of `extended_texinfo_flags`; `value` and `native` are of the BSP file. -/
structure Tex (K : Type) where
  noPhong : Bool
  angle : K
  concave : K
  group : Int
  value : Int
  native : Nat

/-- What phong shading reads of a face: its texinfo, the numbers of its vertices, the normal and the distance of its
plane turned to its front (`Face_Normal`, `Face_Plane`), and the plane's number and side. -/
structure Face (K : Type) where
  tex : Nat
  verts : List Nat
  norm : Vec K
  dist : K
  planenum : Nat
  side : Bool

/-- A model: `getResolvedPhongAngle` reads `phong_angle` and `phong`; `firstface` and `numfaces`. -/
structure Model (K : Type) where
  phongAngle : K
  phong : K
  first : Nat
  num : Nat

/-- The functions of the C library. -/
structure Ops (K : Type) where
  /-- The cosine of an angle in degrees. -/
  cosDeg : K → K
  /-- `acos`. -/
  acos : K → K
  /-- `qv::length`. -/
  len : Vec K → K
  /-- `rint`. -/
  rint : K → Int

/-- What phong shading reads of a BSP file. `mask`: the surface flags that have to match. -/
structure Bsp (K : Type) where
  faces : List (Face K)
  pos : Nat → Vec K
  mask : Nat

/-- `SURF_…` flags that have to match in Quake (common/bspfile.cc:180-183). -/
def maskQ1 : Nat := 1

/-- Flags that have to match in Quake II (common/bspfile.cc:819-828): sky, warp, trans33, trans66, flowing, nodraw. -/
def maskQ2 : Nat := 0x4 ||| 0x8 ||| 0x10 ||| 0x20 ||| 0x40 ||| 0x80

/-- `surfflags_may_phong`. -/
def mayPhong (mask : Nat) (a b : Tex K) : Bool := a.native &&& mask == b.native &&& mask

/-- `DEFAULT_PHONG_ANGLE` (include/light/light.hh:199). -/
def defaultAngle : K := 89

/-- `modelinfo_t::getResolvedPhongAngle` (light/light.cc:117-127). -/
def Model.resolved (m : Model K) : K :=
  if m.phongAngle ≠ 0 then m.phongAngle else if m.phong > 0 then defaultAngle else 0

/-- The angle of a model as a byte (light/phong.cc:437). -/
def Model.byte (o : Ops K) (m : Model K) : Nat := (max 0 (min 255 (o.rint m.resolved))).toNat

/-- The angle is written to the texinfo of every face of the model (light/phong.cc:439-446). -/
def Model.apply (o : Ops K) (faces : List (Face K)) (m : Model K) (tex : Nat → Tex K) : Nat → Tex K :=
  if m.byte o = 0 then tex
  else ((faces.drop m.first).take m.num).foldl
    (fun t f => Function.update t f.tex { t f.tex with angle := (m.byte o : K) }) tex

/-- The loop over the models (light/phong.cc:435-447). -/
def applyModels (o : Ops K) (faces : List (Face K)) (ms : List (Model K)) (tex : Nat → Tex K) : Nat → Tex K :=
  ms.foldl (fun t m => m.apply o faces t) tex

/-- `Q2_SURF_LIGHT`. -/
def surfLight : Nat := 1

/-- `Q2_FacePhongValue` (light/phong.cc:394-409). -/
def phongValue (t : Tex K) : Int :=
  if t.group ≠ 0 then t.group
  else if t.value ≠ 0 ∧ t.native &&& surfLight = 0 then t.value
  else 0

/-- `f_phong_angle` (light/phong.cc:472-476). -/
def phongAngle (t : Tex K) : K := if t.angle = 0 ∧ phongValue t ≠ 0 then defaultAngle else t.angle

/-- `f_phong_angle_concave` (light/phong.cc:477-480). -/
def concaveAngle (t : Tex K) : K := if t.concave = 0 then phongAngle t else t.concave

/-- `f_wants_phong` (light/phong.cc:481). -/
def wantsPhong (t : Tex K) : Bool := phongAngle t ≠ 0 || concaveAngle t ≠ 0

/-- `vertsToFaces[v]` (light/phong.cc:449-458): the faces in order, a face once for every corner it has there. -/
def vertFaces (faces : List (Face K)) (v : Nat) : List Nat :=
  faces.zipIdx.flatMap fun fi => (fi.1.verts.filter (· = v)).map fun _ => fi.2

def sub (a b : Vec K) : Vec K := ⟨a.x - b.x, a.y - b.y, a.z - b.z⟩
def add (a b : Vec K) : Vec K := ⟨a.x + b.x, a.y + b.y, a.z + b.z⟩
def smul (s : K) (a : Vec K) : Vec K := ⟨s * a.x, s * a.y, s * a.z⟩
def cross (a b : Vec K) : Vec K := ⟨a.y * b.z - a.z * b.y, a.z * b.x - a.x * b.z, a.x * b.y - a.y * b.x⟩

/-- `qv::TriangleArea` (include/common/qvec.hh:594-598). -/
def triArea (o : Ops K) (a b c : Vec K) : K := 1 / 2 * o.len (cross (sub c a) (sub b a))

/-- The triangles of a polygon: the first point and two that follow each other (include/common/qvec.hh:616-619). -/
def fan (ps : List (Vec K)) : List (Vec K × Vec K × Vec K) :=
  match ps with
  | [] => []
  | p :: ps => (ps.zip ps.tail).map fun ab => (p, ab.1, ab.2)

/-- `qv::PolyArea` (include/common/qvec.hh:633-). -/
def polyArea (o : Ops K) (ps : List (Vec K)) : K := ((fan ps).map fun t => triArea o t.1 t.2.1 t.2.2).sum

/-- `qv::PolyCentroid` (include/common/qvec.hh:600-631), for three or more points. -/
def polyCentroid (o : Ops K) (ps : List (Vec K)) : Vec K :=
  let s := (fan ps).foldl (fun acc t =>
    add acc (smul (triArea o t.1 t.2.1 t.2.2) (smul (1 / 3) (add (add t.1 t.2.1) t.2.2)))) ⟨0, 0, 0⟩
  smul (1 / polyArea o ps) s

/-- `Face_Points`. -/
def Face.points (b : Bsp K) (f : Face K) : List (Vec K) := f.verts.map b.pos

/-- `concave` (light/phong.cc:529): the middle of the other face is in front of the face's plane. -/
def concave (o : Ops K) (b : Bsp K) (f f2 : Face K) : Bool :=
  dot (polyCentroid o (f2.points b)) f.norm - f.dist > 1 / 10

/-- The tests of light/phong.cc:509-543 for two faces, after the ones on the first. -/
def smoothWith (o : Ops K) (b : Bsp K) (tex : Nat → Tex K) (f f2 : Face K) : Bool :=
  if !wantsPhong (tex f2.tex) then false
  else if (tex f2.tex).noPhong then false
  else if !mayPhong b.mask (tex f.tex) (tex f2.tex) then false
  else
    let cosangle := dot f.norm f2.norm
    let c := concave o b f f2
    let threshold := if c then concaveAngle (tex f.tex) else phongAngle (tex f.tex)
    let threshold2 := if c then concaveAngle (tex f2.tex) else phongAngle (tex f2.tex)
    let cosmax := o.cosDeg (min threshold threshold2)
    if phongValue (tex f.tex) ≠ phongValue (tex f2.tex) then false
    else decide (cosangle ≥ cosmax)

/-- `std::set::insert` of a face's number: the set as an ascending list. -/
def setInsert (i : Nat) : List Nat → List Nat
  | [] => [i]
  | j :: js => if i < j then i :: j :: js else if i = j then j :: js else j :: setInsert i js

/-- `smoothFaces[&f]` (light/phong.cc:460-546); empty also when the face has no entry. `i`: the number of the face `f`. -/
def smoothFaces (o : Ops K) (b : Bsp K) (tex : Nat → Tex K) (i : Nat) (f : Face K) : List Nat :=
  if !wantsPhong (tex f.tex) then []
  else if (tex f.tex).noPhong then []
  else
    f.verts.foldl (fun acc v =>
      (vertFaces b.faces v).foldl (fun acc j =>
        if j = i then acc
        else match b.faces[j]? with
          | none => acc
          | some f2 => if smoothWith o b tex f f2 then setInsert j acc else acc) acc) []

/-- `AngleBetweenVectors` (light/phong.cc:155-169). -/
def angleBetween (o : Ops K) (d1 d2 : Vec K) : K :=
  let p := o.len d1 * o.len d2
  if p = 0 then 0
  else o.acos (min 1 (max (-1) (dot d1 d2 / p)))

/-- The corners of a face (light/phong.cc:592-595): the vertices before, at and after each. -/
def corners (vs : List Nat) : List (Nat × Nat × Nat) :=
  (List.range vs.length).map fun j =>
    (vs.getD ((j + vs.length - 1) % vs.length) 0, vs.getD j 0, vs.getD ((j + 1) % vs.length) 0)

/-- `weight` (light/phong.cc:601-603). -/
def weight (o : Ops K) (b : Bsp K) (f : Face K) (c : Nat × Nat × Nat) : K :=
  polyArea o (f.points b) *
    angleBetween o (sub (b.pos c.1) (b.pos c.2.1)) (sub (b.pos c.2.2) (b.pos c.2.1))

/-- The map of vertices to sums of normals. -/
abbrev Sums (K : Type) := Nat → Option (Vec K)

/-- `smoothedNormals[v].normal += …` (light/phong.cc:609-610). -/
def Sums.add (m : Sums K) (v : Nat) (n : Vec K) : Sums K :=
  Function.update m v (some (Phong.add ((m v).getD ⟨0, 0, 0⟩) n))

/-- The loop over the vertices of a face (light/phong.cc:592-613). -/
def addFace (o : Ops K) (b : Bsp K) (m : Sums K) (f : Face K) : Sums K :=
  (corners f.verts).foldl (fun m c => m.add c.2.1 (smul (weight o b f c) f.norm)) m

/-- `fPlusNeighbours` (light/phong.cc:568-576). -/
def plusNeighbours (o : Ops K) (b : Bsp K) (tex : Nat → Tex K) (i : Nat) (f : Face K) : List (Face K) :=
  f :: (smoothFaces o b tex i f).filterMap fun j => b.faces[j]?

/-- `smoothedNormals` before they are normalized (light/phong.cc:578-614). -/
def sums (o : Ops K) (b : Bsp K) (tex : Nat → Tex K) (i : Nat) (f : Face K) : Sums K :=
  (plusNeighbours o b tex i f).foldl (addFace o b) fun _ => none

/-- A normal of `smoothedNormals` (light/phong.cc:617-635). -/
def finish (o : Ops K) (f : Face K) (n : Vec K) : Vec K :=
  if o.len n = 0 then f.norm else smul (1 / o.len n) n

/-- The normal recorded for a vertex of the face (light/phong.cc:663-668); a vertex without one fails the assertion. -/
def normalAt (o : Ops K) (b : Bsp K) (tex : Nat → Tex K) (i : Nat) (f : Face K) (v : Nat) : Outcome (Vec K) :=
  match sums o b tex i f v with
  | none => .error
  | some n => .ok (finish o f n)

/-- The loop that records the normals (light/phong.cc:662-670), from a vertex on. -/
def recordNormals (o : Ops K) (b : Bsp K) (tex : Nat → Tex K) (i : Nat) (f : Face K) : List Nat → Outcome (List (Vec K))
  | [] => .ok []
  | v :: vs => do
    let n ← normalAt o b tex i f v
    let ns ← recordNormals o b tex i f vs
    .ok (n :: ns)

/-- What the function of the parallel loop records for a face, in order (light/phong.cc:553-671). -/
def faceNormals (o : Ops K) (b : Bsp K) (tex : Nat → Tex K) (i : Nat) (f : Face K) : Outcome (List (Vec K)) :=
  if f.verts.length < 3 then .ok []
  else recordNormals o b tex i f f.verts

/-- `MakeEdgeToFaceMap` for one edge (light/phong.cc:341-368): the faces listed for it. -/
def edgeFaces (faces : List (Face K)) (v0 v1 : Nat) : List Nat :=
  faces.zipIdx.foldl (fun acc fi =>
    (corners fi.1.verts).foldl (fun acc c =>
      if c.2.1 = c.2.2 then acc
      else if (c.2.1, c.2.2) ≠ (v0, v1) then acc
      else if fi.2 ∈ acc then acc
      else acc ++ [fi.2]) acc) []

/-- The tests of a face that has the edge (light/phong.cc:299-309). -/
def continues (o : Ops K) (b : Bsp K) (tex : Nat → Tex K) (i : Nat) (f : Face K) (j : Nat) : Bool :=
  if j = i then false
  else match b.faces[j]? with
    | none => false
    | some g => decide (j ∈ smoothFaces o b tex i f) || (g.planenum == f.planenum && g.side == f.side)

/-- `Face_EdgeIndexSmoothed` (light/phong.cc:289-314). -/
def edgeSmoothed (o : Ops K) (b : Bsp K) (tex : Nat → Tex K) (i : Nat) (f : Face K) (e : Nat) : Option Nat :=
  let v0 := f.verts.getD e 0
  let v1 := f.verts.getD ((e + 1) % f.verts.length) 0
  (edgeFaces b.faces v1 v0).find? (continues o b tex i f)

/-- The state of the parallel loop: what the function for each face has still to record, and `vertex_normals`. -/
structure Work (K : Type) where
  todo : Nat → List (Vec K)
  normals : Nat → List (Vec K)

/-- The loop starts (light/phong.cc:551-553). -/
def Work.start (todo : Nat → List (Vec K)) : Work K := ⟨todo, fun _ => []⟩

/-- Some thread records one normal of the face it works on, while it holds the mutex (light/phong.cc:667-669). -/
inductive Work.Step : Work K → Work K → Prop
  | record (w : Work K) (i : Nat) (n : Vec K) (ns : List (Vec K)) (h : w.todo i = n :: ns) :
      Work.Step w ⟨Function.update w.todo i ns, Function.update w.normals i (w.normals i ++ [n])⟩

/-- Any number of steps. -/
inductive Work.Steps : Work K → Work K → Prop
  | refl (w : Work K) : Work.Steps w w
  | step (w w' w'' : Work K) (h : Work.Steps w w') (h' : Work.Step w' w'') : Work.Steps w w''

/-- `GetSurfaceVertexNormal` (light/phong.cc:274-287); a face without normals has an empty one. -/
def Work.get (w : Work K) (i v : Nat) : Outcome (Vec K) :=
  if w.normals i = [] then .ok ⟨0, 0, 0⟩
  else match (w.normals i)[v]? with
    | none => .error
    | some n => .ok n

end Verif.Phong
