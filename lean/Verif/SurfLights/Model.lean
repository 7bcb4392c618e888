import Verif.Common.Outcome
import Verif.Geom.Model
import Mathlib.Algebra.Order.Floor.Defs

/-!
Model of the surface lights that are spread over faces as point lights (light/entities.cc:1264-1448 and 1496-1583).

Simplifications: `float` and `double` are replaced by an ordered field `K` in which numbers can be rounded down, that is,
arithmetic is exact and nothing is infinite. Keys of entities are given as the values read from them. The file of
`-surflight_dump` is left out.
-/

namespace Verif.SurfLights

open Verif.Geom

variable {K : Type} [Field K] [LinearOrder K] [FloorRing K]

/-- A coordinate, `verts->at(i)`. -/
def coord (i : Fin 3) (v : Vec K) : K :=
  match i with
  | 0 => v.x
  | 1 => v.y
  | 2 => v.z

/-- `BoundPoly` (light/entities.cc:1309-1318) for one axis and a polygon with the first corner `v`: the least and the
greatest coordinate. -/
def lo (i : Fin 3) (v : Vec K) (vs : List (Vec K)) : K := vs.foldl (fun m u => min m (coord i u)) (coord i v)
def hi (i : Fin 3) (v : Vec K) (vs : List (Vec K)) : K := vs.foldl (fun m u => max m (coord i u)) (coord i v)

/-- Writing the next element of an array of 64 (light/entities.cc:1358, 1396, 1400, 1408). -/
def push (l : List (Vec K)) (v : Vec K) : Outcome (List (Vec K)) := if l.length < 64 then .ok (l ++ [v]) else .ub

/-- A corner is written to the front or the back if it is there (light/entities.cc:1395-1402). -/
def pushIf (c : Prop) [Decidable c] (l : List (Vec K)) (v : Vec K) : Outcome (List (Vec K)) :=
  if c then push l v else .ok l

/-- `*v + ((*(v + 1) - *v) * frac)` (light/entities.cc:1407-1408). -/
def crossing (d d' : K) (v v' : Vec K) : Vec K :=
  let t := d / (d - d')
  ⟨v.x + (v'.x - v.x) * t, v.y + (v'.y - v.y) * t, v.z + (v'.z - v.z) * t⟩

/-- The loop over the corners (light/entities.cc:1394-1412); the list ends with the first corner again. -/
def walk (i : Fin 3) (m : K) : List (Vec K) → List (Vec K) → List (Vec K) → Outcome (List (Vec K) × List (Vec K))
  | v :: v' :: rest, f, b => do
    let d := coord i v - m
    let d' := coord i v' - m
    let f1 ← pushIf (d ≥ 0) f v
    let b1 ← pushIf (d ≤ 0) b v
    if d = 0 ∨ d' = 0 then walk i m (v' :: rest) f1 b1
    else if decide (d > 0) != decide (d' > 0) then do
      let f2 ← push f1 (crossing d d' v v')
      let b2 ← push b1 (crossing d d' v v')
      walk i m (v' :: rest) f2 b2
    else walk i m (v' :: rest) f1 b1
  | _, f, b => .ok (f, b)

/-- Where the polygon is cut along an axis (light/entities.cc:1371-1372). -/
def middle (size : K) (i : Fin 3) (v : Vec K) (vs : List (Vec K)) : K :=
  size * ⌊(lo i v vs + hi i v vs) * (1 / 2) / size + 1 / 2⌋

/-- The polygon is not cut along the axis (light/entities.cc:1373-1376). -/
def narrow (size : K) (i : Fin 3) (v : Vec K) (vs : List (Vec K)) : Bool :=
  decide (hi i v vs - middle size i v vs < 8) || decide (middle size i v vs - lo i v vs < 8)

/-- The first axis along which the polygon is cut. -/
def axis (size : K) (v : Vec K) (vs : List (Vec K)) : Option (Fin 3) :=
  [0, 1, 2].find? fun i => !narrow size i v vs

/-- `SubdividePolygon` (light/entities.cc:1353-1424): the pieces, in the order in which lights are put on them; `none` if
it needs more than the given number of nested calls. Arrays have 64 elements: with 64 corners, the first corner is
written again past their ends before a cut (1385-1389). -/
def subdivide (size : K) : Nat → List (Vec K) → Option (Outcome (List (List (Vec K))))
  | 0, _ => none
  | _ + 1, [] => some (.ok [[]])
  | fuel + 1, v :: vs =>
    if (v :: vs).length > 64 then some .error
    else
      match axis size v vs with
      | none => some (.ok [v :: vs])
      | some i =>
        if (v :: vs).length ≥ 64 then some .ub
        else
          match walk i (middle size i v vs) (v :: vs ++ [v]) [] [] with
          | .ub => some .ub
          | .error => some .error
          | .ok (f, b) =>
            match subdivide size fuel f with
            | none => none
            | some .ub => some .ub
            | some .error => some .error
            | some (.ok ps) =>
              match subdivide size fuel b with
              | none => none
              | some .ub => some .ub
              | some .error => some .error
              | some (.ok qs) => some (.ok (ps ++ qs))

/-- `GL_SubdivideSurface` (light/entities.cc:1431-1448): the corners are copied to an array of 64 first. -/
def subdivideSurface (size : K) (fuel : Nat) (vs : List (Vec K)) : Option (Outcome (List (List (Vec K)))) :=
  if vs.length > 64 then some .ub else subdivide size fuel vs

/-- A template (`light_t` with its entity): `_surface_radiosity` if it has that key, `_surflight_group`, `_surface`,
`_surface_offset`, `_surface_spotlight` and `light`. -/
structure Template (K : Type) where
  radiosity : Option Int
  group : Int
  surface : String
  offset : K
  spot : Int
  light : K

/-- A face: its texture and group, its corners and normal; the offset of its model, if it has one; whether it is
translucent. -/
structure Face (K : Type) where
  tex : String
  group : Int
  verts : List (Vec K)
  normal : Vec K
  model : Option (Vec K)
  translucent : Bool

/-- `FaceMatchesSurfaceLightTemplate` (light/entities.cc:1320-1346); `same` compares names without regard to case
(`Cmdlib.iequals`), `dflt` is `_surflight_radiosity`. -/
def fits (same : String → String → Bool) (dflt : Int) (type : Int) (f : Face K) (t : Template K) : Bool :=
  let radiosity := match t.radiosity with
    | some r => r
    | none => dflt
  if radiosity != type then false
  else if f.group != 0 && t.group != 0 && t.group != f.group then false
  else same f.tex t.surface

/-- A light that is put on a face: its origin, its direction if it is a spotlight, and its `light`. -/
structure Made (K : Type) where
  face : Nat
  origin : Vec K
  spot : Option (Vec K)
  light : K

/-- `CreateSurfaceLightOnFaceSubdivision` and `CreateSurfaceLight` (light/entities.cc:1264-1307); `centroid` is
`PolyCentroid`, `none` if a coordinate is not a number. -/
def create (centroid : List (Vec K) → Option (Vec K)) (k : Nat) (f : Face K) (model : Vec K) (t : Template K)
    (piece : List (Vec K)) : List (Made K) :=
  match centroid piece with
  | none => []
  | some c =>
    let offset := if t.offset = 0 then 2 else t.offset
    let at_ : Vec K := ⟨c.x + f.normal.x * offset + model.x, c.y + f.normal.y * offset + model.y,
      c.z + f.normal.z * offset + model.z⟩
    [⟨k, at_, if t.spot ≠ 0 then some f.normal else none, t.light⟩]

/-- A light of the map as far as it matters here. -/
structure Lamp (K : Type) where
  surface : String
  asTemplate : Template K
  light : K

/-- The templates (light/entities.cc:1502-1528): those of `.rad` files, then copies of the lights with `_surface`. -/
def templates (rad : List (Template K)) (lamps : List (Lamp K)) : List (Template K) :=
  rad ++ (lamps.filter fun l => l.surface != "").map fun l => { l.asTemplate with light := l.light }

/-- The lights afterwards: those that have become templates shine no more (light/entities.cc:1514). -/
def dimmed (lamps : List (Lamp K)) : List (Lamp K) :=
  lamps.map fun l => if l.surface != "" then { l with light := 0 } else l

/-- A leaf: its contents and the faces it lists. -/
structure Leaf where
  contents : Int
  faces : List Nat

/-- `underwater` (light/entities.cc:1544-1546). -/
def underwater (q2 : Bool) (l : Leaf) : Bool :=
  if q2 then (BitVec.ofInt 32 l.contents) &&& 56#32 != 0#32 else l.contents != -1

/-- What the loops need. -/
structure Setup (K : Type) where
  faces : List (Face K)
  templates : List (Template K)
  same : String → String → Bool
  dflt : Int
  centroid : List (Vec K) → Option (Vec K)
  size : K
  fuel : Nat

/-- The lights of one face (light/entities.cc:1568-1575 and 1419-1423); type 0 is `SURFLIGHT_Q1`. -/
def lightFace (s : Setup K) (k : Nat) (f : Face K) (model : Vec K) : Option (Outcome (List (Made K))) :=
  let ts := s.templates.filter fun t => fits s.same s.dflt 0 f t
  if ts.isEmpty then some (.ok [])
  else
    match subdivideSurface s.size s.fuel f.verts with
    | none => none
    | some .ub => some .ub
    | some .error => some .error
    | some (.ok pieces) => some (.ok (pieces.flatMap fun p => ts.flatMap fun t => create s.centroid k f model t p))

/-- The loop over the faces of a leaf (light/entities.cc:1548-1576), with the faces that have been visited. A face that
does not exist is an error. -/
def lightFaces (s : Setup K) (wet : Bool) : List Nat → List Nat → List (Made K) →
    Option (Outcome (List Nat × List (Made K)))
  | [], seen, acc => some (.ok (seen, acc))
  | k :: ks, seen, acc =>
    match s.faces[k]? with
    | none => some .error
    | some f =>
      match f.model with
      | none => lightFaces s wet ks seen acc
      | some model =>
        if wet && f.translucent then lightFaces s wet ks seen acc
        else if seen.contains k then lightFaces s wet ks seen acc
        else
          match lightFace s k f model with
          | none => none
          | some .ub => some .ub
          | some .error => some .error
          | some (.ok ms) => lightFaces s wet ks (seen ++ [k]) (acc ++ ms)

/-- The loop over the leafs (light/entities.cc:1543-1577). -/
def lightLeafs (s : Setup K) (q2 : Bool) : List Leaf → List Nat → List (Made K) → Option (Outcome (List (Made K)))
  | [], _, acc => some (.ok acc)
  | l :: ls, seen, acc =>
    match lightFaces s (underwater q2 l) l.faces seen acc with
    | none => none
    | some .ub => some .ub
    | some .error => some .error
    | some (.ok (seen', acc')) => lightLeafs s q2 ls seen' acc'

/-- `MakeSurfaceLights` (light/entities.cc:1496-1583): the lights that are added. -/
def makeSurfaceLights (s : Setup K) (q2 : Bool) (leafs : List Leaf) : Option (Outcome (List (Made K))) :=
  if s.templates.isEmpty then some (.ok []) else lightLeafs s q2 leafs [] []

end Verif.SurfLights
