import Verif.BrushBsp.Windings
import Verif.Geom.Spec

/-!
Model of the planes that qbsp adds to a brush so that it can be grown by the box of a player, and of the growing:
`CalculateBrushBounds` (qbsp/map.cc:343-381), `AddBrushBevels` (qbsp/map.cc:2043-2182; `QBSP3` is defined, so the other
branch is not compiled), and the part of `LoadBrush` (qbsp/brush.cc:555-626) before the polygons are made, which is
modelled in BrushBsp/Windings.lean.

Simplifications: arithmetic is exact. A face holds its plane; the table of planes (Tree/Planes.lean) is the parameter
`store`, which gives the plane that is found or entered. `qv::normalizeInPlace`, `qv::Snap` and `qv::epsilonEqual` are
parameters. Of the texture only the number of the texinfo is kept. The warnings and the counters are left out.
-/

namespace Verif.Hulls

open Geom

variable {K : Type} [Field K] [LinearOrder K]

/-- `mapface_t` (include/qbsp/map.hh:52-90). -/
structure Face (K : Type) where
  plane : Plane K
  w : List (Vec K)
  bevel : Bool
  texinfo : Nat
  deriving DecidableEq

/-- What the code depends on. -/
structure Env (K : Type) where
  /-- `BaseWindingForPlane`. -/
  base : Plane K → List (Vec K)
  /-- The greatest number. -/
  huge : K
  /-- The option `epsilon`. -/
  epsilon : K
  /-- `ANGLEEPSILON`. -/
  angleEpsilon : K
  /-- `qv::normalizeInPlace`: the vector and what is returned. -/
  normalize : Vec K → Vec K × K
  /-- `qv::Snap`. -/
  snap : Vec K → Vec K
  /-- `qv::epsilonEqual` of two planes. -/
  near : Plane K → Plane K → Bool
  /-- `map.get_plane(map.add_or_find_plane(p))`. -/
  store : Plane K → Plane K
  /-- `flags.no_expand` of a texinfo. -/
  noExpand : Nat → Bool

/-- `map.get_plane(planenum ^ 1)`. -/
def opposite (p : Plane K) : Plane K := ⟨⟨-p.normal.x, -p.normal.y, -p.normal.z⟩, -p.dist⟩

/-- The inner loop of `CalculateBrushBounds` (qbsp/map.cc:351-360). -/
def clipOthers (i : Nat) : List (Face K × Nat) → List (Vec K) → Option (List (Vec K))
  | [], w => some w
  | (f, j) :: l, w =>
    if i = j ∨ f.bevel = true then clipOthers i l w
    else
      match clipFront (opposite f.plane) 0 false w with
      | none => none
      | some w' => clipOthers i l w'

/-- The polygon of a face (qbsp/map.cc:348-369). A face that has no polygon keeps the one it had. -/
def faceWinding (env : Env K) (fs : List (Face K × Nat)) (x : Face K × Nat) : Face K :=
  match clipOthers x.2 fs (env.base x.1.plane) with
  | none => x.1
  | some w => { x.1 with w := w }

/-- `CalculateBrushBounds` (qbsp/map.cc:343-381): the faces with their polygons, and the bounds. -/
def calculateBounds (env : Env K) (fs : List (Face K)) : List (Face K) × BrushBsp.Bounds K :=
  let r := fs.zipIdx.map (faceWinding env fs.zipIdx)
  let pts := fs.zipIdx.flatMap fun x => (clipOthers x.2 fs.zipIdx (env.base x.1.plane)).getD []
  (r, pts.foldl BrushBsp.expand ⟨⟨env.huge, env.huge, env.huge⟩, ⟨-env.huge, -env.huge, -env.huge⟩⟩)

/-- `v[axis]`. -/
def comp (axis : Nat) (v : Vec K) : K := if axis = 0 then v.x else if axis = 1 then v.y else v.z

/-- A vector with one component. -/
def unitVec (axis : Nat) (d : K) : Vec K :=
  if axis = 0 then ⟨d, 0, 0⟩ else if axis = 1 then ⟨0, d, 0⟩ else ⟨0, 0, d⟩

/-- The plane of a new axial face (qbsp/map.cc:2067-2073). -/
def axialPlane (b : BrushBsp.Bounds K) (axis : Nat) (up : Bool) : Plane K :=
  if up then ⟨unitVec axis 1, comp axis b.maxs⟩ else ⟨unitVec axis (-1), -comp axis b.mins⟩

/-- `std::swap(faces[i], faces[j])`; outside of the vector undefined. -/
def swapAt (l : List (Face K)) (i j : Nat) : Outcome (List (Face K)) :=
  match l[i]?, l[j]? with
  | some a, some b => .ok ((l.set i b).set j a)
  | _, _ => .ub

/-- The body of the loop over the axes and directions (qbsp/map.cc:2052-2088). The texinfo of the first face is read
after the new face was added. -/
def addAxial (env : Env K) (b : BrushBsp.Bounds K) (order axis : Nat) (up : Bool) (fs : List (Face K)) :
    Outcome (List (Face K)) :=
  let i := fs.findIdx fun f => decide (comp axis f.plane.normal = if up then 1 else -1)
  let fs' := if i = fs.length then
      fs ++ [⟨env.store (axialPlane b axis up), [], true, (fs.head?.map (·.texinfo)).getD 0⟩]
    else fs
  if i ≠ order then swapAt fs' order i else .ok fs'

/-- The loop over the axes and directions (qbsp/map.cc:2048-2090). -/
def addAxials (env : Env K) (b : BrushBsp.Bounds K) (fs : List (Face K)) : Outcome (List (Face K)) := do
  let fs ← addAxial env b 0 0 false fs
  let fs ← addAxial env b 1 0 true fs
  let fs ← addAxial env b 2 1 false fs
  let fs ← addAxial env b 3 1 true fs
  let fs ← addAxial env b 4 2 false fs
  addAxial env b 5 2 true fs

/-- The plane is at no face, and no point of a polygon is in front of it (qbsp/map.cc:2143-2171). -/
def outer (env : Env K) (pl : Plane K) (fs : List (Face K)) : Bool :=
  fs.all fun f => !env.near f.plane pl && f.w.all fun p => !decide (dot p pl.normal - pl.dist > env.epsilon)

/-- The body of the loop over the six directions of an edge (qbsp/map.cc:2127-2182): `vec` is the direction of the edge,
`p` its start and `tex` the texinfo of the face. -/
def addSlanted (env : Env K) (tex : Nat) (vec p : Vec K) (fs : List (Face K)) (axis : Nat) (up : Bool) : List (Face K) :=
  let r := env.normalize (BrushBsp.cross vec (unitVec axis (if up then 1 else -1)))
  if r.2 < env.angleEpsilon then fs
  else
    let pl : Plane K := ⟨r.1, dot p r.1⟩
    if outer env pl fs then fs ++ [⟨env.store pl, [], true, tex⟩] else fs

/-- The body of the loop over the edges (qbsp/map.cc:2106-2186). -/
def addEdge (env : Env K) (tex : Nat) (fs : List (Face K)) (e : Vec K × Vec K) : List (Face K) :=
  let r := env.normalize ⟨e.1.x - e.2.x, e.1.y - e.2.y, e.1.z - e.2.z⟩
  if r.2 < 1 / 2 then fs
  else
    let vec := env.snap r.1
    if (vec.x = -1 ∨ vec.x = 1) ∨ (vec.y = -1 ∨ vec.y = 1) ∨ (vec.z = -1 ∨ vec.z = 1) then fs
    else [(0, false), (0, true), (1, false), (1, true), (2, false), (2, true)].foldl
      (fun fs d => addSlanted env tex vec e.1 fs d.1 d.2) fs

/-- The edges of a polygon: every point with the next one, the last one with the first one (qbsp/map.cc:2106-2108). -/
def edgesOf (w : List (Vec K)) : List (Vec K × Vec K) :=
  (List.range w.length).map fun j => (w.getD j ⟨0, 0, 0⟩, w.getD ((j + 1) % w.length) ⟨0, 0, 0⟩)

/-- The loop over the faces from the seventh on (qbsp/map.cc:2101-2187). Faces that are added in it have no polygon and are
passed over. -/
def addEdges (env : Env K) (fs : List (Face K)) : List (Face K) :=
  (fs.drop 6).foldl (fun fs f => (edgesOf f.w).foldl (addEdge env f.texinfo) fs) fs

/-- `AddBrushBevels` (qbsp/map.cc:2043-2188). -/
def addBevels (env : Env K) (b : BrushBsp.Bounds K) (fs : List (Face K)) : Outcome (List (Face K)) := do
  let fs ← addAxials env b fs
  .ok (if fs.length = 6 then fs else addEdges env fs)

/-- A side of a brush, `side_t`, as `LoadBrush` sets it: without polygon. -/
structure Side (K : Type) where
  plane : Plane K
  bevel : Bool
  texinfo : Nat
  deriving DecidableEq

/-- The sides that `LoadBrush` takes from the faces (qbsp/brush.cc:565-602); `point`: for the hull 0 or without a hull. -/
def takeSides (point : Bool) (fs : List (Face K)) : List (Side K) :=
  (fs.filter fun f => !(point && f.bevel)).map fun f => ⟨f.plane, f.bevel, f.texinfo⟩

/-- A component of the corner (qbsp/brush.cc:613-619). -/
def cornerComp (n lo hi : K) : K := if n > 0 then hi else if n < 0 then lo else 0

/-- The corner of the hull that is farthest in a direction (qbsp/brush.cc:612-619). -/
def corner (hull : BrushBsp.Bounds K) (n : Vec K) : Vec K :=
  ⟨cornerComp n.x hull.mins.x hull.maxs.x, cornerComp n.y hull.mins.y hull.maxs.y, cornerComp n.z hull.mins.z hull.maxs.z⟩

/-- The body of the loop that moves the sides (qbsp/brush.cc:608-624). -/
def moveSide (env : Env K) (hull : BrushBsp.Bounds K) (s : Side K) : Side K :=
  if env.noExpand s.texinfo then s
  else { s with
    plane := env.store ⟨s.plane.normal, s.plane.dist + dot (corner hull s.plane.normal) s.plane.normal⟩, bevel := false }

/-- The sides of the brush for a hull (qbsp/brush.cc:565-626); `none`: the hull 0 or no hull. -/
def hullSides (env : Env K) (hull : Option (BrushBsp.Bounds K)) (fs : List (Face K)) : List (Side K) :=
  match hull with
  | none => takeSides true fs
  | some h => (takeSides false fs).map (moveSide env h)

end Verif.Hulls
