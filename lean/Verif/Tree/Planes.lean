import Verif.Geom.Model
import Verif.Common.Outcome
import Mathlib.Algebra.Order.Group.Abs

/-!
Model of qbsp's list of planes (qbsp/map.cc:74-143, qbsp/qbsp.cc:285-400) and of the planes of a BSP file
(include/common/bspfile_generic.hh:136-214).

Simplifications: `double` and `float` are replaced by an ordered field, with a function `rnd` for the conversion of a
`double` to a `float`.
-/

namespace Verif.Tree

open Geom

/-- `plane_type_t` (include/common/bspfile_generic.hh:136-145). -/
inductive PType where
  | x | y | z | anyX | anyY | anyZ
  deriving DecidableEq

/-- The axis `type % 3` (qbsp/map.cc:87). -/
def PType.axis : PType → Fin 3
  | .x | .anyX => 0
  | .y | .anyY => 1
  | .z | .anyZ => 2

variable {K : Type} [Field K] [LinearOrder K]

/-- A component of a vector. -/
def comp (v : Vec K) (i : Fin 3) : K := if i = 0 then v.x else if i = 1 then v.y else v.z

/-- `qvec::operator-` and `qplane3::operator-`. -/
def negVec (v : Vec K) : Vec K := ⟨-v.x, -v.y, -v.z⟩

/-- `qplane3::operator-`. -/
def negPlane (p : Plane K) : Plane K := ⟨negVec p.normal, -p.dist⟩

/-- `qbsp_plane_t`: a plane and its type. -/
structure QPlane (K : Type) where
  plane : Plane K
  type : PType
  deriving DecidableEq

/-- `mapplane_t`: a plane and its number in the BSP file. -/
structure MapPlane (K : Type) where
  plane : Plane K
  type : PType
  outputnum : Option Nat
  deriving DecidableEq

/-- The vector with one component and zeros (qbsp/qbsp.cc:364-366, 371-377). -/
def axisVec (i : Fin 3) (v : K) : Vec K :=
  ⟨if i = 0 then v else 0, if i = 1 then v else 0, if i = 2 then v else 0⟩

/-- The axial type of an axis (qbsp/qbsp.cc:366, 377). -/
def axial (i : Fin 3) : PType := if i = 0 then .x else if i = 1 then .y else .z

/-- The last part of `qbsp_plane_t::normalize` (qbsp/qbsp.cc:382-397): the type of a plane that is not axial. -/
def nearestType (n : Vec K) : PType :=
  if |n.x| ≥ |n.y| ∧ |n.x| ≥ |n.z| then .anyX
  else if |n.y| ≥ |n.x| ∧ |n.y| ≥ |n.z| then .anyY
  else .anyZ

/-- One iteration of the loop of `qbsp_plane_t::normalize` (qbsp/qbsp.cc:361-381), `flip` false; `none`: the loop
goes on. -/
def normalizeAxis (p : Plane K) (i : Fin 3) : Option (QPlane K) :=
  if comp p.normal i = 1 then some ⟨⟨axisVec i 1, p.dist⟩, axial i⟩
  else if comp p.normal i = -1 then some ⟨⟨axisVec i (-1), p.dist⟩, axial i⟩
  else none

/-- `qbsp_plane_t::qbsp_plane_t(plane)`, that is, `normalize(false)` (qbsp/qbsp.cc:295-304, 359-400). -/
def mkPlane (p : Plane K) : QPlane K :=
  ((normalizeAxis p 0).orElse fun _ => (normalizeAxis p 1).orElse fun _ => normalizeAxis p 2).getD
    ⟨p, nearestType p.normal⟩

/-- A key of the spatial map of planes: the components of the normal and the distance (qbsp/map.cc:94-99). -/
def keyOf (p : Plane K) : Vec K × K := (p.normal, p.dist)

/-- `mapdata_t`: the list of planes and the entries of `plane_hash`. -/
structure PlaneDb (K : Type) where
  planes : List (MapPlane K)
  hash : List ((Vec K × K) × Nat)

/-- The empty list. -/
def PlaneDb.empty : PlaneDb K := ⟨[], []⟩

/-- `spatial_map::emplace`: an entry is added unless the key is present. -/
def emplace (h : List ((Vec K × K) × Nat)) (k : Vec K × K) (v : Nat) : List ((Vec K × K) × Nat) :=
  if h.any (fun e => e.1 = k) then h else h ++ [(k, v)]

/-- `mapdata_t::add_plane` (qbsp/map.cc:74-102). -/
def addPlane (db : PlaneDb K) (p : Plane K) : Nat × PlaneDb K :=
  let a := mkPlane p
  let b := mkPlane (negPlane p)
  let i := db.planes.length
  let swap := comp a.plane.normal a.type.axis < 0
  let pos := if swap then b else a
  let neg := if swap then a else b
  let h := emplace db.hash (keyOf pos.plane) i
  (if swap then i + 1 else i,
    ⟨db.planes ++ [⟨pos.plane, pos.type, none⟩, ⟨neg.plane, neg.type, none⟩], emplace h (keyOf neg.plane) (i + 1)⟩)

/-- The box of keys that `find_plane_nonfatal` searches (qbsp/map.cc:106-113). -/
def inBox (epsN epsD : K) (p : Plane K) (k : Vec K × K) : Prop :=
  p.normal.x - epsN ≤ k.1.x ∧ k.1.x ≤ p.normal.x + epsN ∧ p.normal.y - epsN ≤ k.1.y ∧ k.1.y ≤ p.normal.y + epsN ∧
    p.normal.z - epsN ≤ k.1.z ∧ k.1.z ≤ p.normal.z + epsN ∧ p.dist - epsD ≤ k.2 ∧ k.2 ≤ p.dist + epsD

instance (epsN epsD : K) (p : Plane K) (k : Vec K × K) : Decidable (inBox epsN epsD p k) := by
  unfold inBox; infer_instance

/-- `mapdata_t::find_plane_nonfatal` (qbsp/map.cc:104-119). `pick`: which of the entries in the box the spatial map
yields first. -/
def findPlane (epsN epsD : K) (pick : List Nat → Nat) (db : PlaneDb K) (p : Plane K) : Option Nat :=
  let hits := (db.hash.filter fun e => inBox epsN epsD p e.1).map (·.2)
  hits[pick hits]?

/-- `mapdata_t::add_or_find_plane` (qbsp/map.cc:134-143). -/
def addOrFind (epsN epsD : K) (pick : List Nat → Nat) (db : PlaneDb K) (p : Plane K) : Nat × PlaneDb K :=
  match findPlane epsN epsD pick db p with
  | some n => (n, db)
  | none => addPlane db p

/-- A sequence of calls of `add_or_find_plane`: the numbers returned and the list in the end. -/
def addAll (epsN epsD : K) (pick : List Nat → Nat) : PlaneDb K → List (Plane K) → List Nat × PlaneDb K
  | db, [] => ([], db)
  | db, p :: ps =>
    let r := addOrFind epsN epsD pick db p
    let rest := addAll epsN epsD pick r.2 ps
    (r.1 :: rest.1, rest.2)

/-- `dplane_t` (include/common/bspfile_generic.hh:193-214). -/
structure DPlane (K : Type) where
  plane : Plane K
  type : PType
  deriving DecidableEq

/-- `dplane_t::distance_to_fast` (include/common/bspfile_generic.hh:203-213). -/
def DPlane.distFast (d : DPlane K) (p : Vec K) : K :=
  match d.type with
  | .x => p.x - d.plane.dist
  | .y => p.y - d.plane.dist
  | .z => p.z - d.plane.dist
  | _ => d.plane.distTo p

/-- The conversion of a `qvec3d` and a distance to `float` (qbsp/writebsp.cc:50-51). -/
def rndPlane (rnd : K → K) (p : Plane K) : Plane K :=
  ⟨⟨rnd p.normal.x, rnd p.normal.y, rnd p.normal.z⟩, rnd p.dist⟩

/-- The record that `ExportMapPlane` writes (qbsp/writebsp.cc:49-52). -/
def toDPlane (rnd : K → K) (m : MapPlane K) : DPlane K := ⟨rndPlane rnd m.plane, m.type⟩

end Verif.Tree
