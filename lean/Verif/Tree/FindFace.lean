import Verif.Tree.Spec

/-!
Model of the search for the faces and the node at a point (common/bsputils.cc:293-427).

Simplifications: a face is its plane (`Face_Plane`) and its corners; the direction of an edge is not normalized, which does not
change on which side of it a point is.
-/

namespace Verif.Tree

open Geom

/-- A face of a file: its plane turned to its front (common/bsputils.cc:123-138) and its corners. -/
structure DFace (K : Type) where
  plane : Plane K
  corners : List (Vec K)
  deriving DecidableEq

variable {K : Type} [Field K] [LinearOrder K]

/-- `v1 - v0`. -/
def diff (v1 v0 : Vec K) : Vec K := ⟨v1.x - v0.x, v1.y - v0.y, v1.z - v0.z⟩

/-- `qv::cross`. -/
def crossP (a b : Vec K) : Vec K := ⟨a.y * b.z - a.z * b.y, a.z * b.x - a.x * b.z, a.x * b.y - a.y * b.x⟩

/-- One plane of `Face_AllocInwardFacingEdgePlanes` (common/bsputils.cc:300-306). -/
def edgePlane (n v0 v1 : Vec K) : Plane K := ⟨crossP (diff v1 v0) n, dot (crossP (diff v1 v0) n) v0⟩

/-- `Face_AllocInwardFacingEdgePlanes` (common/bsputils.cc:293-310). -/
def edgePlanes (f : DFace K) : List (Plane K) :=
  (List.range f.corners.length).filterMap fun i =>
    match f.corners[i]?, f.corners[(i + 1) % f.corners.length]? with
    | some v0, some v1 => some (edgePlane f.plane.normal v0 v1)
    | _, _ => none

/-- `EdgePlanes_PointInside` (common/bsputils.cc:312-320). -/
def pointInside : List (Plane K) → Vec K → Bool
  | [], _ => true
  | e :: l, p => if e.distTo p < 0 then false else pointInside l p

/-- Whether a face of a node is reported (common/bsputils.cc:348-365). -/
def faceMatches (p want : Vec K) (f : DFace K) : Bool :=
  if want ≠ ⟨0, 0, 0⟩ ∧ dot f.plane.normal want < 0 then false else pointInside (edgePlanes f) p

/-- The loop over the faces of a node (common/bsputils.cc:346-366): `n` faces from `first` on. `BSP_GetFace` asserts that the
number is one (common/bsputils.cc:74-78). -/
def nodeFaces (dfaces : List (DFace K)) (p want : Vec K) : Nat → Int → Outcome (List Nat)
  | 0, _ => .ok []
  | n + 1, first =>
    if first < 0 then .error
    else
      match dfaces[first.toNat]? with
      | none => .error
      | some f =>
        nodeFaces dfaces p want n (first + 1) >>= fun l => .ok (if faceMatches p want f then first.toNat :: l else l)

/-- `BSP_FindFaceAtPoint_r` (common/bsputils.cc:325-371): the faces that are pushed, in order. `tol` is 0.1. -/
def findFaces (tol : K) (dplanes : List (DPlane K)) (dnodes : List DNode) (dfaces : List (DFace K)) (p want : Vec K) :
    Nat → Int → Option (Outcome (List Nat))
  | 0, _ => none
  | fuel + 1, n =>
    if n < 0 then some (.ok [])
    else
      match dnodes[n.toNat]? with
      | none => some .ub
      | some node =>
        match dplanes[node.planenum]? with
        | none => some .ub
        | some pl =>
          if pl.distFast p > tol then findFaces tol dplanes dnodes dfaces p want fuel node.c0
          else if pl.distFast p < -tol then findFaces tol dplanes dnodes dfaces p want fuel node.c1
          else
            match nodeFaces dfaces p want node.numfaces.toNat node.firstface with
            | .ok l =>
              match findFaces tol dplanes dnodes dfaces p want fuel node.c0 with
              | some (.ok l0) =>
                match findFaces tol dplanes dnodes dfaces p want fuel node.c1 with
                | some (.ok l1) => some (.ok (l ++ l0 ++ l1))
                | r => r
              | r => r
            | r => some r

/-- `BSP_FindFaceAtPoint` (common/bsputils.cc:381-391), from what was found. -/
def firstFace (found : List Nat) : Option Nat := found.head?

/-- The test of the normal in `BSP_FindNodeAtPoint_r` (common/bsputils.cc:410); `eps` is 0.01. -/
def normalMatches (eps : K) (n want : Vec K) : Bool := decide (abs (1 - abs (dot n want)) ≤ eps)

/-- `BSP_FindNodeAtPoint_r` (common/bsputils.cc:393-421): the number of the node. -/
def findNode (tol eps : K) (dplanes : List (DPlane K)) (dnodes : List DNode) (p want : Vec K) :
    Nat → Int → Option (Outcome (Option Nat))
  | 0, _ => none
  | fuel + 1, n =>
    if n < 0 then some (.ok none)
    else
      match dnodes[n.toNat]? with
      | none => some .ub
      | some node =>
        match dplanes[node.planenum]? with
        | none => some .ub
        | some pl =>
          if pl.distFast p > tol then findNode tol eps dplanes dnodes p want fuel node.c0
          else if pl.distFast p < -tol then findNode tol eps dplanes dnodes p want fuel node.c1
          else if normalMatches eps pl.plane.normal want then some (.ok (some n.toNat))
          else
            match findNode tol eps dplanes dnodes p want fuel node.c0 with
            | some (.ok none) => findNode tol eps dplanes dnodes p want fuel node.c1
            | r => r

end Verif.Tree
