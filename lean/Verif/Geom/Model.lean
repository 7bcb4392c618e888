import Mathlib.Algebra.Order.Field.Basic

/-!
Model of polygons and planes (include/common/polylib.hh, include/common/qplane3d.hh): classification of points and
clipping by a plane.

Simplification: `double` is replaced by an ordered field `K`, that is, arithmetic is exact.
-/

namespace Verif.Geom

/-- `qvec<T, 3>`. -/
structure Vec (K : Type) where
  x : K
  y : K
  z : K
  deriving DecidableEq

/-- `qplane3<T>`. -/
structure Plane (K : Type) where
  normal : Vec K
  dist : K
  deriving DecidableEq

/-- `planeside_t` (include/common/mathlib.hh:71-). -/
inductive Side where
  | front
  | back
  | on
  deriving DecidableEq

variable {K : Type} [Field K] [LinearOrder K]

/-- `qv::dot`. -/
def dot (a b : Vec K) : K := a.x * b.x + a.y * b.y + a.z * b.z

/-- `qplane3::distance_to`. -/
def Plane.distTo (pl : Plane K) (p : Vec K) : K := dot p pl.normal - pl.dist

/-- The side of a point at a distance from the plane (include/common/polylib.hh:893-903). -/
def sideOf (eps d : K) : Side := if d > eps then .front else if d < -eps then .back else .on

/-- `calc_sides` (include/common/polylib.hh:881-920): distances and sides, with the first ones repeated at the end. -/
def calcSides (pl : Plane K) (eps : K) (w : List (Vec K)) : List (K × Side) :=
  let infos := w.map fun p => (pl.distTo p, sideOf eps (pl.distTo p))
  infos ++ infos.take 1

/-- A counter of `calc_sides`. -/
def countSide (pl : Plane K) (eps : K) (w : List (Vec K)) (s : Side) : Nat :=
  (w.filter fun p => sideOf eps (pl.distTo p) = s).length

/-- One coordinate of a split point (include/common/polylib.hh:992-999). -/
def midCoord (n dist p1 p2 t : K) : K := if n = 1 then dist else if n = -1 then -dist else p1 + t * (p2 - p1)

/-- A split point (include/common/polylib.hh:985-1000). -/
def splitPoint (pl : Plane K) (p1 p2 : Vec K) (d1 d2 : K) : Vec K :=
  let t := d1 / (d1 - d2)
  ⟨midCoord pl.normal.x pl.dist p1.x p2.x t, midCoord pl.normal.y pl.dist p1.y p2.y t,
    midCoord pl.normal.z pl.dist p1.z p2.z t⟩

/-- The loop of `clip` (include/common/polylib.hh:966-1004) from a point on: what is pushed to the front and to the back
polygon. `first`: the first point of the polygon, which follows the last one. -/
def clipLoop (pl : Plane K) (first : Vec K) : List (Vec K) → List (K × Side) → List (Vec K) × List (Vec K)
  | p1 :: ps, s1 :: s2 :: ss =>
    let r := clipLoop pl first ps (s2 :: ss)
    match s1.2 with
    | .on => (p1 :: r.1, p1 :: r.2)
    | .front =>
      if s2.2 = .on ∨ s2.2 = .front then (p1 :: r.1, r.2)
      else
        let mid := splitPoint pl p1 (ps.head?.getD first) s1.1 s2.1
        (p1 :: mid :: r.1, mid :: r.2)
    | .back =>
      if s2.2 = .on ∨ s2.2 = .back then (r.1, p1 :: r.2)
      else
        let mid := splitPoint pl p1 (ps.head?.getD first) s1.1 s2.1
        (mid :: r.1, p1 :: mid :: r.2)
  | _, _ => ([], [])

/-- `clip` (include/common/polylib.hh:943-1005): the front and the back polygon. -/
def clip (pl : Plane K) (eps : K) (keepon : Bool) (w : List (Vec K)) :
    Option (List (Vec K)) × Option (List (Vec K)) :=
  if keepon = true ∧ countSide pl eps w .front = 0 ∧ countSide pl eps w .back = 0 then (some w, none)
  else if countSide pl eps w .front = 0 then (none, some w)
  else if countSide pl eps w .back = 0 then (some w, none)
  else
    match w with
    | [] => (some [], some [])
    | first :: _ =>
      let r := clipLoop pl first w (calcSides pl eps w)
      (some r.1, some r.2)

/-- The loop of `clip_front` (include/common/polylib.hh:1037-1064). -/
def clipFrontLoop (pl : Plane K) (first : Vec K) : List (Vec K) → List (K × Side) → List (Vec K)
  | p1 :: ps, s1 :: s2 :: ss =>
    let r := clipFrontLoop pl first ps (s2 :: ss)
    match s1.2 with
    | .on => p1 :: r
    | .front =>
      if s2.2 = .on ∨ s2.2 = .front then p1 :: r
      else p1 :: splitPoint pl p1 (ps.head?.getD first) s1.1 s2.1 :: r
    | .back =>
      if s2.2 = .on ∨ s2.2 = .back then r
      else splitPoint pl p1 (ps.head?.getD first) s1.1 s2.1 :: r
  | _, _ => []

/-- `clip_front` (include/common/polylib.hh:1017-1067). -/
def clipFront (pl : Plane K) (eps : K) (keepon : Bool) (w : List (Vec K)) : Option (List (Vec K)) :=
  if keepon = true ∧ countSide pl eps w .front = 0 ∧ countSide pl eps w .back = 0 then some w
  else if countSide pl eps w .front = 0 then none
  else if countSide pl eps w .back = 0 then some w
  else
    match w with
    | [] => some []
    | first :: _ => some (clipFrontLoop pl first w (calcSides pl eps w))

/-- The loop of `clip_back` (include/common/polylib.hh:1101-1128). -/
def clipBackLoop (pl : Plane K) (first : Vec K) : List (Vec K) → List (K × Side) → List (Vec K)
  | p1 :: ps, s1 :: s2 :: ss =>
    let r := clipBackLoop pl first ps (s2 :: ss)
    match s1.2 with
    | .on => p1 :: r
    | .back =>
      if s2.2 = .on ∨ s2.2 = .back then p1 :: r
      else p1 :: splitPoint pl p1 (ps.head?.getD first) s1.1 s2.1 :: r
    | .front =>
      if s2.2 = .on ∨ s2.2 = .front then r
      else splitPoint pl p1 (ps.head?.getD first) s1.1 s2.1 :: r
  | _, _ => []

/-- `clip_back` (include/common/polylib.hh:1081-1131). -/
def clipBack (pl : Plane K) (eps : K) (keepon : Bool) (w : List (Vec K)) : Option (List (Vec K)) :=
  if keepon = true ∧ countSide pl eps w .front = 0 ∧ countSide pl eps w .back = 0 then none
  else if countSide pl eps w .front = 0 then some w
  else if countSide pl eps w .back = 0 then none
  else
    match w with
    | [] => some []
    | first :: _ => some (clipBackLoop pl first w (calcSides pl eps w))

/-- `flip` (include/common/polylib.hh:1198-1205). -/
def flip (w : List (Vec K)) : List (Vec K) := w.reverse

end Verif.Geom
