import Verif.Geom.Aabb

/-!
Model of the measure by which a plane in the middle of a node is chosen (qbsp/brushbsp.cc:777-846), which `BrushBsp.chooseMid`
takes as given.

Simplifications: arithmetic is exact. The loop over the axes writes to the coordinates of its own axis only, and reads nothing it
wrote, so it is a function of the axis.
-/

namespace Verif.DivBounds

open Geom

variable {K : Type} [Field K] [LinearOrder K]

/-- `qbsp_plane_t`: `axis` is its type if that is an axis (include/qbsp/qbsp.hh: `get_type`). -/
structure Split (K : Type) where
  normal : Pt K 3
  dist : K
  axis : Option (Fin 3)

/-- `distance_to`. -/
def Split.distanceTo (s : Split K) (p : Pt K 3) : K := s.normal 0 * p 0 + s.normal 1 * p 1 + s.normal 2 * p 2 - s.dist

/-- `in_bounds[i][k]` for 0 and 1. -/
def side (b : Box K 3) (i : Bool) (k : Fin 3) : K := if i then b.maxs k else b.mins k

/-- A corner, with another coordinate along an axis (qbsp/brushbsp.cc:803-816). -/
def corner (b : Box K 3) (a : Fin 3) (i j : Bool) (x : K) : Pt K 3 := fun k =>
  if k = a then x else if k = a + 1 then side b i k else side b j k

/-- Where the plane cuts an edge, or the line it lies on (qbsp/brushbsp.cc:813-821). -/
def mid (b : Box K 3) (s : Split K) (a : Fin 3) (i j : Bool) : K :=
  let dist1 := s.distanceTo (corner b a i j (b.mins a))
  let dist2 := s.distanceTo (corner b a i j (b.maxs a))
  (b.maxs a - b.mins a) * (dist1 / (dist1 - dist2)) + b.mins a

/-- The four edges along an axis, in their order (qbsp/brushbsp.cc:808-811). -/
def mids (b : Box K 3) (s : Split K) (a : Fin 3) : List K :=
  [mid b s a false false, mid b s a false true, mid b s a true false, mid b s a true true]

/-- `split_mins` (qbsp/brushbsp.cc:806, 823). -/
def splitMins (b : Box K 3) (s : Split K) (a : Fin 3) : K :=
  (mids b s a).foldl (fun m x => max (min x m) (b.mins a)) (b.maxs a)

/-- `split_maxs` (qbsp/brushbsp.cc:807, 824). -/
def splitMaxs (b : Box K 3) (s : Split K) (a : Fin 3) : K :=
  (mids b s a).foldl (fun m x => min (max x m) (b.maxs a)) (b.mins a)

/-- `DivideBounds` (qbsp/brushbsp.cc:783-835): the bounds in front and behind; `eps` is `NORMAL_EPSILON`. `none`: a coordinate is
not a number, as an edge without a length is divided by the difference of the distances of its ends. -/
def divide (eps : K) (b : Box K 3) (s : Split K) : Option (Box K 3 × Box K 3) :=
  match s.axis with
  | some t => some (⟨fun a => if a = t then s.dist else b.mins a, b.maxs⟩, ⟨b.mins, fun a => if a = t then s.dist else b.maxs a⟩)
  | none =>
    if ∃ a, ¬ |s.normal a| < eps ∧ b.mins a = b.maxs a then none
    else some
      (⟨fun a => if |s.normal a| < eps then b.mins a else if s.normal a > 0 then splitMins b s a else b.mins a,
        fun a => if |s.normal a| < eps then b.maxs a else if s.normal a > 0 then b.maxs a else splitMaxs b s a⟩,
       ⟨fun a => if |s.normal a| < eps then b.mins a else if s.normal a > 0 then b.mins a else splitMins b s a,
        fun a => if |s.normal a| < eps then b.maxs a else if s.normal a > 0 then splitMaxs b s a else b.maxs a⟩)

/-- `volume` (include/common/aabb.hh:228-238). -/
def volume (b : Box K 3) : K := (b.maxs 0 - b.mins 0) * (b.maxs 1 - b.mins 1) * (b.maxs 2 - b.mins 2)

/-- `SplitPlaneMetric` (qbsp/brushbsp.cc:837-846). -/
def metric (eps : K) (b : Box K 3) (s : Split K) : Option K := (divide eps b s).map fun x => |volume x.1 - volume x.2|

end Verif.DivBounds
