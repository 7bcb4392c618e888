import Verif.BrushBsp.Model

/-!
Model of the creation of the polygons of a brush: `winding_base_t::from_plane` (include/common/polylib.hh:760-805) and
`CreateBrushWindings` (qbsp/brush.cc:266-315).

Simplifications: arithmetic is exact, `qv::normalize` is a parameter. The flag `visible` of the source of a side, the
sphere around the brush and the warnings are left out.
-/

namespace Verif.BrushBsp

open Geom

variable {K C : Type} [Field K] [LinearOrder K]

/-- `qv::cross`. -/
def cross (a b : Vec K) : Vec K := ⟨a.y * b.z - a.z * b.y, a.z * b.x - a.x * b.z, a.x * b.y - a.y * b.x⟩

/-- The direction upwards, before it is made to have length 1 (include/common/polylib.hh:762-787). The first of the
greatest components is the major axis. -/
def upOf (n : Vec K) : Vec K :=
  let up : Vec K := if |n.z| > |n.x| ∧ |n.z| > |n.y| then ⟨1, 0, 0⟩ else ⟨0, 0, 1⟩
  let v := dot up n
  ⟨up.x + n.x * -v, up.y + n.y * -v, up.z + n.z * -v⟩

/-- `from_plane` (include/common/polylib.hh:788-804), with `qv::normalize` and the size of the world. -/
def fromPlane (normalize : Vec K → Vec K) (w : K) (pl : Plane K) : List (Vec K) :=
  let up := normalize (upOf pl.normal)
  let r := cross up pl.normal
  let org : Vec K := ⟨pl.normal.x * pl.dist, pl.normal.y * pl.dist, pl.normal.z * pl.dist⟩
  let at_ (a b : K) : Vec K := ⟨org.x + a * (r.x * w) + b * (up.x * w), org.y + a * (r.y * w) + b * (up.y * w),
    org.z + a * (r.z * w) + b * (up.z * w)⟩
  [at_ (-1) 1, at_ 1 1, at_ 1 (-1), at_ (-1) (-1)]

/-- The polygon of the side with the number `i` (qbsp/brush.cc:270-282): the base polygon clipped by the other sides that
are no bevels. `others` are the sides with their numbers. -/
def clipByOthers (env : Env K C) (eps : K) (i : Nat) : List (Side K × Nat) → List (Vec K) → Option (List (Vec K))
  | [], w => some w
  | (s, j) :: l, w =>
    if i = j ∨ s.bevel = true then clipByOthers env eps i l w
    else
      match clipFront (env.planes (flipNum s.planenum)) eps false w with
      | none => none
      | some w' => clipByOthers env eps i l w'

/-- The test of the points (qbsp/brush.cc:285-297). -/
def pointsValid (w : K) (l : List (Vec K)) : Bool :=
  l.all fun p => !(|p.x| > w || |p.y| > w || |p.z| > w)

/-- The body of the loop over the sides (qbsp/brush.cc:269-311). After an invalid point `*w` is read although `w` has no
value. -/
def sideWinding (env : Env K C) (eps : K) (sides : List (Side K × Nat)) (x : Side K × Nat) : Outcome (Side K) :=
  match clipByOthers env eps x.2 sides (env.base (env.planes x.1.planenum)) with
  | none => .ok { x.1 with w := [] }
  | some w => if pointsValid env.worldextent w then .ok { x.1 with w := w } else .ub

/-- The loop over the sides. -/
def sideWindings (env : Env K C) (eps : K) (sides : List (Side K × Nat)) : List (Side K × Nat) → Outcome (List (Side K))
  | [] => .ok []
  | x :: l => do
    let s ← sideWinding env eps sides x
    let r ← sideWindings env eps sides l
    .ok (s :: r)

/-- `CreateBrushWindings` (qbsp/brush.cc:266-315): whether the bounds are valid, and the brush. -/
def createWindings (env : Env K C) (eps : K) (b : Brush K C) : Outcome (Bool × Brush K C) := do
  let sides ← sideWindings env eps b.sides.zipIdx b.sides.zipIdx
  let bounds := boundsOf env.huge sides
  .ok (boundsOk env.worldextent bounds, { b with sides := sides, bounds := bounds })

end Verif.BrushBsp
