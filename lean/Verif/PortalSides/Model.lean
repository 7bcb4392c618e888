import Verif.Common.Outcome
import Verif.Geom.Model
import Verif.Flood.Sides
import Mathlib.Algebra.Order.Ring.Abs

/-!
Model of how a brush side is found for each portal, and how the sides that are used are marked
(qbsp/portals.cc:1013-1187).

Simplifications: `double` and `float` are replaced by an ordered field `K`, that is, arithmetic is exact. `true` stands
for 1 and `false` for 0 in `nodes[2]` and `sides[2]` of a portal. The statistics and the file of portals without sides
are left out.
-/

namespace Verif.PortalSides

open Verif.Geom

/-- The functions of the target game: `portal_visible_contents`, `is_empty` and `portal_generates_face`, whose last
argument is `true` for `SIDE_BACK` (common/bspfile.cc:497-546 and 1145-1271; see `Verif.Contents`). -/
structure Game (C : Type) where
  visible : C → C → C
  empty : C → Bool
  generates : C → C → Bool → Bool

variable {C K : Type} [Field K] [LinearOrder K]

/-- `side_t` (include/qbsp/brush.hh:36-55): `num` is `planenum`, `plane` is `get_plane()`. -/
structure Side (K : Type) where
  num : Nat
  plane : Plane K
  bevel : Bool
  source : Option Nat

/-- `bspbrush_t` (include/qbsp/brush.hh:59-). -/
structure Brush (C K : Type) where
  contents : C
  sides : List (Side K)

/-- A leaf: its contents and `original_brushes`. -/
structure Leaf (C K : Type) where
  contents : C
  brushes : List (Brush C K)

/-- The node that a portal is on: the number and the normal of its plane. -/
structure Node (K : Type) where
  num : Nat
  normal : Vec K

/-- `winding_base_t::max_dist_off_plane` (include/common/polylib.hh:922-932). -/
def offPlane (w : List (Vec K)) (p : Plane K) : K :=
  w.foldl (fun m v => if |p.distTo v| > m then |p.distTo v| else m) 0

/-- `bestside`, `exactside` and `bestdot` (qbsp/portals.cc:1031-1034). -/
structure St (K : Type) where
  best : Bool → Option (Side K)
  exact : Bool → Option (Side K)
  dot : K

/-- Writing one of two. -/
def put {α : Type} (f : Bool → α) (i : Bool) (a : α) : Bool → α := fun k => if k = i then a else f k

/-- An exact match (qbsp/portals.cc:1070-1081). -/
def takeExact (j out inn : Bool) (s : Side K) (st : St K) : St K :=
  let e1 := if out then (if (st.exact (!j)).isNone then put st.exact (!j) (some s) else st.exact) else st.exact
  let e2 := if inn then (if (e1 j).isNone then put e1 j (some s) else e1) else e1
  { st with exact := e2 }

/-- The closeness of a match (qbsp/portals.cc:1086-1092). The absolute value is the same for `get_positive_plane()`. -/
def match' (n : Node K) (s : Side K) : K := |dot n.normal s.plane.normal|

/-- Another match (qbsp/portals.cc:1094-1102). -/
def takeBest (n : Node K) (j out inn : Bool) (s : Side K) (st : St K) : St K :=
  if match' n s > st.dot then
    let b1 := if out then put st.best (!j) (some s) else st.best
    let b2 := if inn then put b1 j (some s) else b1
    { st with best := b2, dot := match' n s }
  else st

/-- The loop over the sides of a brush (qbsp/portals.cc:1054-1103). -/
def scanSides (w : List (Vec K)) (n : Node K) (j out inn : Bool) : List (Side K) → St K → Outcome (St K)
  | [], st => .ok st
  | s :: ss, st =>
    if s.bevel then scanSides w n j out inn ss st
    else if offPlane w s.plane > 1 / 10 then scanSides w n j out inn ss st
    else if s.num / 2 * 2 = n.num then
      if (s.num % 2 = 1) ↔ j = false then .ok (takeExact j out inn s st) else .error
    else scanSides w n j out inn ss (takeBest n j out inn s st)

/-- The loop over the brushes of a leaf, last brush first (qbsp/portals.cc:1043-1104). -/
def scanBrushes (g : Game C) (vis : C) (w : List (Vec K)) (n : Node K) (j : Bool) :
    List (Brush C K) → St K → Outcome (St K)
  | [], st => .ok st
  | b :: bs, st =>
    let out := g.generates vis b.contents false
    let inn := g.generates vis b.contents true
    if !(out || inn) then scanBrushes g vis w n j bs st
    else do
      let st' ← scanSides w n j out inn b.sides st
      scanBrushes g vis w n j bs st'

/-- `FindPortalSide` (qbsp/portals.cc:1020-1125): `none` if it returns before `sidefound` is set, otherwise `sides`. -/
def findSides (g : Game C) (w : List (Vec K)) (n : Node K) (leaf : Bool → Leaf C K) :
    Outcome (Option (Bool → Option (Side K))) :=
  let vis := g.visible (leaf false).contents (leaf true).contents
  if g.empty vis then .ok none
  else do
    let st0 ← scanBrushes g vis w n false (leaf false).brushes.reverse ⟨fun _ => none, fun _ => none, 0⟩
    let st1 ← scanBrushes g vis w n true (leaf true).brushes.reverse st0
    .ok (some fun i => if (st1.exact i).isSome then st1.exact i else st1.best i)

/-- `portal_t`: the leafs on its two sides, its points, and the node it is on; `node` is `none` at the edge of the
world. -/
structure Portal (K : Type) where
  leaf : Bool → Nat
  winding : List (Vec K)
  node : Option (Node K)

/-- The loop over the two sides of a portal (qbsp/portals.cc:1156-1161). -/
def showSides (sides : Bool → Option (Side K)) (vis : Nat → Bool) : Nat → Bool :=
  let one (i : Bool) (v : Nat → Bool) : Nat → Bool :=
    match sides i with
    | none => v
    | some s =>
      match s.source with
      | none => v
      | some x => Flood.setAt v x true
  one true (one false vis)

/-- The sides of the portals for which they were found, and which sources are visible. -/
structure Marks (K : Type) where
  found : Nat → Option (Bool → Option (Side K))
  visible : Nat → Bool

/-- One portal of a leaf (qbsp/portals.cc:1150-1162). -/
def markPortal (g : Game C) (leafs : Nat → Leaf C K) (ps : Nat → Portal K) (m : Marks K) (p : Nat) :
    Outcome (Marks K) :=
  match (ps p).node with
  | none => .ok m
  | some n =>
    match m.found p with
    | some sides => .ok { m with visible := showSides sides m.visible }
    | none => do
      let r ← findSides g (ps p).winding n fun i => leafs ((ps p).leaf i)
      match r with
      | none => .ok m
      | some sides => .ok { found := Flood.setAt m.found p (some sides), visible := showSides sides m.visible }

/-- The loop over the portals of a leaf (qbsp/portals.cc:1149-1162). -/
def markPortals (g : Game C) (leafs : Nat → Leaf C K) (ps : Nat → Portal K) : List Nat → Marks K → Outcome (Marks K)
  | [], m => .ok m
  | p :: rest, m => do
    let m' ← markPortal g leafs ps m p
    markPortals g leafs ps rest m'

/-- `MarkVisibleSides_r` (qbsp/portals.cc:1133-1163) for the leafs of the tree, each with the list of its portals. -/
def markLeafs (g : Game C) (leafs : Nat → Leaf C K) (ps : Nat → Portal K) :
    List (Nat × List Nat) → Marks K → Outcome (Marks K)
  | [], m => .ok m
  | (l, around) :: rest, m =>
    if g.empty (leafs l).contents then markLeafs g leafs ps rest m
    else do
      let m' ← markPortals g leafs ps around m
      markLeafs g leafs ps rest m'

/-- `MarkVisibleSides` (qbsp/portals.cc:1171-1187); `sides` are the sources of the sides of all brushes, `hint` tells
which are hints. -/
def markVisible (g : Game C) (leafs : Nat → Leaf C K) (ps : Nat → Portal K) (tree : List (Nat × List Nat))
    (hint : Nat → Bool) (sides : List (Option Nat)) (vis : Nat → Bool) : Outcome (Nat → Bool) := do
  let m ← markLeafs g leafs ps tree ⟨fun _ => none, Flood.markSidesInvisible hint sides vis⟩
  .ok m.visible

end Verif.PortalSides
