import Verif.Common.Outcome
import Verif.Geom.Model

/-!
Model of the construction of the BSP tree from the brushes of a map (qbsp/brushbsp.cc): the tests of a brush against a
plane, `SplitBrush`, `CheckSplitBrush`, `SelectSplitPlane`, `SplitBrushList`, `LeafNode`, `BuildTree_r`.

Simplifications: arithmetic is exact (an ordered field `K`). The functions that need a square root are parameters: the
base polygon of a plane (`from_plane`) and the area of a polygon. So are the measure of `SplitPlaneMetric`, which is only
used to compare planes, and the decision of `SelectSplitPlane` to look for a middle plane. Numbers do not wrap.
Statistics and progress output are left out. The two children of a node are built one after the other; in the code they
are tasks that share nothing but statistics.
-/

namespace Verif.BrushBsp

open Geom

/-- `side_t` (include/qbsp/brush.hh): the flags that are read here. `visible` is `is_visible()`, `hint` and `hintskip`
are flags of the texinfo. -/
structure Side (K : Type) where
  planenum : Nat
  w : List (Vec K)
  onnode : Bool
  bevel : Bool
  visible : Bool
  hint : Bool
  hintskip : Bool
  deriving DecidableEq

/-- `aabb3d`. -/
structure Bounds (K : Type) where
  mins : Vec K
  maxs : Vec K
  deriving DecidableEq

/-- `bspbrush_t` (include/qbsp/brush.hh): `orig` stands for `original_brush()`. -/
structure Brush (K C : Type) where
  sides : List (Side K)
  bounds : Bounds K
  contents : C
  orig : Nat
  deriving DecidableEq

/-- What the construction reads: `map.planes`, the options, the functions of the game. -/
structure Env (K C : Type) where
  planes : Nat → Plane K
  /-- `winding_t::from_plane(plane, worldextent)` -/
  base : Plane K → List (Vec K)
  /-- `winding_t::area()` -/
  area : List (Vec K) → K
  worldextent : K
  microvolume : K
  /-- the bounds of nothing reach from `huge` to `-huge` -/
  huge : K
  isDetail : C → Bool
  empty : C
  combine : C → C → C
  /-- `SplitPlaneMetric` -/
  metric : Plane K → Bounds K → K
  /-- the conditions under which a middle plane is looked for first -/
  midsplit : Nat → Bounds K → Bool

variable {K C : Type} [Field K] [LinearOrder K]

/-- `planenum ^ 1`: the other side of the plane. -/
def flipNum (n : Nat) : Nat := if n % 2 = 0 then n + 1 else n - 1

/-- `planenum & ~1`. -/
def positive (n : Nat) : Nat := n / 2 * 2

/-- The points of all polygons. -/
def points (sides : List (Side K)) : List (Vec K) := sides.flatMap (·.w)

/-- `aabb::operator+=`. -/
def expand (b : Bounds K) (v : Vec K) : Bounds K :=
  ⟨⟨min b.mins.x v.x, min b.mins.y v.y, min b.mins.z v.z⟩, ⟨max b.maxs.x v.x, max b.maxs.y v.y, max b.maxs.z v.z⟩⟩

/-- The bounds that `bspbrush_t::update_bounds` (qbsp/brush.cc:922-930) sets. -/
def boundsOf (huge : K) (sides : List (Side K)) : Bounds K :=
  (points sides).foldl expand ⟨⟨huge, huge, huge⟩, ⟨-huge, -huge, -huge⟩⟩

/-- What `bspbrush_t::update_bounds` returns (qbsp/brush.cc:932-950). -/
def boundsOk (w : K) (b : Bounds K) : Bool :=
  let ok (lo hi : K) : Bool := !(lo ≤ -w || hi ≥ w || lo ≥ w || hi ≤ -w)
  ok b.mins.x b.maxs.x && ok b.mins.y b.maxs.y && ok b.mins.z b.maxs.z

/-- The loop that follows in `SplitBrush` (qbsp/brushbsp.cc:506-515). -/
def boundsIn (w : K) (b : Bounds K) : Bool :=
  let ok (lo hi : K) : Bool := !(lo < -w || hi > w)
  ok b.mins.x b.maxs.x && ok b.mins.y b.maxs.y && ok b.mins.z b.maxs.z

/-- `BrushVolume` (qbsp/brushbsp.cc:117-159); the corner is the first point of the last polygon that has points. -/
def volume (env : Env K C) (sides : List (Side K)) : K :=
  match ((sides.filter fun s => s.w ≠ []).getLast?).bind fun s => s.w.head? with
  | none => 0
  | some corner =>
    (sides.filter fun s => s.w ≠ []).foldl (fun v s => v + -((env.planes s.planenum).distTo corner) * env.area s.w) 0 / 3

/-- The axis of a plane whose type is below `PLANE_ANYX`, as set by `qbsp_plane_t::normalize` (qbsp/qbsp.cc:359-378). -/
def axis (pl : Plane K) : Option (Fin 3) :=
  if pl.normal.x = 1 ∨ pl.normal.x = -1 then some 0
  else if pl.normal.y = 1 ∨ pl.normal.y = -1 then some 1
  else if pl.normal.z = 1 ∨ pl.normal.z = -1 then some 2
  else none

/-- A coordinate. -/
def coord (v : Vec K) (i : Fin 3) : K := match i with
  | 0 => v.x
  | 1 => v.y
  | 2 => v.z

/-- The result of testing a brush against a plane: the flags `PSIDE_FRONT`, `PSIDE_BACK`, `PSIDE_FACING`. -/
structure PSide where
  front : Bool
  back : Bool
  facing : Bool
  deriving DecidableEq

/-- `PLANESIDE_EPSILON` (qbsp/brushbsp.cc:40). -/
def psEps : K := 1 / 1000

/-- `BoxOnPlaneSide` (qbsp/brushbsp.cc:170-203). -/
def boxTest (b : Bounds K) (pl : Plane K) : PSide :=
  match axis pl with
  | some i => ⟨coord b.maxs i > pl.dist + psEps, coord b.mins i < pl.dist - psEps, false⟩
  | none =>
    let c0 (n lo hi : K) : K := if n < 0 then lo else hi
    let c1 (n lo hi : K) : K := if n < 0 then hi else lo
    let corner (c : K → K → K → K) : Vec K := ⟨c pl.normal.x b.mins.x b.maxs.x, c pl.normal.y b.mins.y b.maxs.y,
      c pl.normal.z b.mins.z b.maxs.z⟩
    ⟨dot pl.normal (corner c0) - pl.dist ≥ psEps, dot pl.normal (corner c1) - pl.dist < psEps, false⟩

/-- The loop at the start of `TestBrushToPlanenum` (qbsp/brushbsp.cc:275-281). -/
def facingTest (n : Nat) : List (Side K) → Option PSide
  | [] => none
  | s :: l =>
    if s.planenum = n then some ⟨false, true, true⟩
    else if s.planenum = flipNum n then some ⟨true, false, true⟩
    else facingTest n l

/-- What `TestBrushToPlanenum` returns (qbsp/brushbsp.cc:263-288, 332). -/
def testBrush (env : Env K C) (n : Nat) (b : Brush K C) : PSide :=
  match facingTest n b.sides with
  | some s => s
  | none => boxTest b.bounds (env.planes n)

/-- What `TestBrushToPlanenum` counts for one side (qbsp/brushbsp.cc:295-325): whether the side is split, and the
distances so far. -/
def sideSplit (pl : Plane K) (w : List (Vec K)) : Bool :=
  (w.any fun p => pl.distTo p > 1 / 10) && (w.any fun p => pl.distTo p < -(1 / 10))

/-- The sides that `TestBrushToPlanenum` looks at (qbsp/brushbsp.cc:295-302). -/
def looked (b : Brush K C) : List (Side K) := b.sides.filter fun s => !s.onnode && s.visible && s.w ≠ []

/-- The greatest distance in front of the plane, at least 0. -/
def maxFront (pl : Plane K) (ps : List (Vec K)) : K :=
  ps.foldl (fun m p => if pl.distTo p > 0 ∧ pl.distTo p > m then pl.distTo p else m) 0

/-- The greatest distance behind the plane, at most 0. -/
def maxBack (pl : Plane K) (ps : List (Vec K)) : K :=
  ps.foldl (fun m p => if pl.distTo p < 0 ∧ pl.distTo p < m then pl.distTo p else m) 0

/-- What `TestBrushToPlanenum` counts (qbsp/brushbsp.cc:290-330): `numsplits`, `hintsplit`, the increment of
`epsilonbrush`. -/
def countSplits (env : Env K C) (n : Nat) (b : Brush K C) : Nat × Bool × Nat :=
  if testBrush env n b = ⟨true, true, false⟩ then
    let pl := env.planes n
    let split := (looked b).filter fun s => sideSplit pl s.w && !s.hintskip
    let df := maxFront pl (points (looked b))
    let db := maxBack pl (points (looked b))
    (split.length, split.any (·.hint), if (df > 0 ∧ df < 1) ∨ (db < 0 ∧ db > -1) then 1 else 0)
  else (0, false, 0)

/-- `WindingIsTiny(w, 0.02)` (include/qbsp/brushbsp.hh:50-66); the lengths are compared squared. -/
def tiny (w : List (Vec K)) : Bool :=
  let long := (w.zip (w.drop 1 ++ w.take 1)).filter fun e =>
    let d : Vec K := ⟨e.2.x - e.1.x, e.2.y - e.1.y, e.2.z - e.1.z⟩
    dot d d > 1 / 50 * (1 / 50)
  long.length < 3

/-- `DEFAULT_ON_EPSILON` (include/common/mathlib.hh:57). -/
def onEps : K := 1 / 10

/-- The polygon of the cut (qbsp/brushbsp.cc:438-446): the base polygon of the plane clipped by the sides. -/
def cutPolygon (env : Env K C) (pl : Plane K) (sides : List (Side K)) : Option (List (Vec K)) :=
  sides.foldl (fun w s => w.bind fun w => clipBack (env.planes s.planenum) onEps false w) (some (env.base pl))

/-- `BrushMostlyOnSide` (qbsp/brushbsp.cc:379-397): whether the brush is mostly in front. -/
def mostlyFront (pl : Plane K) (ps : List (Vec K)) : Bool :=
  (ps.foldl (fun (st : K × Bool) p =>
    let d := pl.distTo p
    let st := if d > st.1 then (d, true) else st
    if -d > st.1 then (-d, false) else st) (0, true)).2

/-- The sides in front of the plane (qbsp/brushbsp.cc:478-491). -/
def frontSides (pl : Plane K) (sides : List (Side K)) : List (Side K) :=
  sides.filterMap fun s => (clip pl 0 false s.w).1.map fun w => { s with w := w }

/-- The sides behind the plane (qbsp/brushbsp.cc:478-491). -/
def backSides (pl : Plane K) (sides : List (Side K)) : List (Side K) :=
  sides.filterMap fun s => (clip pl 0 false s.w).2.map fun w => { s with w := w }

/-- Whether the sides on one side of the plane make no brush (qbsp/brushbsp.cc:495-516). -/
def bogus (env : Env K C) (sides : List (Side K)) : Bool :=
  sides.length < 3 || !boundsOk env.worldextent (boundsOf env.huge sides) ||
    !boundsIn env.worldextent (boundsOf env.huge sides)

/-- The side that is added at the cut (qbsp/brushbsp.cc:544-562). -/
def cutSide (n : Nat) (w : List (Vec K)) : Side K := ⟨n, w, true, false, false, false, false⟩

/-- The last step of `SplitBrush` for one half (qbsp/brushbsp.cc:564-572): a half that is too small is dropped. -/
def keepHalf (env : Env K C) (b : Brush K C) : Option (Brush K C) :=
  if volume env b.sides < env.microvolume then none else some b

/-- `SplitBrush` (qbsp/brushbsp.cc:409-575). -/
def splitBrush (env : Env K C) (n : Nat) (b : Brush K C) : Option (Brush K C) × Option (Brush K C) :=
  let pl := env.planes n
  if maxFront pl (points b.sides) < 1 / 10 then (none, some b)
  else if maxBack pl (points b.sides) > -(1 / 10) then (some b, none)
  else
    let whole := if mostlyFront pl (points b.sides) then (some b, none) else (none, some b)
    match cutPolygon env pl b.sides with
    | none => whole
    | some m =>
      if tiny m then whole
      else
        let f := frontSides pl b.sides
        let g := backSides pl b.sides
        if bogus env f && bogus env g then (none, none)
        else if bogus env g then (some b, none)
        else if bogus env f then (none, some b)
        else
          (keepHalf env { b with sides := f ++ [cutSide (flipNum n) (flip m)], bounds := boundsOf env.huge f },
            keepHalf env { b with sides := g ++ [cutSide n m], bounds := boundsOf env.huge g })

/-- `stack_brush_t::update_bounds` (qbsp/brushbsp.cc:612-635): it tests the first coordinate three times. -/
def stackBoundsOk (w : K) (b : Bounds K) : Bool :=
  !(b.mins.x ≤ -w || b.maxs.x ≥ w || b.mins.x ≥ w || b.maxs.x ≤ -w)

/-- The tests of one half in `CheckSplitBrush` (qbsp/brushbsp.cc:719-734). -/
def stackBogus (env : Env K C) (sides : List (Side K)) : Bool :=
  sides.length < 3 || !stackBoundsOk env.worldextent (boundsOf env.huge sides) ||
    !boundsIn env.worldextent (boundsOf env.huge sides)

/-- `CheckSplitBrush` (qbsp/brushbsp.cc:646-762). -/
def checkSplit (env : Env K C) (n : Nat) (b : Brush K C) : Bool :=
  let pl := env.planes n
  if maxFront pl (points b.sides) < 1 / 10 then false
  else if maxBack pl (points b.sides) > -(1 / 10) then false
  else
    match cutPolygon env pl b.sides with
    | none => false
    | some m =>
      if tiny m then false
      else
        let f := frontSides pl b.sides
        let g := backSides pl b.sides
        if stackBogus env f || stackBogus env g then false
        else !(decide (volume env (f ++ [cutSide (flipNum n) (flip m)]) < env.microvolume)) &&
          !(decide (volume env (g ++ [cutSide n m]) < env.microvolume))

/-- `CheckPlaneAgainstVolume` (qbsp/brushbsp.cc:764-775). -/
def checkVolume (env : Env K C) (vol : Option (Brush K C)) (n : Nat) : Bool :=
  match vol with
  | none => false
  | some v => checkSplit env n v

/-- The conditions on a side that both searches share (qbsp/brushbsp.cc:878-890, 1001-1015), in a pass. -/
def candidate (env : Env K C) (pass : Nat) (b : Brush K C) (s : Side K) : Bool :=
  (decide (2 ≤ pass) == env.isDetail b.contents) && !s.bevel && s.w ≠ [] && !s.onnode && !s.hintskip &&
    (s.visible == (decide (pass = 0) || decide (pass = 2)))

/-- All sides of all brushes, in order. -/
def allSides (bs : List (Brush K C)) : List (Brush K C × Side K) := bs.flatMap fun b => b.sides.map fun s => (b, s)

/-- A better plane replaces the best one (qbsp/brushbsp.cc:904-914). -/
def better (s : Side K) (m : K) (o : Option (Side K × K)) : Option (Side K × K) :=
  match o with
  | none => some (s, m)
  | some x => if m < x.2 then some (s, m) else some x

/-- The body of the loops of `ChooseMidPlaneFromList` (qbsp/brushbsp.cc:875-917): the best planes with their measures,
of any kind and axial. -/
def midStep (env : Env K C) (vol : Option (Brush K C)) (nb : Bounds K) (pass : Nat)
    (st : Option (Side K × K) × Option (Side K × K)) (x : Brush K C × Side K) :
    Option (Side K × K) × Option (Side K × K) :=
  let n := positive x.2.planenum
  if candidate env pass x.1 x.2 && checkVolume env vol n then
    let m := env.metric (env.planes n) nb
    (better x.2 m st.1, if (axis (env.planes n)).isSome then better x.2 m st.2 else st.2)
  else st

/-- A pass of `ChooseMidPlaneFromList` (qbsp/brushbsp.cc:874-917). -/
def midPass (env : Env K C) (vol : Option (Brush K C)) (nb : Bounds K) (bs : List (Brush K C)) (pass : Nat) :
    Option (Side K × K) × Option (Side K × K) :=
  (allSides bs).foldl (midStep env vol nb pass) (none, none)

/-- `ChooseMidPlaneFromList` (qbsp/brushbsp.cc:855-927): the first pass that finds a plane; an axial one is preferred.
The measures are taken to be below `VECT_MAX`. -/
def chooseMid (env : Env K C) (vol : Option (Brush K C)) (nb : Bounds K) (bs : List (Brush K C)) :
    List Nat → Option (Side K)
  | [] => none
  | pass :: ps =>
    match midPass env vol nb bs pass with
    | (_, some (s, _)) => some s
    | (some (s, _), none) => some s
    | (none, none) => chooseMid env vol nb bs ps

/-- The plane that was chosen, and what `SelectSplitPlane` leaves behind: `brush->side` for every brush and
`detail_separator`. -/
structure Choice where
  planenum : Nat
  sides : List PSide
  detail : Bool
  deriving DecidableEq

/-- The state of the search: the planes whose sides are marked `tested`, the best value and the best choice. -/
structure Search where
  tested : List Nat
  value : Int
  best : Option Choice

/-- The value of a plane (qbsp/brushbsp.cc:1027-1070). `hintsplit` is the one of the last brush: every test of a brush
resets it. -/
def planeValue (env : Env K C) (bs : List (Brush K C)) (s : Side K) : Int :=
  let n := positive s.planenum
  let sides := bs.map (testBrush env n)
  let counts := bs.map (countSplits env n)
  let facing : Int := (sides.filter (·.facing)).length
  let front : Int := (sides.filter (·.front)).length
  let back : Int := (sides.filter (·.back)).length
  let splits : Int := (counts.map fun c => (c.1 : Int)).sum
  let eps : Int := (counts.map fun c => (c.2.2 : Int)).sum
  let hintsplit := (counts.getLast?.map (·.2.1)).getD false
  let v := 5 * facing - 5 * splits - |front - back|
  let v := if (axis (env.planes n)).isSome then v + 5 else v
  let v := v - eps * 1000
  if hintsplit && !s.hint then -9999999 else v

/-- The body of the loops of `SelectSplitPlane` (qbsp/brushbsp.cc:998-1081). The side is skipped when its plane was
tested: the flag `tested` is set on all sides with the plane, by the test in which they are facing (the first side of a
brush with that plane makes it facing). `Error("Tried parent")` is the outcome `error`, and so is
`Error("PSIDE_FACING with splits")`. -/
def searchStep (env : Env K C) (parents : List Nat) (vol : Option (Brush K C)) (bs : List (Brush K C)) (pass : Nat)
    (st : Search) (b : Brush K C) (s : Side K) : Outcome Search :=
  let n := positive s.planenum
  if !candidate env pass b s || n ∈ st.tested then .ok st
  else if n ∈ parents then .error
  else if !checkVolume env vol n then .ok st
  else if (bs.any fun t => (testBrush env n t).facing && (countSplits env n t).1 ≠ 0) then .error
  else
    let v := planeValue env bs s
    let st := { st with tested := n :: st.tested }
    if v > st.value then .ok { st with value := v, best := some ⟨n, bs.map (testBrush env n), decide (2 ≤ pass)⟩ }
    else .ok st

/-- One pass over all sides. -/
def searchPass (env : Env K C) (parents : List Nat) (vol : Option (Brush K C)) (bs : List (Brush K C)) (pass : Nat) :
    List (Brush K C × Side K) → Search → Outcome Search
  | [], st => .ok st
  | (b, s) :: l, st => do
    let st' ← searchStep env parents vol bs pass st b s
    searchPass env parents vol bs pass l st'

/-- The passes (qbsp/brushbsp.cc:997-1092). -/
def searchPasses (env : Env K C) (parents : List Nat) (vol : Option (Brush K C)) (bs : List (Brush K C)) :
    List Nat → Search → Outcome Search
  | [], st => .ok st
  | pass :: ps, st => do
    let st' ← searchPass env parents vol bs pass (allSides bs) st
    if st'.best.isSome then .ok st' else searchPasses env parents vol bs ps st'

/-- `SelectSplitPlane` (qbsp/brushbsp.cc:937-1114). A middle plane never sets `detail_separator`. -/
def selectSplit (env : Env K C) (parents : List Nat) (vol : Option (Brush K C)) (nb : Bounds K) (bs : List (Brush K C)) :
    Outcome (Option Choice) :=
  if bs = [] then .ok none
  else
    match if env.midsplit bs.length nb then chooseMid env vol nb bs [0, 1, 2, 3] else none with
    | some s => .ok (some ⟨positive s.planenum, bs.map (testBrush env (positive s.planenum)), false⟩)
    | none => do
      let st ← searchPasses env parents vol bs [0, 1, 2, 3] ⟨[], -99999, none⟩
      .ok st.best

/-- The mark of the sides of a brush on the plane (qbsp/brushbsp.cc:1146-1152). -/
def markOnnode (n : Nat) (b : Brush K C) : Brush K C :=
  { b with sides := b.sides.map fun s => if positive s.planenum = n then { s with onnode := true } else s }

/-- The body of `SplitBrushList` (qbsp/brushbsp.cc:1126-1162): what a brush adds to the front and to the back list. -/
def distribute (env : Env K C) (n : Nat) (s : PSide) (b : Brush K C) : List (Brush K C) × List (Brush K C) :=
  if s = ⟨true, true, false⟩ then
    let r := splitBrush env n b
    (r.1.toList, r.2.toList)
  else
    let b := if s.facing then markOnnode n b else b
    if s.front then ([b], [])
    else if s.back then ([], [b])
    else ([], [])

/-- `SplitBrushList` (qbsp/brushbsp.cc:1121-1165). -/
def splitBrushList (env : Env K C) (n : Nat) (sides : List PSide) (bs : List (Brush K C)) :
    List (Brush K C) × List (Brush K C) :=
  let r := (sides.zip bs).map fun x => distribute env n x.1 x.2
  (r.flatMap (·.1), r.flatMap (·.2))

/-- A node or a leaf of the tree: what `LeafNode` and `BuildTree_r` set. -/
inductive BTree (K C : Type) where
  | leaf (contents : C) (brushes : List (Brush K C))
  | node (planenum : Nat) (detail : Bool) (front back : BTree K C)
  deriving DecidableEq

/-- `LeafNode` (qbsp/brushbsp.cc:348-369); `brushes` stands for `original_brushes`. -/
def leafNode (env : Env K C) (bs : List (Brush K C)) : BTree K C :=
  .leaf (bs.foldl (fun c b => env.combine c b.contents) env.empty) bs

/-- The bounds of the children (qbsp/brushbsp.cc:1208-1220). -/
def childBounds (pl : Plane K) (nb : Bounds K) : Bounds K × Bounds K :=
  if pl.normal.x = 1 then ({ nb with mins := { nb.mins with x := pl.dist } }, { nb with maxs := { nb.maxs with x := pl.dist } })
  else if pl.normal.y = 1 then
    ({ nb with mins := { nb.mins with y := pl.dist } }, { nb with maxs := { nb.maxs with y := pl.dist } })
  else if pl.normal.z = 1 then
    ({ nb with mins := { nb.mins with z := pl.dist } }, { nb with maxs := { nb.maxs with z := pl.dist } })
  else (nb, nb)

/-- The volumes of the children (qbsp/brushbsp.cc:1223-1228). -/
def childVolumes (env : Env K C) (n : Nat) (vol : Option (Brush K C)) : Option (Brush K C) × Option (Brush K C) :=
  match vol with
  | none => (none, none)
  | some v => splitBrush env n v

/-- `BuildTree_r` (qbsp/brushbsp.cc:1174-1235) with a limit on the depth; `none`: the limit is reached. -/
def buildTree (env : Env K C) : Nat → List Nat → Option (Brush K C) → Bounds K → List (Brush K C) →
    Option (Outcome (BTree K C))
  | 0, _, _, _, _ => none
  | fuel + 1, parents, vol, nb, bs =>
    match selectSplit env parents vol nb bs with
    | .error => some .error
    | .ub => some .ub
    | .ok none => some (.ok (leafNode env bs))
    | .ok (some c) =>
      let n := c.planenum
      let lists := splitBrushList env n c.sides bs
      let vols := childVolumes env n vol
      let nbs := childBounds (env.planes n) nb
      match buildTree env fuel (n :: parents) vols.1 nbs.1 lists.1, buildTree env fuel (n :: parents) vols.2 nbs.2 lists.2 with
      | some (.ok f), some (.ok g) => some (.ok (.node n c.detail f g))
      | some .ub, _ => some .ub
      | some .error, some _ => some .error
      | some (.ok _), some .error => some .error
      | some (.ok _), some .ub => some .ub
      | some .error, none => none
      | some (.ok _), none => none
      | none, _ => none

/-- The brushes with `onnode` cleared (qbsp/brushbsp.cc:1300-1305). -/
def clearOnnode (b : Brush K C) : Brush K C := { b with sides := b.sides.map fun s => { s with onnode := false } }

/-- `SIDESPACE` around the bounds (qbsp/brushbsp.cc:1324). -/
def grow (d : K) (b : Bounds K) : Bounds K :=
  ⟨⟨b.mins.x - d, b.mins.y - d, b.mins.z - d⟩, ⟨b.maxs.x + d, b.maxs.y + d, b.maxs.z + d⟩⟩

/-- The sum of the bounds of the brushes (qbsp/brushbsp.cc:1318). -/
def totalBounds (huge : K) (bs : List (Brush K C)) : Bounds K :=
  bs.foldl (fun b x => expand (expand b x.bounds.mins) x.bounds.maxs) ⟨⟨huge, huge, huge⟩, ⟨-huge, -huge, -huge⟩⟩

/-- `BrushBSP` (qbsp/brushbsp.cc:1250-1340). `fromBounds` is `BrushFromBounds`. Without brushes the tree has one node, on
plane 0, with two empty leafs. -/
def brushBsp (env : Env K C) (fromBounds : Bounds K → Brush K C) (sidespace : K) (fuel : Nat) (bs : List (Brush K C)) :
    Option (Outcome (BTree K C)) :=
  if bs = [] then some (.ok (.node 0 false (.leaf env.empty []) (.leaf env.empty [])))
  else
    let nb := grow sidespace (totalBounds env.huge bs)
    buildTree env fuel [] (some (fromBounds nb)) nb (bs.map clearOnnode)

end Verif.BrushBsp
