import Verif.Contents.Model
import Verif.Flood.Portals

/-!
Model of outside filling and detail filling (qbsp/outside.cc).

A leaf is a number; its fields are functions of the number. Every portal of a `TREE` portalization joins two leafs
(`tree_portals` in PortalProps.lean), so `get_leafdata()` is never null and is left out. The loops over the list of
portals of a leaf see `portalsOf` (`link_lists` in PortalProps.lean).

A loop that can run any number of times takes `fuel`; `none` says that it did not end within that many iterations.
`int` is unbounded.
-/

namespace Verif.Flood

open Contents

/-- The game: Quake and its relatives, or Quake II. -/
inductive Game where
  | q1 | q2
  deriving DecidableEq

/-- `contents_seals_map` (common/bspfile.cc:441-444, 1190-1193). -/
def Game.sealsMap : Game → Contents → Bool
  | .q1, c => Q1.sealsMap c
  | .q2, c => Q2.sealsMap c

/-- `contents_are_any_solid(contents) || contents_are_sky(contents)` (qbsp/outside.cc:55-56). -/
def Game.sealsDetail : Game → Contents → Bool
  | .q1, c => Q1.isAnySolid c || Q1.isSky c
  | .q2, c => Q2.isAnySolid c || Q2.isSky c

/-- `create_solid_contents` (common/bspfile.cc:260-263; the Quake II definition is the same). -/
def solidContents : Contents := SOLID

/-- `create_detail_solid_contents(create_solid_contents())` (qbsp/outside.cc:537-538). -/
def Game.detailSolid : Game → Contents
  | .q1 => Q1.detailSolid
  | .q2 => Q2.detailSolid SOLID

/-- `OutsideFill_Passable` (qbsp/outside.cc:118-126). -/
def outsidePassable (g : Game) (contents : Nat → Contents) (p : Portal) : Bool :=
  match p.onnode with
  | none => false
  | some _ => !g.sealsMap (contents p.n0) && !g.sealsMap (contents p.n1)

/-- `DetailFill_Passable` (qbsp/outside.cc:128-136). -/
def detailPassable (g : Game) (contents : Nat → Contents) (p : Portal) : Bool :=
  match p.onnode with
  | none => false
  | some _ => !g.sealsDetail (contents p.n0) && !g.sealsDetail (contents p.n1)

/-- The loop over the portals of a leaf with the test of the predicate: the number of each passable portal and the leaf
behind it (qbsp/outside.cc:185-194, 224-231, 585-594, 617-624). -/
def neighbours (pass : Portal → Bool) (ps : List Portal) (v : Nat) : List (Nat × Nat) :=
  ((portalsOf ps v).filter fun x => pass x.2).map fun x => (x.1, across x.2 v)

/-- Setting one field. -/
def setAt {α : Type} (f : Nat → α) (i : Nat) (a : α) : Nat → α := fun j => if j = i then a else f j

/-- The loop of `FloodFillLeafsFromVoid` (qbsp/outside.cc:167-195): `visited_nodes`, the queue and
`outside_distance`. -/
def voidLoop (pass : Portal → Bool) (ps : List Portal) :
    Nat → List Nat → List (Nat × Int) → (Nat → Int) → Option (Nat → Int)
  | _, _, [], m => some m
  | 0, _, _ :: _, _ => none
  | fuel + 1, visited, (v, d) :: q, m =>
    if v ∈ visited then voidLoop pass ps fuel visited q m
    else voidLoop pass ps fuel (v :: visited) (q ++ (neighbours pass ps v).map fun n => (n.2, d + 1)) (setAt m v d)

/-- The leaf on the other side of the first portal of the outside node (qbsp/outside.cc:157-158, 719-720); without a
portal this is a null dereference. -/
def fillNode (ps : List Portal) (outside : Nat) : Outcome Nat :=
  match portalsOf ps outside with
  | [] => .ub
  | (_, p) :: _ => .ok (across p outside)

/-- `FloodFillLeafsFromVoid` (qbsp/outside.cc:148-196), given `fillnode`. -/
def floodFromVoid (g : Game) (contents : Nat → Contents) (ps : List Portal) (outside fill : Nat) (fuel : Nat) :
    Option (Outcome (Nat → Int)) :=
  if fill = outside then some .error
  else if g.sealsMap (contents fill) then some .error
  else (voidLoop (outsidePassable g contents) ps fuel [] [(fill, 0)] fun _ => -1).map .ok

/-- The loop of `BFSFloodFillFromOccupiedLeafs` (qbsp/outside.cc:573-596): the queue and `occupied`. -/
def occLoop (pass : Portal → Bool) (ps : List Portal) :
    Nat → List (Nat × Int) → (Nat → Int) → Option (Nat → Int)
  | _, [], m => some m
  | 0, _ :: _, _ => none
  | fuel + 1, (v, d) :: q, m =>
    if m v = 0 then
      occLoop pass ps fuel (q ++ (neighbours pass ps v).map fun n => (n.2, d + 1)) (setAt m v d)
    else occLoop pass ps fuel q m

/-- `BFSFloodFillFromOccupiedLeafs` (qbsp/outside.cc:565-597). -/
def floodFromOccupied (pass : Portal → Bool) (ps : List Portal) (occupied : List Nat) (fuel : Nat) :
    Option (Nat → Int) :=
  occLoop pass ps fuel (occupied.map fun v => (v, 1)) fun _ => 0

/-- The inner loop of `FindPortalsToVoid` and of `MakeLeakLine` (qbsp/outside.cc:225-240, 618-633). `base`: the
smallest mark the assertion allows. -/
def bestStep (m : Nat → Int) (base : Int) (node : Nat) :
    List (Nat × Nat) → Option (Nat × Nat) → Int → Outcome (Option (Nat × Nat))
  | [], best, _ => .ok best
  | (k, w) :: rest, best, bestMark =>
    if w = node then .error
    else if m w < base then .error
    else if m w < bestMark then bestStep m base node rest (some (k, w)) (m w)
    else bestStep m base node rest best bestMark

/-- The outer loop of `FindPortalsToVoid` (base 0) and of `MakeLeakLine` (base 1) (qbsp/outside.cc:213-248, 606-641):
the portals crossed, and the last leaf. -/
def followLine (pass : Portal → Bool) (ps : List Portal) (m : Nat → Int) (base : Int) :
    Nat → Nat → Option (Outcome (List Nat × Nat))
  | fuel, node =>
    if m node = base then some (.ok ([], node))
    else
      match fuel with
      | 0 => none
      | fuel + 1 =>
        match bestStep m base node (neighbours pass ps node) none (m node) with
        | .ok (some (k, w)) =>
          match followLine pass ps m base fuel w with
          | some (.ok (line, last)) => some (.ok (k :: line, last))
          | r => r
        | .ok none => some .error
        | .error => some .error
        | .ub => some .ub

/-- What outside filling looks at in an entity: whether its origin is (0 0 0), `IsNofillEntity`, and the leaf that
`PointInLeaf` finds (qbsp/outside.cc:352-362; `PointInLeaf` is modelled in Tree/Walk.lean). -/
structure Ent where
  atOrigin : Bool
  nofill : Bool
  leaf : Nat
  deriving DecidableEq

/-- The loop of `MarkOccupiedLeafs` (qbsp/outside.cc:348-375) from entity `i` on. -/
def markLoop (g : Game) (contents : Nat → Contents) : Nat → List Ent → (Nat → Option Nat) → (Nat → Option Nat)
  | _, [], occ => occ
  | i, e :: es, occ =>
    if e.atOrigin then markLoop g contents (i + 1) es occ
    else if e.nofill then markLoop g contents (i + 1) es occ
    else if g.sealsMap (contents e.leaf) then markLoop g contents (i + 1) es occ
    else if occ e.leaf ≠ none then markLoop g contents (i + 1) es occ
    else markLoop g contents (i + 1) es (setAt occ e.leaf (some i))

/-- `MarkOccupiedLeafs` (qbsp/outside.cc:346-376) after `ClearOccupied_r`: entity 0 is left out. -/
def markOccupied (g : Game) (contents : Nat → Contents) (ents : List Ent) : Nat → Option Nat :=
  markLoop g contents 1 (ents.drop 1) fun _ => none

/-- `FindOccupiedLeafs` (qbsp/outside.cc:378-404): `leafs` are the leafs of the tree in the order of the recursion. -/
def findOccupied (leafs : List Nat) (occ : Nat → Option Nat) : List Nat := leafs.filter fun v => (occ v).isSome

/-- `settings::filltype_t` (include/qbsp/qbsp.hh). -/
inductive FillType where
  | auto | outside | inside
  deriving DecidableEq

/-- The world that is filled: the portals, the outside node, the leafs in tree order, the contents and the entities. -/
structure Map where
  portals : List Portal
  outside : Nat
  leafs : List Nat
  contents : Nat → Contents
  ents : List Ent

/-- The switches `FillOutside` reads and `map.leakfile`. -/
structure FillOptions where
  game : Game
  filltype : FillType
  leakfile : Bool
  keepprt : Bool
  leaktest : Bool

/-- What `FillOutside` leaves behind: its result, the contents, the marks of the leafs, the leak (entity and portals)
that it warns about, whether it wrote that leak to the .pts file, `map.leakfile`, whether it removed the .prt file, and
whether it ended the program. -/
structure FillResult where
  filled : Bool
  contents : Nat → Contents
  occupied : Nat → Int
  dist : Nat → Int
  leak : Option (Nat × List Nat)
  wrotePts : Bool
  leakfile : Bool
  removedPrt : Bool
  exited : Bool

/-- `OutLeafsToSolid_R` (qbsp/outside.cc:480-509), for all leafs of the tree. -/
def outLeafsToSolid (g : Game) (inside : Bool) (occupied dist : Nat → Int) :
    List Nat → (Nat → Contents) → (Nat → Contents)
  | [], c => c
  | v :: vs, c =>
    let skip : Bool := if inside then occupied v > 0 else dist v = -1
    if skip then outLeafsToSolid g inside occupied dist vs c
    else if g.sealsMap (c v) then outLeafsToSolid g inside occupied dist vs c
    else outLeafsToSolid g inside occupied dist vs (setAt c v solidContents)

/-- The loop that looks for the occupied leaf closest to the void (qbsp/outside.cc:733-746). -/
def bestLeak (dist : Nat → Int) : List Nat → Option (Nat × Int) → Option (Nat × Int)
  | [], best => best
  | v :: vs, best =>
    if dist v = -1 then bestLeak dist vs best
    else
      match best with
      | none => bestLeak dist vs (some (v, dist v))
      | some (u, d) => if dist v < d then bestLeak dist vs (some (v, dist v)) else bestLeak dist vs (some (u, d))

/-- The end of `MakeLeakLine` (qbsp/outside.cc:643-647) and the reversal (qbsp/outside.cc:724). -/
def leakFromInside (occupant : Nat → Option Nat) : Outcome (List Nat × Nat) → Outcome (Nat × List Nat)
  | .ok (line, last) =>
    match occupant last with
    | none => .error
    | some e => .ok (e, line.reverse)
  | .error => .error
  | .ub => .ub

/-- The search for a leak, filling from the inside (qbsp/outside.cc:715-725): the leak and `occupied`. -/
def searchInside (o : FillOptions) (w : Map) (occupant : Nat → Option Nat) (starts : List Nat) (fuel : Nat) :
    Option (Outcome (Option (Nat × List Nat) × (Nat → Int))) :=
  let pass := outsidePassable o.game w.contents
  match floodFromOccupied pass w.portals starts fuel with
  | none => none
  | some m =>
    match fillNode w.portals w.outside with
    | .ub => some .ub
    | .error => some .error
    | .ok fill =>
      if m fill > 0 then
        match followLine pass w.portals m 1 fuel fill with
        | none => none
        | some r =>
          match leakFromInside occupant r with
          | .ok leak => some (.ok (some leak, m))
          | .error => some .error
          | .ub => some .ub
      else some (.ok (none, m))

/-- The search for a leak, filling from the outside (qbsp/outside.cc:726-753): the leak and `outside_distance`. -/
def searchOutside (o : FillOptions) (w : Map) (occupant : Nat → Option Nat) (starts : List Nat) (fuel : Nat) :
    Option (Outcome (Option (Nat × List Nat) × (Nat → Int))) :=
  let pass := outsidePassable o.game w.contents
  match fillNode w.portals w.outside with
  | .ub => some .ub
  | .error => some .error
  | .ok fill =>
    match floodFromVoid o.game w.contents w.portals w.outside fill fuel with
    | none => none
    | some .ub => some .ub
    | some .error => some .error
    | some (.ok m) =>
      match bestLeak m starts none with
      | none => some (.ok (none, m))
      | some (v, _) =>
        match occupant v with
        | none => some .error
        | some e =>
          if m v < 0 then some .error
          else
            match followLine pass w.portals m 0 fuel v with
            | none => none
            | some (.ok (line, _)) => some (.ok (some (e, line), m))
            | some .error => some .error
            | some .ub => some .ub

/-- The end of `FillOutside` (qbsp/outside.cc:755-810) after a search. The marking of brush sides is modelled in
Sides.lean. -/
def finishFill (o : FillOptions) (w : Map) (inside : Bool) (occupied dist : Nat → Int) :
    Option (Nat × List Nat) → FillResult
  | some leak =>
    if o.leakfile then
      ⟨false, w.contents, occupied, dist, some leak, false, true, false, false⟩
    else ⟨false, w.contents, occupied, dist, some leak, true, true, !o.keepprt, o.leaktest⟩
  | none =>
    ⟨true, outLeafsToSolid o.game inside occupied dist w.leafs w.contents, occupied, dist, none, false, o.leakfile,
      false, false⟩

/-- `FillOutside` (qbsp/outside.cc:680-811). The assertions on `occupied_leafs` hold after `ClearOccupied_r`. -/
def fillOutside (o : FillOptions) (w : Map) (fuel : Nat) : Option (Outcome FillResult) :=
  let occupant := markOccupied o.game w.contents w.ents
  let starts := findOccupied w.leafs occupant
  if starts.isEmpty then
    some (.ok ⟨false, w.contents, fun _ => 0, fun _ => -1, none, false, o.leakfile, false, false⟩)
  else
    match o.filltype with
    | .outside =>
      match searchOutside o w occupant starts fuel with
      | none => none
      | some .ub => some .ub
      | some .error => some .error
      | some (.ok (leak, m)) => some (.ok (finishFill o w false (fun _ => 0) m leak))
    | _ =>
      match searchInside o w occupant starts fuel with
      | none => none
      | some .ub => some .ub
      | some .error => some .error
      | some (.ok (leak, m)) => some (.ok (finishFill o w true m (fun _ => -1) leak))

/-- `FillDetailEnclosedLeafsToDetailSolid_R` (qbsp/outside.cc:516-540), for all leafs of the tree. -/
def detailLeafsToSolid (g : Game) (occupied : Nat → Int) : List Nat → (Nat → Contents) → (Nat → Contents)
  | [], c => c
  | v :: vs, c =>
    if occupied v > 0 then detailLeafsToSolid g occupied vs c
    else if g.sealsDetail (c v) then detailLeafsToSolid g occupied vs c
    else detailLeafsToSolid g occupied vs (setAt c v g.detailSolid)

/-- `FillDetail` (qbsp/outside.cc:831-858): the contents and `occupied`. -/
def fillDetail (g : Game) (w : Map) (fuel : Nat) : Option ((Nat → Contents) × (Nat → Int)) :=
  let starts := findOccupied w.leafs (markOccupied g w.contents w.ents)
  if starts.isEmpty then some (w.contents, fun _ => 0)
  else
    match floodFromOccupied (detailPassable g w.contents) w.portals starts fuel with
    | none => none
    | some m => some (detailLeafsToSolid g m w.leafs w.contents, m)

end Verif.Flood
