import Verif.Flood.Outside

/-!
Model of the areas of a Quake II map (qbsp/portals.cc:80-101, 588-710, 885-1001).

`EmitAreaPortals` is called for Quake II only (qbsp/qbsp.cc:1181-1184). Leafs, portals and contents are as in
Outside.lean. Warnings are left out, and so is the leak line of an area portal (its search is modelled in Path.lean).
-/

namespace Verif.Flood

open Contents

/-- What the search for areas looks at: the leafs in tree order, the portals, the contents, the marks `occupied` and for
each leaf the `func_areaportal` of its brushes (an entity number or null). -/
structure AreaMap where
  leafs : List Nat
  portals : List Portal
  outside : Nat
  contents : Nat → Contents
  occupied : Nat → Int
  brushes : Nat → List (Option Nat)

/-- `area` of the leafs and `portalareas` of the entities (include/qbsp/qbsp.hh, include/qbsp/map.hh). -/
structure AreaState where
  area : Nat → Nat
  portalareas : Nat → Nat × Nat

/-- `Portal_EntityFlood` (qbsp/portals.cc:87-101). -/
def entityFlood (contents : Nat → Contents) (p : Portal) : Bool :=
  !(Q2.isSolid (contents p.n0) || Q2.isSolid (contents p.n1))

/-- `contents.flags & EWT_INVISCONTENTS_AREAPORTAL` (qbsp/portals.cc:617). -/
def inAreaPortal (contents : Nat → Contents) (v : Nat) : Bool := tst (contents v) AREAPORTAL

/-- `AreanodeEntityForLeaf` (qbsp/portals.cc:588-605) for a leaf. -/
def areaEntity (brushes : List (Option Nat)) : Option Nat := brushes.findSome? id

/-- The update of `portalareas` (qbsp/portals.cc:628-646) for the current area `c`. -/
def touch (c : Nat) (a : Nat × Nat) : Nat × Nat :=
  if a.1 = c ∨ a.2 = c then a
  else if a.2 ≠ 0 then a
  else if a.1 ≠ 0 then (a.1, c)
  else (c, a.2)

/-- `for (p = node->portals; p; p = p->next[s])` with `s = (p->nodes[1] == node)`: the leafs `p->nodes[!s]` behind the
portals that can be crossed (qbsp/portals.cc:662-673). -/
def floodNext (w : AreaMap) (v : Nat) : List Nat :=
  ((portalsOf w.portals v).filter fun x => entityFlood w.contents x.2).map fun x => if x.2.n1 = v then x.2.n0 else x.2.n1

/-- `FloodAreas_r` (qbsp/portals.cc:612-674) for the current area `c`. `none`: the recursion is deeper than `fuel`. -/
def floodAreas (w : AreaMap) (c : Nat) : Nat → Nat → AreaState → Option AreaState
  | 0, _, _ => none
  | fuel + 1, v, s =>
    if inAreaPortal w.contents v then
      match areaEntity (w.brushes v) with
      | none => some s
      | some e => some { s with portalareas := setAt s.portalareas e (touch c (s.portalareas e)) }
    else if s.area v ≠ 0 then some s
    else (floodNext w v).foldlM (fun s u => floodAreas w c fuel u s) { s with area := setAt s.area v c }

/-- `FindAreas_r` (qbsp/portals.cc:684-710) over the leafs in tree order: the state and `c_areas`. -/
def findAreas (w : AreaMap) (fuel : Nat) : List Nat → AreaState × Nat → Option (AreaState × Nat)
  | [], s => some s
  | v :: vs, (s, c) =>
    if s.area v ≠ 0 then findAreas w fuel vs (s, c)
    else if Q2.isAnySolid (w.contents v) then findAreas w fuel vs (s, c)
    else if w.occupied v = 0 then findAreas w fuel vs (s, c)
    else if inAreaPortal w.contents v then findAreas w fuel vs (s, c)
    else
      match floodAreas w (c + 1) fuel v s with
      | none => none
      | some s' => findAreas w fuel vs (s', c + 1)

/-- `SetAreaPortalAreas_r` (qbsp/portals.cc:892-928) over the leafs in tree order. -/
def setPortalAreas (w : AreaMap) (portalareas : Nat → Nat × Nat) : List Nat → (Nat → Nat) → (Nat → Nat)
  | [], area => area
  | v :: vs, area =>
    if w.contents v ≠ AREAPORTAL then setPortalAreas w portalareas vs area
    else if area v ≠ 0 then setPortalAreas w portalareas vs area
    else
      match areaEntity (w.brushes v) with
      | none => setPortalAreas w portalareas vs area
      | some e => setPortalAreas w portalareas vs (setAt area v (portalareas e).1)

/-- `dareaportal_t` (include/common/bspfile_generic.hh:337-348). -/
structure DAreaPortal where
  portalnum : Nat
  otherarea : Nat
  deriving DecidableEq

/-- `darea_t` (include/common/bspfile_generic.hh). -/
structure DArea where
  num : Nat
  first : Nat
  deriving DecidableEq

/-- The record of one entity for area `i` (qbsp/portals.cc:976-984). -/
def portalRecord (i : Nat) (num : Nat) (a : Nat × Nat) : DAreaPortal :=
  if a.1 = i then ⟨num, a.2⟩ else if a.2 = i then ⟨num, a.1⟩ else ⟨0, 0⟩

/-- The loop over the entities for area `i` (qbsp/portals.cc:971-994). An entity is its `areaportalnum` and its
`portalareas`. -/
def emitPortals (i : Nat) : List (Nat × (Nat × Nat)) → List DAreaPortal → List DAreaPortal
  | [], out => out
  | (num, a) :: es, out =>
    if num = 0 then emitPortals i es out
    else if portalRecord i num a ∈ out then emitPortals i es out
    else emitPortals i es (out ++ [portalRecord i num a])

/-- The loop over the areas (qbsp/portals.cc:967-997), `n` of them from `i` on. -/
def emitAreas (es : List (Nat × (Nat × Nat))) : Nat → Nat → List DArea × List DAreaPortal → List DArea × List DAreaPortal
  | _, 0, s => s
  | i, n + 1, (areas, portals) =>
    let portals' := emitPortals i es portals
    emitAreas es (i + 1) n (areas ++ [⟨portals'.length - portals.length, portals.length⟩], portals')

/-- What `EmitAreaPortals` produces: `area` of the leafs, `portalareas`, `dareas`, `dareaportals` and the
`areaportalnum` of the entities. -/
structure AreaResult where
  area : Nat → Nat
  portalareas : Nat → Nat × Nat
  count : Nat
  dareas : List DArea
  dareaportals : List DAreaPortal
  nums : List Nat

/-- `EmitAreaPortals` (qbsp/portals.cc:938-1001) on maps without areas so far. `off`: there is a leak file, or the map is
a region. `nums`: `areaportalnum` of the entities. -/
def emitAreaPortals (w : AreaMap) (off : Bool) (nums : List Nat) (fuel : Nat) : Option AreaResult :=
  if off then
    some ⟨fun _ => 0, fun _ => (0, 0), 0, [⟨0, 0⟩, ⟨0, 0⟩], [⟨0, 0⟩], nums.map fun _ => 0⟩
  else
    match findAreas w fuel w.leafs (⟨fun _ => 0, fun _ => (0, 0)⟩, 0) with
    | none => none
    | some (s, c) =>
      let out := emitAreas (nums.zipIdx.map fun x => (x.1, s.portalareas x.2)) 1 c ([⟨0, 0⟩], [⟨0, 0⟩])
      some ⟨setPortalAreas w s.portalareas w.leafs s.area, s.portalareas, c, out.1, out.2, nums⟩

end Verif.Flood
