import Verif.Common.Outcome

/-!
Model of how qbsp makes the portals between the leafs of a tree (qbsp/portals.cc:108-120, 129-187, 230-383, 446-567).

Simplifications: windings are abstract, with the operations that make and clip them as parameters; node addresses are
numbers; the counters of tiny portals and the bounds of nodes are left out. The front and the back of a node are
portalized in parallel, but they share no data.
-/

namespace Verif.Flood

/-- `node_t`: leafs and nodes with their address, `detail_separator`, the front child and the back child
(include/qbsp/qbsp.hh:395-437). -/
inductive PTree where
  | leaf (id : Nat)
  | node (id : Nat) (detail : Bool) (front back : PTree)
  deriving DecidableEq

/-- The address of a node. -/
def PTree.id : PTree → Nat
  | .leaf i => i
  | .node i _ _ _ => i

/-- `buildportal_t` (include/qbsp/portals.hh:42-66): the nodes in front and behind, the node on whose plane the portal
lies (none for the six portals around the map) and the winding. -/
structure BuildPortal (W : Type) where
  n0 : Nat
  n1 : Nat
  onnode : Option Nat
  winding : W
  deriving DecidableEq

/-- The operations on windings: the winding of the plane of a node clipped by its parents and the portals around it
(`MakeNodePortal` without the last test), clipping by the plane of a node, and `WindingIsTiny`. -/
structure Ops (W : Type) where
  base : Nat → List (BuildPortal W) → Option W
  clip : Nat → W → Option W × Option W
  tiny : W → Bool

variable {W : Type}

/-- `MakeNodePortal` (qbsp/portals.cc:230-271). -/
def makeNodePortal (ops : Ops W) (node : Nat) (f b : Nat) (boundary : List (BuildPortal W)) :
    Outcome (Option (BuildPortal W)) :=
  if boundary.all fun p => p.n0 = node || p.n1 = node then
    match ops.base node boundary with
    | none => .ok none
    | some w => if ops.tiny w then .ok none else .ok (some ⟨f, b, some node, w⟩)
  else .error

/-- A winding that is not tiny (qbsp/portals.cc:310-318). -/
def notTiny (ops : Ops W) (w : Option W) : Option W := w.filter fun w => !ops.tiny w

/-- The portal `p` with the side of `node` replaced (qbsp/portals.cc:325-328, 334-337, 352-358). -/
def attach (p : BuildPortal W) (front : Bool) (n : Nat) : BuildPortal W :=
  if front then { p with n0 := n } else { p with n1 := n }

/-- `SplitNodePortals` (qbsp/portals.cc:281-365) for one portal: the portals for the front child and for the back
child. `front`: `node` is in front of the portal. -/
def splitOne (ops : Ops W) (node f b : Nat) (p : BuildPortal W) :
    Outcome (List (BuildPortal W) × List (BuildPortal W)) :=
  if p.n0 = node ∨ p.n1 = node then
    let front : Bool := p.n0 = node
    let c := ops.clip node p.winding
    match notTiny ops c.1, notTiny ops c.2 with
    | none, none => .ok ([], [])
    | none, some _ => .ok ([], [attach p front b])
    | some _, none => .ok ([attach p front f], [])
    | some fw, some bw => .ok ([{ attach p front f with winding := fw }], [{ attach p front b with winding := bw }])
  else .error

/-- `SplitNodePortals` (qbsp/portals.cc:281-365). -/
def splitNodePortals (ops : Ops W) (node f b : Nat) :
    List (BuildPortal W) → Outcome (List (BuildPortal W) × List (BuildPortal W))
  | [] => .ok ([], [])
  | p :: ps => do
    let r ← splitOne ops node f b p
    let rs ← splitNodePortals ops node f b ps
    .ok (r.1 ++ rs.1, r.2 ++ rs.2)

/-- `ClipNodePortalsToTree_r` (qbsp/portals.cc:446-467). `vis`: `portaltype_t::VIS`. -/
def clipToTree (ops : Ops W) (vis : Bool) : PTree → List (BuildPortal W) → Outcome (List (BuildPortal W))
  | .leaf _, ps => .ok ps
  | .node i detail f b, ps =>
    if ps.isEmpty then .ok ps
    else if vis && detail then .ok ps
    else do
      let s ← splitNodePortals ops i f.id b.id ps
      let fs ← clipToTree ops vis f s.1
      let bs ← clipToTree ops vis b s.2
      .ok (fs ++ bs)

/-- `MakeTreePortals_r` (qbsp/portals.cc:476-528). -/
def makeTreePortals (ops : Ops W) (vis : Bool) : PTree → List (BuildPortal W) → Outcome (List (BuildPortal W))
  | .leaf _, ps => .ok ps
  | .node i detail f b, ps =>
    if vis && detail then .ok ps
    else do
      let np ← makeNodePortal ops i f.id b.id ps
      let s ← splitNodePortals ops i f.id b.id ps
      let fs ← makeTreePortals ops vis f s.1
      let bs ← makeTreePortals ops vis b s.2
      let on ← (match np with
        | none => .ok []
        | some p => do
          let half ← clipToTree ops vis f [p]
          clipToTree ops vis b half)
      .ok (fs ++ bs ++ on)

/-- `MakeHeadnodePortals` (qbsp/portals.cc:129-187): the six portals around the map. `sides`: for each plane whether
it was flipped, and the winding. -/
def headnodePortals (head outside : Nat) (sides : List (Bool × W)) : List (BuildPortal W) :=
  sides.map fun s => if s.1 then ⟨outside, head, none, s.2⟩ else ⟨head, outside, none, s.2⟩

/-! ## The lists of portals -/

/-- `portal_t`: the nodes on both sides (none: not included yet), the next portals in their lists, and the node on
whose plane it lies (include/qbsp/portals.hh:42-66). -/
structure LPortal where
  nodes : Option (Nat × Nat)
  next0 : Option Nat
  next1 : Option Nat
  onnode : Option Nat
  deriving DecidableEq

/-- The portals (`tree.portals`) and, for each node, the first portal of its list (`node->portals`). -/
structure Links where
  portals : List LPortal
  heads : Nat → Option Nat

/-- `AddPortalToNodes` (qbsp/portals.cc:108-120) for the portal `k`. -/
def addPortal (k front back : Nat) (s : Links) : Outcome Links := do
  let p ← Outcome.readAt s.portals k
  match p.nodes with
  | some _ => .error
  | none =>
    let next0 := s.heads front
    let heads1 : Nat → Option Nat := fun v => if v = front then some k else s.heads v
    let next1 := heads1 back
    let heads2 : Nat → Option Nat := fun v => if v = back then some k else heads1 v
    .ok ⟨s.portals.set k { p with nodes := some (front, back), next0 := next0, next1 := next1 }, heads2⟩

/-- `MakePortalsFromBuildportals` (qbsp/portals.cc:372-383). -/
def linkAll : List (BuildPortal W) → Links → Outcome Links
  | [], s => .ok s
  | p :: ps, s => do
    let k := s.portals.length
    let s' ← addPortal k p.n0 p.n1 { s with portals := s.portals ++ [⟨none, none, none, p.onnode⟩] }
    linkAll ps s'

/-- The state after `FreeTreePortals` (qbsp/tree.cc:73-85). -/
def Links.empty : Links := ⟨[], fun _ => none⟩

/-- `for (portal = node->portals; portal; portal = portal->next[!side])` (qbsp/outside.cc:186-187): the numbers of the
portals in the order of the visits. `none`: the loop did not end within `fuel` iterations. -/
def walkList (s : Links) (v : Nat) : Nat → Option Nat → Option (Outcome (List Nat))
  | _, none => some (.ok [])
  | 0, some _ => none
  | fuel + 1, some k =>
    match s.portals[k]? with
    | none => some .ub
    | some p =>
      let next := if p.nodes.map (·.1) = some v then p.next0 else p.next1
      match walkList s v fuel next with
      | some (.ok l) => some (.ok (k :: l))
      | r => r

/-! ## The graph of leafs and portals -/

/-- A portal that is included: its two nodes and the node on whose plane it lies. -/
structure Portal where
  n0 : Nat
  n1 : Nat
  onnode : Option Nat
  deriving DecidableEq

/-- The portals of a list of build portals. -/
def toPortals (ps : List (BuildPortal W)) : List Portal := ps.map fun p => ⟨p.n0, p.n1, p.onnode⟩

/-- The portals of a node in the order of its list: the last one added comes first (`link_lists` in PortalProps.lean
proves that the walks see this list). -/
def portalsOf (ps : List Portal) (v : Nat) : List (Nat × Portal) :=
  (ps.zipIdx.filter fun x => x.1.n0 = v || x.1.n1 = v).reverse.map fun x => (x.2, x.1)

/-- `side = (portal->nodes[0] == node); neighbour = portal->nodes[side]` (qbsp/outside.cc:187-192). -/
def across (p : Portal) (v : Nat) : Nat := if p.n0 = v then p.n1 else p.n0

end Verif.Flood
