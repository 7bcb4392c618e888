import Verif.Vis.Flow

/-!
Model of the portal scheduler of vis: `GetNextPortal`, `UpdateMightsee`, `PortalCompleted`,
`LeafThread`, `CalcPortalVis` (vis/vis.cc) as an interleaving machine.

What is under `portal_mutex` is one step.  A running `PortalFlow` reads the bits of other portals
without the lock; it may see, for every bit read, any value that bit had since the flow was started.
Sequential consistency of those reads is assumed.  The periodic `SaveVisState` has no effect on the
portals and is not a step; what is loaded from such a file is `resume`.
-/

namespace Verif.Vis

variable {Leaf Portal W C : Type} [DecidableEq Leaf] [DecidableEq Portal]

/-- `pstatus_t` (include/vis/vis.hh). -/
inductive PStat | none | working | done
  deriving DecidableEq

/-- `visportal_t` (include/vis/vis.hh:134-143) without geometry.  `num` is `nummightsee` read as
the `uint32_t` it is compared as. -/
structure PS (Leaf : Type) where
  status : PStat
  might : Leaf → Bool
  num : Nat
  vis : Leaf → Bool

/-- Replace the record of one portal. -/
def upd (ps : Portal → PS Leaf) (p : Portal) (v : PS Leaf) : Portal → PS Leaf :=
  fun q => if q = p then v else ps q

/-- Loop of `GetNextPortal` (vis/vis.cc:242-247): `min` and `ret` so far. -/
def getNextLoop (ps : Portal → PS Leaf) : List Portal → Nat → Option Portal → Option Portal
  | [], _, ret => ret
  | p :: rest, min, ret =>
    if (ps p).num < min ∧ (ps p).status = .none then getNextLoop ps rest (ps p).num (some p)
    else getNextLoop ps rest min ret

/-- `GetNextPortal` (vis/vis.cc:234-255) without the final status change; `INT_MAX` is 2^31-1. -/
def getNext (G : Graph Leaf Portal) (ps : Portal → PS Leaf) : Option Portal :=
  getNextLoop ps G.portals (2 ^ 31 - 1) none

/-- One turn of the loop of `UpdateMightsee` (vis/vis.cc:272-281). -/
def updateOne (M : Leaf) (ps : Portal → PS Leaf) (p : Portal) : Portal → PS Leaf :=
  if (ps p).status ≠ .none then ps
  else if (ps p).might M then
    upd ps p { ps p with might := fun L => if L = M then false else (ps p).might L,
                         num := ((ps p).num + (2 ^ 32 - 1)) % 2 ^ 32 }
  else ps

/-- `UpdateMightsee(source, dest)` (vis/vis.cc:269-282). -/
def updateMightsee (G : Graph Leaf Portal) (source dest : Leaf) (ps : Portal → PS Leaf) :
    Portal → PS Leaf :=
  (G.out source).foldl (updateOne dest) ps

/-- Does leaf bit `X` of `changed` survive for portal `p` of leaf `M` (vis/vis.cc:313-331)?
The C++ skips the portal with the same index; a portal equal to `p` would clear nothing more. -/
def survives (G : Graph Leaf Portal) (ps : Portal → PS Leaf) (M : Leaf) (p : Portal) (X : Leaf) : Bool :=
  (ps p).might X && !(ps p).vis X &&
  (G.out M).all (fun p2 => p2 = p ||
    (if (ps p2).status = .done then !(ps p2).vis X else !(ps p2).might X))

/-- One block of leafs in `PortalCompleted` (vis/vis.cc:312-342): `changed` is computed first, then
the surviving bits are propagated. -/
def completedBlock (G : Graph Leaf Portal) (M : Leaf) (p : Portal) (ps : Portal → PS Leaf)
    (block : List Leaf) : Portal → PS Leaf :=
  (block.filter (survives G ps M p)).foldl (fun ps X => updateMightsee G X M ps) ps

/-- One portal of the leaf in `PortalCompleted` (vis/vis.cc:305-343). -/
def completedPortal (G : Graph Leaf Portal) (M : Leaf) (ps : Portal → PS Leaf) (p : Portal) :
    Portal → PS Leaf :=
  if (ps p).status ≠ .done then ps else G.blocks.foldl (completedBlock G M p) ps

/-- `PortalCompleted` (vis/vis.cc:294-347). -/
def portalCompleted (G : Graph Leaf Portal) (ps : Portal → PS Leaf) (c : Portal) : Portal → PS Leaf :=
  let ps := upd ps c { ps c with status := .done }
  (G.out (G.dest c)).foldl (completedPortal G (G.dest c)) ps

/-- The values a bit of another portal may be read with in state `ps` by `RecursiveLeafFlow`
(vis/flow.cc:420-428): a done portal's `visbits`, or `mightsee` (also of a portal that becomes done
between the status test and the read). -/
def readable (ps : Portal → PS Leaf) (q : Portal) (L : Leaf) (b : Bool) : Prop :=
  b = (ps q).might L ∨ ((ps q).status = .done ∧ b = (ps q).vis L)

/-- Values observable by a flow since it started. -/
def Obs (Leaf Portal : Type) := Portal → Leaf → Bool → Prop

/-- The whole machine: portals, `LeafThread` calls not yet started, portals handed out whose flow has
not begun, running flows, the log of flows begun, and whether the "reflowed" error was hit. -/
structure Sys (Leaf Portal : Type) where
  ps : Portal → PS Leaf
  pending : Nat
  taken : List Portal
  active : List (Portal × Obs Leaf Portal)
  flowed : List Portal
  reflowed : Bool

/-- Let all running flows see the current state. -/
def observe (s : Sys Leaf Portal) : Sys Leaf Portal :=
  { s with active := s.active.map fun x => (x.1, fun q L b => x.2 q L b ∨ readable s.ps q L b) }

/-- One step of one thread; `w`: the winding tests, fixed for a map. -/
inductive Step (G : Graph Leaf Portal) (w : Tests Portal W C) : Sys Leaf Portal → Sys Leaf Portal → Prop
  /-- `LeafThread` gets a portal (vis/vis.cc:369). -/
  | take (s : Sys Leaf Portal) (n : Nat) (p : Portal) (hn : s.pending = n + 1)
      (hp : getNext G s.ps = some p) :
      Step G w s (observe { s with ps := upd s.ps p { s.ps p with status := .working }, pending := n,
                                   taken := p :: s.taken })
  /-- `LeafThread` finds no portal and returns (vis/vis.cc:370-371). -/
  | idle (s : Sys Leaf Portal) (n : Nat) (hn : s.pending = n + 1) (hp : getNext G s.ps = none) :
      Step G w s (observe { s with pending := n })
  /-- `PortalFlow` begins (vis/flow.cc:526). -/
  | start (s : Sys Leaf Portal) (a b : List Portal) (p : Portal) (ht : s.taken = a ++ p :: b)
      (hw : (s.ps p).status = .working) :
      Step G w s (observe { s with taken := a ++ b, active := (p, fun _ _ _ => False) :: s.active,
                                   flowed := p :: s.flowed })
  /-- `PortalFlow` finds the portal not marked as being worked on and fails (vis/flow.cc:526-527). -/
  | reflow (s : Sys Leaf Portal) (a b : List Portal) (p : Portal) (ht : s.taken = a ++ p :: b)
      (hw : (s.ps p).status ≠ .working) :
      Step G w s (observe { s with taken := a ++ b, reflowed := true })
  /-- `PortalFlow` returns and `PortalCompleted` runs (vis/vis.cc:373-375). -/
  | finish (s : Sys Leaf Portal) (a b : List (Portal × Obs Leaf Portal)) (p : Portal)
      (obs : Obs Leaf Portal) (o : Oracle Leaf Portal W C) (ha : s.active = a ++ (p, obs) :: b)
      (hc : o.w = w) (hobs : ∀ t q L, obs q L (o.test t q L)) :
      Step G w s (observe { s with
        ps := portalCompleted G
          (upd s.ps p { s.ps p with vis := portalFlow G o p (s.ps p).might }) p,
        active := a ++ b })

/-- Finite executions. -/
inductive Steps (G : Graph Leaf Portal) (w : Tests Portal W C) : Sys Leaf Portal → Sys Leaf Portal → Prop
  | refl (s) : Steps G w s s
  | step {s t u} : Steps G w s t → Step G w t u → Steps G w s u

/-- `CalcPortalVis` (vis/vis.cc:498-514) starts one `LeafThread` call for every portal that is not
done. -/
def start (G : Graph Leaf Portal) (ps : Portal → PS Leaf) : Sys Leaf Portal :=
  { ps := ps, pending := G.portals.length - G.portals.countP (fun p => (ps p).status = .done),
    taken := [], active := [], flowed := [], reflowed := false }

/-- All `LeafThread` calls have returned. -/
def Finished (s : Sys Leaf Portal) : Prop := s.pending = 0 ∧ s.taken = [] ∧ s.active = []

/-- The portals after `BasePortalVis` (vis/flow.cc:573-655). -/
def basePS (G : Graph Leaf Portal) (front : Portal → Portal → Bool) : Portal → PS Leaf := fun p =>
  { status := .none, might := (basePortal G front p).1, num := (basePortal G front p).2,
    vis := fun _ => false }

/-- The portals after saving the state at any moment and loading it again (vis/state.cc; the file
itself is modelled in `Verif.VisState`): only done portals keep their `visbits`, portals being
worked on start over. -/
def resume (ps : Portal → PS Leaf) : Portal → PS Leaf := fun p =>
  if (ps p).status = .done then ps p else { ps p with status := .none, vis := fun _ => false }

/-- `fast` mode (vis/vis.cc:490-496). -/
def fastPS (ps : Portal → PS Leaf) : Portal → PS Leaf := fun p =>
  { ps p with vis := (ps p).might, status := .done }

end Verif.Vis
