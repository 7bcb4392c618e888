import Verif.Flood.Areas
import Verif.Flood.Path

/-!
Model of the leak line of an area portal that does not separate two areas (qbsp/portals.cc:766-882).

Simplifications: as in Outside.lean and Path.lean. The file the line is written to is left out; `WriteLeakTrail` is C82's.
-/

namespace Verif.Flood

open Contents

/-- `visited` and `exits` (qbsp/portals.cc:807-808). -/
structure ExitState where
  visited : List Nat
  exits : List (Nat × Nat)

/-- A portal of a leaf (qbsp/portals.cc:775-798): `next` is the leaf behind it, `rec` the search from there. -/
def exitStep (contents : Nat → Contents) (rec : Nat → ExitState → Option ExitState) (s : ExitState) (q : Nat × Nat) : Option ExitState :=
  if q.2 ∈ s.visited then some s
  else if !inAreaPortal contents q.2 && !Q2.isSolid (contents q.2) then some { s with exits := s.exits ++ [q] }
  else if !inAreaPortal contents q.2 then some s
  else rec q.2 s

/-- `FindAreaPortalExits_R` (qbsp/portals.cc:768-799). `none`: the recursion is deeper than `fuel`. -/
def findExits (contents : Nat → Contents) (ps : List Portal) : Nat → Nat → ExitState → Option ExitState
  | 0, _, _ => none
  | fuel + 1, n, s =>
    (neighbours (fun _ => true) ps n).foldlM (exitStep contents (findExits contents ps fuel)) { s with visited := n :: s.visited }

/-- `FindAreaPortalExits` (qbsp/portals.cc:805-813). -/
def areaPortalExits (contents : Nat → Contents) (ps : List Portal) (n fuel : Nat) : Option (List (Nat × Nat)) :=
  (findExits contents ps fuel n ⟨[], []⟩).map (·.exits)

/-- The portals the line may cross (qbsp/portals.cc:838-848). -/
def leakPassable (contents : Nat → Contents) (p : Portal) : Bool :=
  entityFlood contents p && !(inAreaPortal contents p.n0 || inAreaPortal contents p.n1)

/-- The loop over the other exits (qbsp/portals.cc:832-854): the longest of the shortest paths. -/
def longestPath (contents : Nat → Contents) (ps : List Portal) (a fuel : Nat) : List (Nat × Nat) → List Nat → Option (Outcome (List Nat))
  | [], best => some (.ok best)
  | e :: t, best =>
    match findShortestPath (leakPassable contents) ps a e.2 fuel with
    | some (.ok path) => longestPath contents ps a fuel t (if path.length > best.length then path else best)
    | x => x

/-- `DebugAreaPortalBothSidesLeak` (qbsp/portals.cc:818-882): the leafs of the line, `none` without one. -/
def bothSidesLeak (contents : Nat → Contents) (ps : List Portal) (n fuel : Nat) : Option (Outcome (Option (List Nat))) :=
  match areaPortalExits contents ps n fuel with
  | none => none
  | some [] => some (.ok none)
  | some [_] => some (.ok none)
  | some (e :: rest) => (longestPath contents ps e.2 fuel rest []).map fun x => x >>= fun path => .ok (some path)

end Verif.Flood
