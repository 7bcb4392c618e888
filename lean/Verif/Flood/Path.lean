import Verif.Flood.Outside

/-!
Model of the search for a shortest path between two leafs (qbsp/portals.cc:718-764), which draws the leak line of an area
portal that does not separate two areas.
-/

namespace Verif.Flood

/-- The queue, `queue_set` and `parent` (qbsp/portals.cc:720-722). -/
structure PathState where
  queue : List Nat
  seen : List Nat
  parent : Nat → Option Nat

/-- The loop over the portals of `node` (qbsp/portals.cc:744-758), given the leafs behind the passable portals. -/
def enqueue (node : Nat) : List Nat → PathState → PathState
  | [], s => s
  | w :: ws, s =>
    if w ∈ s.seen then enqueue node ws s
    else enqueue node ws ⟨s.queue ++ [w], w :: s.seen, setAt s.parent w (some node)⟩

/-- The main loop (qbsp/portals.cc:727-759): `some (some parent)` if it reached `b`, `some none` if the queue ran
empty. -/
def pathLoop (pass : Portal → Bool) (ps : List Portal) (b : Nat) : Nat → PathState → Option (Option (Nat → Option Nat))
  | fuel, s =>
    match s.queue with
    | [] => some none
    | node :: q =>
      match fuel with
      | 0 => none
      | fuel + 1 =>
        if node = b then some (some s.parent)
        else
          pathLoop pass ps b fuel (enqueue node ((neighbours pass ps node).map (·.2)) { s with queue := q })

/-- `for (n = b;; n = parent.at(n))` (qbsp/portals.cc:733-739). `parent.at` throws on a missing entry. -/
def extractPath (a : Nat) (parent : Nat → Option Nat) : Nat → Nat → List Nat → Option (Outcome (List Nat))
  | fuel, n, acc =>
    if n = a then some (.ok (n :: acc))
    else
      match parent n with
      | none => some .error
      | some p =>
        match fuel with
        | 0 => none
        | fuel + 1 => extractPath a parent fuel p (n :: acc)

/-- `FindShortestPath` (qbsp/portals.cc:718-764). -/
def findShortestPath (pass : Portal → Bool) (ps : List Portal) (a b : Nat) (fuel : Nat) : Option (Outcome (List Nat)) :=
  match pathLoop pass ps b fuel ⟨[a], [a], fun _ => none⟩ with
  | none => none
  | some none => some (.ok [])
  | some (some parent) => extractPath a parent fuel b []

end Verif.Flood
