import Verif.Flood.Spec
import Verif.Flood.Exits

/-!
What the leak line of an area portal is about.
-/

namespace Verif.Flood.Spec

open Contents

/-- A portal within an area portal. -/
def Within (contents : Nat → Contents) (p : Portal) : Prop :=
  tst (contents p.n0) AREAPORTAL = true ∧ tst (contents p.n1) AREAPORTAL = true

/-- A leaf one can be in outside of area portals. -/
def Free (contents : Nat → Contents) (v : Nat) : Prop := tst (contents v) AREAPORTAL = false ∧ Q2.isSolid (contents v) = false

/-- The portal `q.1` leads from the area portal that the leaf `n` belongs to into the leaf `q.2`. -/
def Exit (contents : Nat → Contents) (ps : List Portal) (n : Nat) (q : Nat × Nat) : Prop :=
  ∃ p m, ps[q.1]? = some p ∧ Reaches (Within contents) ps n m ∧ Between p m q.2 ∧ Free contents q.2

/-- A portal outside of solid and of area portals. -/
def Passable (contents : Nat → Contents) (p : Portal) : Prop := Free contents p.n0 ∧ Free contents p.n1

/-- `path` has the leafs of a shortest way. -/
def Shortest (contents : Nat → Contents) (ps : List Portal) (a b : Nat) (path : List Nat) : Prop :=
  ∃ ks, Chain (Passable contents) ps a ks path b ∧ ∀ ks' vs', Chain (Passable contents) ps a ks' vs' b → ks.length ≤ ks'.length

end Verif.Flood.Spec
