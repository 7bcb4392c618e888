import Verif.Contents.Model
import Verif.Flood.Outside

/-!
What outside filling is about, in terms of leafs, portals and contents bits only.
-/

namespace Verif.Flood.Spec

open Contents

/-- A leaf that seals the map: structural solid, or (Quake) sky. Bit 0 is solid, bit 1 sky, bit 14 detail. -/
def Seals (g : Game) (c : Contents) : Prop :=
  (c.getLsbD 0 = true ∧ c.getLsbD 14 = false) ∨ (g = .q1 ∧ c.getLsbD 1 = true)

/-- A leaf that is opaque for detail filling: any solid, or (Quake) sky. -/
def Opaque (g : Game) (c : Contents) : Prop :=
  c.getLsbD 0 = true ∨ (g = .q1 ∧ c.getLsbD 1 = true)

/-- The portal has `u` on one side and `v` on the other. -/
def Between (p : Portal) (u v : Nat) : Prop := (p.n0 = u ∧ p.n1 = v) ∨ (p.n1 = u ∧ p.n0 = v)

/-- A portal through which one can leave or enter the void: it lies inside the map and neither side seals. -/
def Open (g : Game) (contents : Nat → Contents) (p : Portal) : Prop :=
  p.onnode ≠ none ∧ ¬ Seals g (contents p.n0) ∧ ¬ Seals g (contents p.n1)

/-- The same for detail filling. -/
def OpenDetail (g : Game) (contents : Nat → Contents) (p : Portal) : Prop :=
  p.onnode ≠ none ∧ ¬ Opaque g (contents p.n0) ∧ ¬ Opaque g (contents p.n1)

/-- A chain of portals, each of which satisfies `ok`: it starts in leaf `u`, crosses the portals numbered `ks` one after
the other, visits the leafs `vs` (including both ends) and ends in leaf `v`. -/
inductive Chain (ok : Portal → Prop) (ps : List Portal) : Nat → List Nat → List Nat → Nat → Prop
  | nil (v : Nat) : Chain ok ps v [] [v] v
  | cons (u k w v : Nat) (p : Portal) (ks vs : List Nat) : ps[k]? = some p → ok p → Between p u w →
      Chain ok ps w ks vs v → Chain ok ps u (k :: ks) (u :: vs) v

/-- One can get from `u` to `v`. -/
def Reaches (ok : Portal → Prop) (ps : List Portal) (u v : Nat) : Prop := ∃ ks vs, Chain ok ps u ks vs v

/-- `d` is the smallest number of portals between `v` and a leaf of `S`. -/
def Nearest (ok : Portal → Prop) (ps : List Portal) (S : Nat → Prop) (v d : Nat) : Prop :=
  (∃ s ks vs, S s ∧ Chain ok ps s ks vs v ∧ ks.length = d) ∧ ∀ s ks vs, S s → Chain ok ps s ks vs v → d ≤ ks.length

/-- Entity `i` counts for the leaf `v`: it is not the world, not at the origin, not exempt, and `v` is its leaf and does
not seal. -/
def Occupies (g : Game) (w : Map) (i v : Nat) : Prop :=
  ∃ e, w.ents[i]? = some e ∧ i ≠ 0 ∧ e.atOrigin = false ∧ e.nofill = false ∧ e.leaf = v ∧ ¬ Seals g (w.contents v)

/-- A leaf with an entity in it. -/
def Occupied (g : Game) (w : Map) (v : Nat) : Prop := ∃ i, Occupies g w i v

/-- A leaf on the rim of the map: a portal joins it with the outside. -/
def Rim (w : Map) (v : Nat) : Prop := ∃ p ∈ w.portals, Between p w.outside v

/-- What the portals of a tree are like (`tree_portals`, `joins_ne` in PortalProps.lean): every portal joins two
different nodes; the ones that do not lie on the plane of a node lead outside, the others join two leafs; entities are
in leafs. -/
structure WellFormed (w : Map) : Prop where
  ne : ∀ p ∈ w.portals, p.n0 ≠ p.n1
  inner : ∀ p ∈ w.portals, p.onnode ≠ none → p.n0 ∈ w.leafs ∧ p.n1 ∈ w.leafs
  outer : ∀ p ∈ w.portals, p.onnode = none →
    (p.n0 = w.outside ∧ p.n1 ∈ w.leafs) ∨ (p.n1 = w.outside ∧ p.n0 ∈ w.leafs)
  notLeaf : w.outside ∉ w.leafs
  rim : ∃ v, Rim w v
  ents : ∀ e ∈ w.ents, e.leaf ∈ w.leafs

instance (g : Game) (c : Contents) : Decidable (Seals g c) := by unfold Seals; infer_instance
instance (g : Game) (c : Contents) : Decidable (Opaque g c) := by unfold Opaque; infer_instance
instance (g : Game) (c : Nat → Contents) (p : Portal) : Decidable (Open g c p) := by unfold Open; infer_instance

end Verif.Flood.Spec
