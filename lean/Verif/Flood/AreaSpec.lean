import Verif.Flood.Areas
import Verif.Flood.Spec

/-!
What the areas of a Quake II map are, in terms of leafs, portals and contents bits only.
-/

namespace Verif.Flood.Spec

open Contents

/-- Structural solid: bit 0 is solid, bit 14 detail. -/
def Solid (c : Contents) : Prop := c.getLsbD 0 = true ∧ c.getLsbD 14 = false

/-- The leaf belongs to an area portal (bit 12). -/
def InPortal (c : Contents) : Prop := c.getLsbD 12 = true

/-- A portal between two leafs neither of which is structural solid. -/
def Passage (contents : Nat → Contents) (p : Portal) : Prop := ¬ Solid (contents p.n0) ∧ ¬ Solid (contents p.n1)

/-- A passage that does not touch an area portal. -/
def AreaOpen (contents : Nat → Contents) (p : Portal) : Prop :=
  Passage contents p ∧ ¬ InPortal (contents p.n0) ∧ ¬ InPortal (contents p.n1)

/-- A leaf that is certain to get an area: an entity reaches it, and it is neither solid nor in an area portal. -/
def Start (w : AreaMap) (v : Nat) : Prop :=
  v ∈ w.leafs ∧ w.occupied v ≠ 0 ∧ (w.contents v).getLsbD 0 = false ∧ ¬ InPortal (w.contents v)

/-- The area portal entity of a leaf: that of the first of its brushes that has one. -/
def EntityOf (bs : List (Option Nat)) (e : Nat) : Prop := ∃ pre post, bs = pre ++ some e :: post ∧ ∀ x ∈ pre, x = none

/-- A leaf of area `i` lies next to a leaf of the area portal `e`. -/
def Beside (w : AreaMap) (area : Nat → Nat) (e i : Nat) : Prop :=
  0 < i ∧ ∃ u v p, p ∈ w.portals ∧ Between p u v ∧ Passage w.contents p ∧ area u = i ∧ InPortal (w.contents v) ∧
    ¬ InPortal (w.contents u) ∧ EntityOf (w.brushes v) e

/-- The two smallest numbers with the property `P`, smallest first, and 0 for those that are missing. -/
def FirstTwo (P : Nat → Prop) (a : Nat × Nat) : Prop :=
  (a = (0, 0) ∧ ∀ i, ¬ P i) ∨ (∃ x, a = (x, 0) ∧ P x ∧ ∀ i, P i → i = x) ∨
    (a.1 < a.2 ∧ P a.1 ∧ P a.2 ∧ ∀ i, P i → i = a.1 ∨ i = a.2 ∨ a.2 < i)

/-- The records of area `i`, in the order of the entities: for each area portal (its number is not 0) that bounds the
area, the number and the area on the other side. An entity is its number and its two areas. -/
def Records (i : Nat) (es : List (Nat × (Nat × Nat))) : List DAreaPortal :=
  es.filterMap fun e =>
    if e.1 = 0 then none
    else if e.2.1 = i then some ⟨e.1, e.2.2⟩
    else if e.2.2 = i then some ⟨e.1, e.2.1⟩
    else none

/-- What the portals of a tree are like (`tree_portals`, `joins_ne` in PortalProps.lean); the outside is solid
(qbsp/portals.cc:139). -/
structure AreaWellFormed (w : AreaMap) : Prop where
  ends : ∀ p ∈ w.portals, (p.n0 ∈ w.leafs ∨ p.n0 = w.outside) ∧ (p.n1 ∈ w.leafs ∨ p.n1 = w.outside)
  outside : Solid (w.contents w.outside)

instance (c : Contents) : Decidable (Solid c) := by unfold Solid; infer_instance
instance (c : Contents) : Decidable (InPortal c) := by unfold InPortal; infer_instance

end Verif.Flood.Spec
