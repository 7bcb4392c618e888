import Verif.Flood.Outside

/-!
Model of the marking of visible brush sides (qbsp/outside.cc:408-471, 813-823).

Simplification: `touch v k` stands for the sources of the sides of the original brushes of leaf `v` that are coplanar
with portal `k` (the outside node has no brushes); a source is a number.
-/

namespace Verif.Flood

open Contents

/-- `MarkBrushSidesInvisible` (qbsp/outside.cc:408-421): the sides of a brush, with their source if they have one. -/
def markSidesInvisible (hint : Nat → Bool) : List (Option Nat) → (Nat → Bool) → (Nat → Bool)
  | [], vis => vis
  | none :: ss, vis => markSidesInvisible hint ss vis
  | some s :: ss, vis =>
    let vis' := setAt vis s false
    markSidesInvisible hint ss (if hint s then setAt vis' s true else vis')

/-- Setting some sides visible (qbsp/outside.cc:456-466). -/
def showSides : List Nat → (Nat → Bool) → (Nat → Bool)
  | [], vis => vis
  | s :: ss, vis => showSides ss (setAt vis s true)

/-- The loop over the portals of a leaf (qbsp/outside.cc:447-470). -/
def showPortals (touch : Nat → Nat → List Nat) (v : Nat) : List (Nat × Portal) → (Nat → Bool) → (Nat → Bool)
  | [], vis => vis
  | (k, p) :: rest, vis => showPortals touch v rest (showSides (touch (across p v) k) vis)

/-- `MarkVisibleBrushSides_R` (qbsp/outside.cc:430-471) for all leafs of the tree. -/
def markSidesVisible (g : Game) (contents : Nat → Contents) (ps : List Portal) (touch : Nat → Nat → List Nat) :
    List Nat → (Nat → Bool) → (Nat → Bool)
  | [], vis => vis
  | v :: vs, vis =>
    if g.sealsDetail (contents v) then markSidesVisible g contents ps touch vs vis
    else markSidesVisible g contents ps touch vs (showPortals touch v (portalsOf ps v) vis)

/-- The end of `FillOutside` (qbsp/outside.cc:796-798), of `FillDetail` (qbsp/outside.cc:855-857), and
`FillBrushEntity` (qbsp/outside.cc:820-822); `contents` are the contents after filling. -/
def markSides (g : Game) (contents : Nat → Contents) (ps : List Portal) (leafs : List Nat) (touch : Nat → Nat → List Nat)
    (hint : Nat → Bool) (sides : List (Option Nat)) (vis : Nat → Bool) : Nat → Bool :=
  markSidesVisible g contents ps touch leafs (markSidesInvisible hint sides vis)

end Verif.Flood
