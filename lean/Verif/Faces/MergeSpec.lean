import Verif.Faces.Merge
import Verif.Faces.OutlineSpec

/-! What it means that a polygon in space is convex, and its area, as seen along a normal. -/

namespace Verif.Faces.Spec

open Geom

variable {K : Type} [Field K] [LinearOrder K] [IsStrictOrderedRing K]

/-- How the path `a b c` turns as seen along `n`: the signed area of the parallelogram. -/
def turn (n a b c : Vec K) : K := dot n (cross (vsub b a) (vsub c a))

/-- A convex polygon: any three of its vertices in their order turn clockwise or are on a line. -/
def Convex (n : Vec K) (ps : List (Vec K)) : Prop := ∀ a b c, [a, b, c].Sublist ps → turn n a b c ≤ 0

/-- Twice the area of a polygon as seen along `n`. -/
def vecArea (n : Vec K) (ps : List (Vec K)) : K := ((edgesOf ps).map fun e => dot n (cross e.1 e.2)).sum

/-- How two polygons share the edge from vertex `i` of the first to the next one, which is the edge from vertex `j` of the
second to the next one in the other direction: exactly, and no other vertex is on the line of the edge. -/
structure SharedEdge (n : Vec K) (w1 w2 : List (Vec K)) (i j : Nat) : Prop where
  len1 : 3 ≤ w1.length
  len2 : 3 ≤ w2.length
  start : vat w1 i = vat w2 (j + 1)
  stop : vat w1 (i + 1) = vat w2 j
  strict1 : ∀ k, k < w1.length → k ≠ i → k ≠ (i + 1) % w1.length → turn n (vat w1 i) (vat w1 (i + 1)) (vat w1 k) < 0
  strict2 : ∀ k, k < w2.length → k ≠ j → k ≠ (j + 1) % w2.length → turn n (vat w2 j) (vat w2 (j + 1)) (vat w2 k) < 0

/-- The borders meet without need for the tolerance: at neither end of the shared edge the merged border turns the wrong
way, and an end that is left out (`keep1`, `keep2` false) is on the line between its neighbours. -/
structure MeetExactly (n : Vec K) (w1 w2 : List (Vec K)) (i j : Nat) (keep1 keep2 : Prop) : Prop where
  turn1 : turn n (vat w1 (i + w1.length - 1)) (vat w1 i) (vat w2 (j + 2)) ≤ 0
  turn2 : turn n (vat w2 (j + w2.length - 1)) (vat w1 (i + 1)) (vat w1 (i + 2)) ≤ 0
  line1 : ¬ keep1 → turn n (vat w1 (i + w1.length - 1)) (vat w1 i) (vat w2 (j + 2)) = 0
  line2 : ¬ keep2 → turn n (vat w2 (j + w2.length - 1)) (vat w1 (i + 1)) (vat w1 (i + 2)) = 0

/-- The faces of a list cannot be merged with each other. -/
def Unmergeable {F : Type} (try' : F → F → Option F) (l : List F) : Prop := l.Pairwise fun a b => try' b a = none

end Verif.Faces.Spec
