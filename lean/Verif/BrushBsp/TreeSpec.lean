import Verif.BrushBsp.Model
import Mathlib.Data.List.Dedup

/-! Specification of the tree: paths, the leaf of a point, the points of a brush. -/

namespace Verif.BrushBsp.Spec

open Geom

variable {K C : Type} [Field K] [LinearOrder K]

/-- The planes on each way from the root to a leaf. -/
def paths : BTree K C → List (List Nat)
  | .leaf _ _ => [[]]
  | .node n _ f g => (paths f).map (n :: ·) ++ (paths g).map (n :: ·)

/-- The different planes of the sides of the brushes; a plane and its back count as one. -/
def planesOf (bs : List (Brush K C)) : List Nat := ((bs.flatMap (·.sides)).map fun s => s.planenum / 2).dedup

/-- The leaf in which a point ends, and the planes that are passed; a point on a plane goes to the front. -/
def leafAt (planes : Nat → Plane K) (p : Vec K) : BTree K C → List Nat × C × List (Brush K C)
  | .leaf c bs => ([], c, bs)
  | .node n _ f g =>
    let r := if 0 ≤ (planes n).distTo p then leafAt planes p f else leafAt planes p g
    (n :: r.1, r.2)

end Verif.BrushBsp.Spec
