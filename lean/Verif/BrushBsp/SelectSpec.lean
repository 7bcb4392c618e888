import Verif.BrushBsp.TreeSpec

/-! Specification of the choice of the planes: structural and detail planes, sides that may be used. -/

namespace Verif.BrushBsp.Spec

open Geom

variable {K C : Type} [Field K] [LinearOrder K]

/-- The nodes of a tree: the plane, and whether the node separates detail. -/
def nodes : BTree K C → List (Nat × Bool)
  | .leaf _ _ => []
  | .node n d f g => (n, d) :: (nodes f ++ nodes g)

/-- The plane is the one of a side of a brush that is detail or not. -/
def PlaneOf (env : Env K C) (bs : List (Brush K C)) (detail : Bool) (n : Nat) : Prop :=
  ∃ b ∈ bs, env.isDetail b.contents = detail ∧ ∃ s ∈ b.sides, n = s.planenum / 2 * 2

/-- A side that can be used: it is no bevel and no hintskip, it has a polygon and it is on no node yet. -/
def Usable (s : Side K) : Prop := s.bevel = false ∧ s.w ≠ [] ∧ s.onnode = false ∧ s.hintskip = false

/-- The plane cuts the volume into two parts that are kept. -/
def CutsVolume (env : Env K C) (vol : Option (Brush K C)) (n : Nat) : Prop :=
  ∃ v, vol = some v ∧ checkSplit env n v = true

end Verif.BrushBsp.Spec
