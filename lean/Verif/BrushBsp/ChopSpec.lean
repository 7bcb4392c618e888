import Verif.BrushBsp.Chop
import Verif.BrushBsp.LeafSpec

/-! Specification of the chopping of brushes: the points strictly inside a brush, cuts in which no tolerance plays a
role, and the cuts that are made while brushes are chopped. -/

namespace Verif.BrushBsp.Spec

open Geom Geom.Spec

variable {K C : Type} [Field K] [LinearOrder K]

/-- The point is strictly inside the brush. -/
def Within (env : Env K C) (b : Brush K C) (q : Vec K) : Prop := ∀ s ∈ b.sides, (env.planes s.planenum).distTo q < 0

instance (env : Env K C) (b : Brush K C) (q : Vec K) : Decidable (Within env b q) := by
  unfold Within; infer_instance

/-- The cut is clean and no vertex of the brush is closer than 0.1 to the plane without being on it. -/
def SharpCut (env : Env K C) (n : Nat) (b : Brush K C) : Prop :=
  CleanCut env n b ∧ ∀ s ∈ b.sides, ∀ v ∈ s.w, |(env.planes n).distTo v| < 1 / 10 → (env.planes n).distTo v = 0

/-- The brush has not been cut: cutting marks the new side. -/
def Whole (b : Brush K C) : Prop := ∀ s ∈ b.sides, s.onnode = false

/-- The cuts that are made when a brush is taken from another one: the plane and what is cut. -/
def carveCuts (env : ChopEnv K C) : List (Side K) → Brush K C → List (Nat × Brush K C)
  | [], _ => []
  | s :: l, b => (s.planenum, b) ::
    match (splitBrush env.toEnv s.planenum b).2 with
    | none => []
    | some x => carveCuts env l x

/-- The two brushes may be compared by `ChopBrushes`. -/
def compared (env : ChopEnv K C) (b1 b2 : Brush K C) : Bool :=
  !env.noChop b1.orig && !env.noChop b2.orig && env.isSolid b1.contents && env.isSolid b2.contents && !disjointTest b1 b2

/-- The cuts that may be made in a round: the current brush and each later one are cut by each other. -/
def stepCuts (env : ChopEnv K C) : List (Brush K C) → List (Nat × Brush K C)
  | [] => []
  | b1 :: rest => (rest.filter fun b2 => compared env b1 b2).flatMap fun b2 =>
    carveCuts env b2.sides b1 ++ carveCuts env b1.sides b2

/-- The cuts of the rounds. -/
def runCuts (env : ChopEnv K C) (frag : Bool) : Nat → ChopState K C → List (Nat × Brush K C)
  | 0, _ => []
  | fuel + 1, st => if st.todo = [] then [] else stepCuts env st.todo ++ runCuts env frag fuel (chopStep env frag st)

/-- The cuts of `ChopBrushes`. -/
def chopCuts (env : ChopEnv K C) (frag : Bool) (fuel : Nat) (bs : List (Brush K C)) : List (Nat × Brush K C) :=
  runCuts env frag fuel ⟨[], bs⟩

/-- A brush that takes part: it is solid and may be chopped. -/
def Takes (env : ChopEnv K C) (b : Brush K C) : Prop := env.isSolid b.contents = true ∧ env.noChop b.orig = false

end Verif.BrushBsp.Spec
