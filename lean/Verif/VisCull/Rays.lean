import Verif.Common.Outcome
import Verif.Geom.Aabb
import Mathlib.Analysis.SpecialFunctions.Trigonometric.Basic

/-!
Model of `-visapprox rays`, which is the default for maps without visibility data: the choice (light/light.cc:1393-1400), the
rays that estimate what a light can see (light/entities.cc:1108-1176), the boxes of emissive surfaces (light/surflight.cc:169-176,
light/bounce.cc:109-116) and the tests against the boxes of faces (light/ltface.cc:1124-1132, 1974-1976).

Simplifications: exact arithmetic for `float`; the distances at which rays meet something are a given function of the start
and the direction.
-/

namespace Verif.VisCull

open Verif.Geom

/-- `visapprox_t` (include/light/light.hh:235-241). -/
inductive Approx where
  | auto
  | none
  | vis
  | rays
  deriving DecidableEq

/-- The choice when the file is loaded (light/light.cc:1393-1400); `hasVis`: there are visibility data. -/
def chooseApprox (a : Approx) (hasVis : Bool) : Approx := if a = .auto then (if hasVis then .vis else .rays) else a

/-- The direction computed by `UniformPointOnSphere` (light/entities.cc:1113-1118). -/
noncomputable def sphereVec (u1 u2 : ℝ) : Pt ℝ 3 :=
  let theta := u1 * 2 * Real.pi
  let u := 2 * u2 - 1
  let s := Real.sqrt (1 - u * u)
  ![s * Real.cos theta, s * Real.sin theta, u]

open Classical in
/-- `UniformPointOnSphere` (light/entities.cc:1108-1126) with its assertions. -/
noncomputable def spherePoint (u1 u2 : ℝ) : Outcome (Pt ℝ 3) :=
  if ¬ (0 ≤ u1 ∧ u1 ≤ 1) then .error
  else if ¬ (0 ≤ u2 ∧ u2 ≤ 1) then .error
  else if ∀ i, -1.001 ≤ sphereVec u1 u2 i ∧ sphereVec u1 u2 i ≤ 1.001 then .ok (sphereVec u1 u2)
  else .error

/-- The inner loop (light/entities.cc:1138-1143) over the given `y`. -/
noncomputable def probeRow (x : Nat) : List Nat → Outcome (List (Pt ℝ 3))
  | [] => .ok []
  | y :: ys => spherePoint ((x : ℝ) / 31) ((y : ℝ) / 31) >>= fun d => probeRow x ys >>= fun ds => .ok (d :: ds)

/-- The loops that push the rays (light/entities.cc:1137-1144) over the given `x`. -/
noncomputable def probeRows : List Nat → Outcome (List (Pt ℝ 3))
  | [] => .ok []
  | x :: xs => probeRow x (List.range 32) >>= fun r => probeRows xs >>= fun rs => .ok (r ++ rs)

/-- The directions of all rays (light/entities.cc:1130-1144). -/
noncomputable def probes : Outcome (List (Pt ℝ 3)) := probeRows (List.range 32)

/-- The place a ray meets something (light/entities.cc:1149-1153). -/
noncomputable def meets (hit : Pt ℝ 3 → Pt ℝ 3 → ℝ) (p d : Pt ℝ 3) : Pt ℝ 3 := fun i => p i + d i * hit p d

/-- `EstimateVisibleBoundsAtPoint` (light/entities.cc:1128-1157). -/
noncomputable def estimate (hit : Pt ℝ 3 → Pt ℝ 3 → ℝ) (p : Pt ℝ 3) : Outcome (Box ℝ 3) :=
  probes >>= fun ds =>
    let b := ds.foldl (fun b d => b.expandInPlace (meets hit p d)) (Box.ofPoint p)
    .ok (b.grow fun i => (b.maxs i - b.mins i) * 0.25)

/-- The loop over the points of an emissive surface (light/surflight.cc:173-175, light/bounce.cc:113-115). -/
noncomputable def addPoints (hit : Pt ℝ 3 → Pt ℝ 3 → ℝ) : List (Pt ℝ 3) → Box ℝ 3 → Outcome (Box ℝ 3)
  | [], b => .ok b
  | q :: qs, b => estimate hit q >>= fun c => addPoints hit qs (b.unionInPlace c)

/-- The box of an emissive surface (light/surflight.cc:171-175, light/bounce.cc:111-115). -/
noncomputable def surfaceBox (hit : Pt ℝ 3 → Pt ℝ 3 → ℝ) (pos : Pt ℝ 3) (points : List (Pt ℝ 3)) : Outcome (Box ℝ 3) :=
  estimate hit pos >>= fun b => addPoints hit points b

/-- The first test of `CullLight` (light/ltface.cc:1124-1132); `masks`: both channel masks of the light are the default. -/
noncomputable def raysSkip (a : Approx) (masks : Bool) (light face : Box ℝ 3) : Bool :=
  decide (a = .rays) && light.disjoint face 0.001 && masks

/-- The first test of `SurfaceLight_SphereCull` (light/ltface.cc:1974-1976). -/
noncomputable def raysSkipSurface (a : Approx) (light face : Box ℝ 3) : Bool := decide (a = .rays) && light.disjoint face 0.001

end Verif.VisCull
