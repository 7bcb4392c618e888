import Verif.Vis.SightProps
import Mathlib.Algebra.Order.Field.Rat
import Mathlib.Analysis.Real.Sqrt
import Mathlib.Tactic.FinCases
import Mathlib.Tactic.NormNum

/-!
A map of four leafs.  Portal 0 lies in the plane `x = 0`; portal 2 leads upwards through a slit of width 1/20 next
to that plane, portal 4 through the ceiling above it, which reaches far behind the plane of portal 0.  A line goes
through all three.  The hypotheses of the theorems about lines hold of it; with the tolerance of the program vis
loses the last leaf.
-/

namespace Verif.Vis

open Verif.Geom Verif.Geom.Spec

set_option linter.unusedSectionVars false

variable {K : Type} [Field K] [LinearOrder K] [IsStrictOrderedRing K]

/-- The planes of the portals. -/
def slitPlane (i : Fin 6) : Plane K :=
  match i with
  | 0 => ⟨⟨1, 0, 0⟩, 0⟩
  | 1 => ⟨⟨-1, 0, 0⟩, 0⟩
  | 2 => ⟨⟨0, 1, 0⟩, 10⟩
  | 3 => ⟨⟨0, -1, 0⟩, -10⟩
  | 4 => ⟨⟨0, 1, 0⟩, 20⟩
  | 5 => ⟨⟨0, -1, 0⟩, -20⟩

/-- A rectangle in a plane of equal `x`. -/
def rectX (x y0 y1 z0 z1 : K) : List (Vec K) := [⟨x, y0, z0⟩, ⟨x, y1, z0⟩, ⟨x, y1, z1⟩, ⟨x, y0, z1⟩]

/-- A rectangle in a plane of equal `y`. -/
def rectY (y x0 x1 z0 z1 : K) : List (Vec K) := [⟨x0, y, z0⟩, ⟨x0, y, z1⟩, ⟨x1, y, z1⟩, ⟨x1, y, z0⟩]

/-- The points of the portals. -/
def slitPts (i : Fin 6) : List (Vec K) :=
  match i with
  | 0 => rectX 0 0 10 0 10
  | 1 => (rectX 0 0 10 0 10).reverse
  | 2 => rectY 10 0 (1 / 20) 0 10
  | 3 => (rectY 10 0 (1 / 20) 0 10).reverse
  | 4 => rectY 20 (-5) (1 / 20) 0 10
  | 5 => (rectY 20 (-5) (1 / 20) 0 10).reverse

/-- The map. -/
def slit : Geo (Fin 6) K where
  plane := slitPlane
  wind i := ⟨slitPts i, ⟨0, 10, 5⟩, 100⟩

theorem rectX_convex (x y0 y1 z0 z1 : K) (hy : y0 ≤ y1) (hz : z0 ≤ z1) :
    ConvexIn (⟨1, 0, 0⟩ : Vec K) x (rectX x y0 y1 z0 z1) ∧
    ConvexIn (⟨-1, 0, 0⟩ : Vec K) (-x) (rectX x y0 y1 z0 z1).reverse := by
  have h := mul_nonneg (sub_nonneg.2 hy) (sub_nonneg.2 hz)
  refine ⟨⟨by simp [dot], ?_, ?_⟩, ⟨by simp [dot], ?_, ?_⟩⟩
  all_goals simp [rectX, dot, edges, pairs, turnOf]
  all_goals refine ⟨?_, ?_, ?_, ?_⟩
  all_goals nlinarith

theorem rectY_convex (y x0 x1 z0 z1 : K) (hx : x0 ≤ x1) (hz : z0 ≤ z1) :
    ConvexIn (⟨0, 1, 0⟩ : Vec K) y (rectY y x0 x1 z0 z1) ∧
    ConvexIn (⟨0, -1, 0⟩ : Vec K) (-y) (rectY y x0 x1 z0 z1).reverse := by
  have h := mul_nonneg (sub_nonneg.2 hx) (sub_nonneg.2 hz)
  refine ⟨⟨by simp [dot], ?_, ?_⟩, ⟨by simp [dot], ?_, ?_⟩⟩
  all_goals simp [rectY, dot, edges, pairs, turnOf]
  all_goals refine ⟨?_, ?_, ?_, ?_⟩
  all_goals nlinarith

/-- A number between two others is not farther out than one of them. -/
theorem between_or (g a b c : K) (h1 : a ≤ c) (h2 : c ≤ b) : g * c ≤ g * a ∨ g * c ≤ g * b := by
  rcases le_total 0 g with h | h
  · exact Or.inr (mul_le_mul_of_nonneg_left h2 h)
  · exact Or.inl (by nlinarith)

theorem rectX_inside (x y0 y1 z0 z1 y z : K) (h1 : y0 < y) (h2 : y < y1) (h3 : z0 < z) (h4 : z < z1) :
    Inside (⟨⟨1, 0, 0⟩, x⟩ : Plane K) (rectX x y0 y1 z0 z1) ⟨x, y, z⟩ := by
  refine ⟨by simp [Plane.distTo, dot], min (min (y - y0) (y1 - y)) (min (z - z0) (z1 - z)), ?_, ?_⟩
  · exact lt_min (lt_min (by linarith) (by linarith)) (lt_min (by linarith) (by linarith))
  · rintro ⟨x', y', z'⟩ hp _ hy hz g
    simp only [Plane.distTo, dot, mul_zero, add_zero, mul_one] at hp
    obtain rfl : x' = x := by linarith
    have hy' := abs_le.1 hy
    have hz' := abs_le.1 hz
    have a1 := (min_le_left (min (y - y0) (y1 - y)) (min (z - z0) (z1 - z))).trans (min_le_left _ _)
    have a2 := (min_le_left (min (y - y0) (y1 - y)) (min (z - z0) (z1 - z))).trans (min_le_right _ _)
    have a3 := (min_le_right (min (y - y0) (y1 - y)) (min (z - z0) (z1 - z))).trans (min_le_left _ _)
    have a4 := (min_le_right (min (y - y0) (y1 - y)) (min (z - z0) (z1 - z))).trans (min_le_right _ _)
    simp only at hy' hz'
    rcases between_or g.y y0 y1 y' (by linarith) (by linarith) with ey | ey <;>
    rcases between_or g.z z0 z1 z' (by linarith) (by linarith) with ez | ez
    · exact ⟨⟨x', y0, z0⟩, by simp [rectX], by simp only [dot]; linarith⟩
    · exact ⟨⟨x', y0, z1⟩, by simp [rectX], by simp only [dot]; linarith⟩
    · exact ⟨⟨x', y1, z0⟩, by simp [rectX], by simp only [dot]; linarith⟩
    · exact ⟨⟨x', y1, z1⟩, by simp [rectX], by simp only [dot]; linarith⟩

theorem rectY_inside (y x0 x1 z0 z1 x z : K) (h1 : x0 < x) (h2 : x < x1) (h3 : z0 < z) (h4 : z < z1) :
    Inside (⟨⟨0, 1, 0⟩, y⟩ : Plane K) (rectY y x0 x1 z0 z1) ⟨x, y, z⟩ := by
  refine ⟨by simp [Plane.distTo, dot], min (min (x - x0) (x1 - x)) (min (z - z0) (z1 - z)), ?_, ?_⟩
  · exact lt_min (lt_min (by linarith) (by linarith)) (lt_min (by linarith) (by linarith))
  · rintro ⟨x', y', z'⟩ hp hx _ hz g
    simp only [Plane.distTo, dot, mul_zero, add_zero, zero_add, mul_one] at hp
    obtain rfl : y' = y := by linarith
    have hx' := abs_le.1 hx
    have hz' := abs_le.1 hz
    have a1 := (min_le_left (min (x - x0) (x1 - x)) (min (z - z0) (z1 - z))).trans (min_le_left _ _)
    have a2 := (min_le_left (min (x - x0) (x1 - x)) (min (z - z0) (z1 - z))).trans (min_le_right _ _)
    have a3 := (min_le_right (min (x - x0) (x1 - x)) (min (z - z0) (z1 - z))).trans (min_le_left _ _)
    have a4 := (min_le_right (min (x - x0) (x1 - x)) (min (z - z0) (z1 - z))).trans (min_le_right _ _)
    simp only at hx' hz'
    rcases between_or g.x x0 x1 x' (by linarith) (by linarith) with ey | ey <;>
    rcases between_or g.z z0 z1 z' (by linarith) (by linarith) with ez | ez
    · exact ⟨⟨x0, y', z0⟩, by simp [rectY], by simp only [dot]; linarith⟩
    · exact ⟨⟨x0, y', z1⟩, by simp [rectY], by simp only [dot]; linarith⟩
    · exact ⟨⟨x1, y', z0⟩, by simp [rectY], by simp only [dot]; linarith⟩
    · exact ⟨⟨x1, y', z1⟩, by simp [rectY], by simp only [dot]; linarith⟩

/-- The assumptions about maps hold. -/
theorem slit_ok : MapOk row (slit : Geo (Fin 6) K) := by
  have o : (0 : K) ≤ 10 := by norm_num
  have s : (0 : K) ≤ 1 / 20 := by norm_num
  have t : (-5 : K) ≤ 1 / 20 := by norm_num
  refine ⟨?_, ?_, ?_, ?_, ?_, ?_, ?_, ?_⟩
  · intro p
    fin_cases p <;> simp [slit, slitPlane, UnitNormal, dot]
  · intro p
    fin_cases p
    · exact (rectX_convex 0 0 10 0 10 o o).1
    · have := (rectX_convex (0 : K) 0 10 0 10 o o).2
      rw [neg_zero] at this; exact this
    · exact (rectY_convex 10 0 (1 / 20) 0 10 s o).1
    · exact (rectY_convex 10 0 (1 / 20) 0 10 s o).2
    · exact (rectY_convex 20 (-5) (1 / 20) 0 10 t o).1
    · exact (rectY_convex 20 (-5) (1 / 20) 0 10 t o).2
  · intro p; simp only [slit]; norm_num
  · intro p
    fin_cases p <;> simp [slit, slitPts, rectX, rectY] <;> norm_num
  · intro p
    have e : row.rev 0 = 1 ∧ row.rev 1 = 0 ∧ row.rev 2 = 3 ∧ row.rev 3 = 2 ∧ row.rev 4 = 5 ∧ row.rev 5 = 4 := by decide
    obtain ⟨e0, e1, e2, e3, e4, e5⟩ := e
    fin_cases p <;> simp [slit, slitPlane, e0, e1, e2, e3, e4, e5]
  · intro p
    fin_cases p <;> rfl
  · intro p q h
    fin_cases p <;> fin_cases q <;> first
      | (exfalso; revert h; decide)
      | (simp [slit, slitPts, slitPlane, rectX, rectY, Plane.distTo, dot] <;> norm_num)
  · decide

/-- The line through portals 0, 2 and 4. -/
theorem slit_stabbed : Stabbed (slit : Geo (Fin 6) K) (1 / 1000) 0 [0, 2, 4] := by
  have e0 : lineAt (⟨0, 5, 5⟩ : Vec K) ⟨1 / 25, 15, 0⟩ 0 = ⟨0, 5, 5⟩ := by simp [lineAt]
  have e2 : lineAt (⟨0, 5, 5⟩ : Vec K) ⟨1 / 25, 15, 0⟩ (1 / 3) = ⟨1 / 75, 10, 5⟩ := by simp only [lineAt]; norm_num
  have e4 : lineAt (⟨0, 5, 5⟩ : Vec K) ⟨1 / 25, 15, 0⟩ 1 = ⟨1 / 25, 20, 5⟩ := by simp only [lineAt]; norm_num
  have a1 : |(1 / 25 : K)| = 1 / 25 := abs_of_pos (by norm_num)
  have a2 : |(15 : K)| = 15 := abs_of_pos (by norm_num)
  refine ⟨⟨0, 5, 5⟩, ⟨1 / 25, 15, 0⟩, [(0, 0), (2, 1 / 3), (4, 1)], rfl, ⟨?_, ?_⟩⟩
  · intro x hx
    simp only [List.mem_cons, List.not_mem_nil, or_false] at hx
    rcases hx with rfl | rfl | rfl
    · refine ⟨?_, ?_⟩
      · simp only [slit, slitPlane, dot, abs_zero, a1, a2]; norm_num
      · rw [e0]; exact rectX_inside 0 0 10 0 10 5 5 (by norm_num) (by norm_num) (by norm_num) (by norm_num)
    · refine ⟨?_, ?_⟩
      · simp only [slit, slitPlane, dot, abs_zero, a1, a2]; norm_num
      · rw [e2]
        exact rectY_inside 10 0 (1 / 20) 0 10 (1 / 75) 5 (by norm_num) (by norm_num) (by norm_num) (by norm_num)
    · refine ⟨?_, ?_⟩
      · simp only [slit, slitPlane, dot, abs_zero, a1, a2]; norm_num
      · rw [e4]
        exact rectY_inside 20 (-5) (1 / 20) 0 10 (1 / 25) 5 (by norm_num) (by norm_num) (by norm_num) (by norm_num)
  · simp only [List.pairwise_cons, List.mem_cons, List.not_mem_nil, or_false, forall_eq_or_imp, forall_eq,
      e0, e2, e4, slit, slitPlane, Plane.distTo, dot]
    norm_num

/-- Comparisons without a tolerance; the other values are those of the program. -/
noncomputable def exactCfg : Cfg ℝ where
  on := 0
  len := 1 / 10
  eq := 1 / 1000
  level := 4
  visdist := 0
  unit v := ⟨(√(dot v v))⁻¹ * v.x, (√(dot v v))⁻¹ * v.y, (√(dot v v))⁻¹ * v.z⟩

theorem exact_ok : CfgOk exactCfg := by
  refine ⟨rfl, by simp [exactCfg], ?_⟩
  intro v hv
  have hpos : 0 < dot v v := lt_of_lt_of_le (by simp [exactCfg]) hv
  have hs : 0 < √(dot v v) := Real.sqrt_pos.2 hpos
  refine ⟨(√(dot v v))⁻¹, inv_pos.2 hs, rfl, ?_⟩
  have e : √(dot v v) * √(dot v v) = dot v v := Real.mul_self_sqrt hpos.le
  have : dot (exactCfg.unit v) (exactCfg.unit v) = (√(dot v v))⁻¹ * (√(dot v v))⁻¹ * dot v v := by
    simp only [exactCfg, dot]; ring
  rw [this]
  nth_rewrite 3 [← e]
  field_simp

-- the hypotheses of the theorems about lines hold of the map; full vis without a tolerance sees the last leaf
example {s : Sys (Fin 4) (Fin 6)}
    (h : Steps row (geoTests exactCfg slit) (start row (basePS row (baseFront exactCfg slit))) s) (hf : Finished s) :
    (s.ps 0).vis 3 = true :=
  full_vis_sees_partial (by decide) slit_ok exact_ok (flat := 1 / 1000) (by simp [exactCfg]) (by simp [exactCfg]) .base h hf 0
    [2, 4] (by simp [IsChain]; decide) slit_stabbed
-- fast vis without a tolerance sees it as well
example : (fastPS (basePS row (baseFront exactCfg slit)) 0).vis 3 = true :=
  fast_vis_sees slit_ok (gap := 0) (by simp [exactCfg]) (by simp [exactCfg]) (by simp [exactCfg]) 0 [2, 4]
    (by simp [IsChain]; decide) (slit_stabbed (K := ℝ))

-- a plane is found between portal 0 and portal 4, at the upper edge of portal 0
example : ∃ sep, findSep exactCfg (slit.plane 0) (⟨0, 10, 0⟩, ⟨0, 10, 10⟩) (slit.wind 4).pts = some sep ∧
    (⟨0, 10, 0⟩, ⟨0, 10, 10⟩) ∈ edges (slit.wind (K := ℝ) 0).pts := by
  have hu : ∃ c : ℝ, 0 < c ∧ exactCfg.unit (crossAt ⟨0, 10, 0⟩ ⟨0, 10, 10⟩ ⟨-5, 20, 0⟩) = ⟨c * -100, c * -50, c * 0⟩ := by
    obtain ⟨c, h0, h1, _⟩ := exact_ok.unit (crossAt ⟨0, 10, 0⟩ ⟨0, 10, 10⟩ ⟨-5, 20, 0⟩)
      (by simp only [crossAt, dot, exactCfg]; norm_num)
    refine ⟨c, h0, ?_⟩
    rw [h1]
    simp only [crossAt]; norm_num
  obtain ⟨c, h0, hc⟩ := hu
  have h1 : ∃ sep, trySep exactCfg (slit.plane 0) ⟨0, 10, 0⟩ ⟨0, 10, 10⟩ (slit.wind 4).pts 0 = some sep := by
    have on : exactCfg.on = 0 := rfl
    have len : ¬ dot (crossAt (⟨0, 10, 0⟩ : Vec ℝ) ⟨0, 10, 10⟩ ⟨-5, 20, 0⟩) (crossAt ⟨0, 10, 0⟩ ⟨0, 10, 10⟩ ⟨-5, 20, 0⟩) <
        exactCfg.len := by simp only [crossAt, dot, exactCfg]; norm_num
    have d : ((slitPlane 0 : Plane ℝ)).distTo ⟨-5, 20, 0⟩ = -5 := by simp [slitPlane, Plane.distTo, dot]
    unfold trySep
    simp only [slit, slitPts, rectY, List.getElem?_cons_zero, on, neg_zero, d, hc, if_neg len]
    rw [if_neg (by norm_num)]
    simp only [List.eraseIdx_cons_zero, List.any_cons, List.any_nil, negPlane, Plane.distTo, dot]
    norm_num
    exact ⟨by linarith, by linarith⟩
  obtain ⟨sep, hs⟩ := h1
  refine ⟨sep, ?_, by simp [slit, slitPts, rectX, edges, pairs]⟩
  unfold findSep
  have : List.range (slit.wind (K := ℝ) 4).pts.length = 0 :: [1, 2, 3] := rfl
  rw [this, List.findSome?_cons, hs]

-- clipping portal 4 by the plane of portal 0 leaves the strip in front of it
example : (clipStack (0 : ℚ) (slit.wind 4) (slit.plane 0)).map (·.pts) =
    some [⟨0, 20, 10⟩, ⟨1 / 20, 20, 10⟩, ⟨1 / 20, 20, 0⟩, ⟨0, 20, 0⟩] := by decide +kernel

/-! ### The tolerance -/

/-- The values of the program (include/vis/vis.hh:29-30). -/
def realCfg (unit : Vec ℚ → Vec ℚ) : Cfg ℚ where
  on := 1 / 10
  len := 1 / 10
  eq := 1 / 1000
  level := 4
  visdist := 0
  unit := unit

/-- With the tolerance of the program the first portal is kept apart from the last one. -/
theorem slit_apart (unit : Vec ℚ → Vec ℚ) : baseFront (realCfg unit) slit 0 4 = false := by
  have : baseFront (realCfg id) slit 0 4 = false := by decide +kernel
  exact this

/-- **C100, C101 (what the tolerance loses).** A line goes through portals 0, 2 and 4 of a map that satisfies all
assumptions.  With the tolerance of the program neither fast vis nor any finished run of full vis, whatever its
winding tests do, has the leaf behind portal 4 in the set of portal 0. -/
theorem vis_loses_leaf (unit : Vec ℚ → Vec ℚ) :
    MapOk row (slit : Geo (Fin 6) ℚ) ∧ IsChain row [0, 2, 4] ∧ Stabbed (slit : Geo (Fin 6) ℚ) (1 / 1000) 0 [0, 2, 4] ∧
    row.dest 4 = 3 ∧ (fastPS (basePS row (baseFront (realCfg unit) slit)) 0).vis 3 = false ∧
    ∀ (W C : Type) (w : Tests (Fin 6) W C) (ps : Fin 6 → PS (Fin 4)),
      Saved row w (baseFront (realCfg unit) slit) ps → ∀ s, Steps row w (start row ps) s → Finished s →
        (s.ps 0).vis 3 = false := by
  have fast : (fastPS (basePS row (baseFront (realCfg unit) slit)) 0).vis 3 = false := by
    have only : ∀ q, row.dest q = 3 → q = 4 := by decide
    show (basePortal row (baseFront (realCfg unit) slit) 0).1 3 = false
    by_contra hcon
    rw [Bool.not_eq_false] at hcon
    have hr := ((base_flood_is_reachability (baseFront (realCfg unit) slit) 0).1 3).1 hcon
    generalize he : (3 : Fin 4) = L at hr
    cases hr with
    | start => exact absurd he (by decide)
    | step _ hs =>
      rw [only _ he.symm] at hs
      simp [slit_apart] at hs
  refine ⟨slit_ok, by simp [IsChain]; decide, slit_stabbed, by decide, fast, ?_⟩
  intro W C w ps hps s hs hf
  by_contra hcon
  rw [Bool.not_eq_false] at hcon
  have := full_vis_within_fast_vis (by decide) w (baseFront (realCfg unit) slit) hps hs hf 0 3 hcon
  rw [fast] at this
  exact absurd this (by simp)

/-- **C99 (what the tolerance cuts off).** A winding of which a strip of width 1/20 is in front of the plane is dropped
as a whole by clipping with the tolerance of the program. -/
theorem keeps_false : ∃ (pl cut : Plane ℚ) (w : SWind ℚ) (x : Vec ℚ), UnitNormal cut ∧
    ConvexIn pl.normal pl.dist w.pts ∧ Reach0 w ∧ Inside pl w.pts x ∧ 0 < cut.distTo x ∧
    clipStack (1 / 10) w cut = none :=
  ⟨⟨⟨0, 1, 0⟩, 20⟩, ⟨⟨1, 0, 0⟩, 0⟩, slit.wind 4, ⟨1 / 25, 20, 5⟩, slit_ok.unit 0, slit_ok.convex 4,
    reach_of_sphere (slit_ok.radius 4) (slit_ok.sphere 4),
    rectY_inside 20 (-5) (1 / 20) 0 10 (1 / 25) 5 (by norm_num) (by norm_num) (by norm_num) (by norm_num),
    by simp [Plane.distTo, dot], by decide +kernel⟩

end Verif.Vis
