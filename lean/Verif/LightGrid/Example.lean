import Verif.LightGrid.SampleProps

/-! Concrete cases that meet the hypotheses of the theorems about the light grid. -/

namespace Verif.LightGrid

open Verif.Stream Verif.Light

/-- Light of two styles. -/
def exSamples : Samples := [⟨true, 0, fun _ => 100⟩, ⟨true, 7, fun _ => 1 / 3⟩, {}, {}]

theorem exSamples_fine : FineSamples exSamples := by
  refine ⟨by decide, ?_⟩
  intro s hs hu
  simp only [exSamples, List.mem_cons, List.not_mem_nil, or_false] at hs
  rcases hs with rfl | rfl | rfl | rfl
  · exact ⟨by decide, fun i => by norm_num⟩
  · exact ⟨by decide, fun i => by norm_num [abs_of_pos]⟩
  · cases hu
  · cases hu

/-- A grid of four points on each axis, whose lower half is occluded. -/
def exRaw : Raw := ⟨⟨4, 4, 4⟩, List.replicate 64 exSamples, (List.range 64).map fun i => decide (i < 32)⟩

theorem exRaw_sized : Sized exRaw := ⟨by decide, by decide, by decide, by decide, by decide, by decide⟩

def exHeader : Header := ⟨[0x42000000, 0x42000000, 0x42000000], [0, 0, 0], 2⟩

theorem exHeader_fine : FineHeader exHeader :=
  ⟨rfl, rfl, by decide, by decide, by decide⟩

/-- The grid of the example meets the hypotheses of C121 and C122. -/
example : ∃ bs g, makeOctreeLump exHeader exRaw = .ok bs ∧ lump bs = some (g, []) ∧ Tells exHeader exRaw g :=
  octree_lump_tells exHeader_fine exRaw_sized (fun l hl => by
    rw [List.eq_of_mem_replicate hl]; exact exSamples_fine)

/-- Its tree has a node, four leafs and four occluded children. -/
example : (match buildRoot exRaw with
    | .ok (v, st) => decide (v = 0 ∧ st.nodes = [⟨⟨2, 2, 2⟩,
        [2 ^ 30, 2 ^ 31, 2 ^ 30, 2 ^ 31 + 1, 2 ^ 30, 2 ^ 31 + 2, 2 ^ 30, 2 ^ 31 + 3]⟩] ∧
        st.leafs.length = 4 ∧ st.occludedCells = 32)
    | _ => false) = true := by decide +kernel

/-- A map of 64 units on each axis, with the usual distance, meets the hypotheses of C123. -/
example : ∃ bs g, lightGrid (fun _ => 0) (fun w => (exSamples, decide (w 0 < 10))) List.range (fun _ => 0)
      (fun _ => 64) (fun _ => 32) = .ok bs ∧ lump bs = some (g, []) ∧ g.size = ⟨2, 2, 2⟩ := by
  have hn : (⟨2, 2, 2⟩ : P3) = counts (fun _ => 0) (fun _ => 64) (fun _ => 32) := by
    unfold counts
    norm_num
  obtain ⟨bs, g, h1, h2, h3, -⟩ := light_grid_tells_partial (bits := fun _ => 0)
    (light := fun w => (exSamples, decide (w 0 < 10))) (order := List.range) (mins := fun _ => 0)
    (maxs := fun _ => 64) (dist := fun _ => 32) (fun _ => by norm_num) (fun _ => exSamples_fine)
    (fun n => List.Perm.refl _) (fun _ => by norm_num) (fun _ => by norm_num) hn (by decide)
  exact ⟨bs, g, h1, h2, h3⟩

/-- A map of 2048 units with a distance of 1 is too large. -/
example : lightGrid (fun _ => 0) (fun _ => (exSamples, false)) List.range (fun _ => 0) (fun _ => 2048) (fun _ => 1)
    = .ub := by
  have hn : (⟨2048, 2048, 2048⟩ : P3) = counts (fun _ => 0) (fun _ => 2048) (fun _ => 1) := by
    unfold counts
    norm_num
  exact light_grid_too_large hn (by decide)

/-- Three contributions of two styles meet the hypotheses of C125. -/
example : ∀ s ∈ (addAll [(fun _ => 1, 0), (fun _ => 2, 32), (fun _ => 3, 0)]).takeWhile (·.used),
    s.style = 0 → s.color 0 = 4 := by
  intro s hs h0
  rw [(styles_summed_partial [0, 32] (by decide) (by simp)).2 s hs 0, h0]
  simp [total]
  norm_num

/-- The usual settings meet the hypotheses of C126. -/
example : ∃ c, scaleAndClamp ⟨0, 1 / 2, none⟩ (fun _ => 1000) = .ok c ∧ ∀ i, 0 ≤ c i ∧ c i ≤ 255 :=
  scale_bounds_partial (by norm_num) (by norm_num) (fun f h => by cases h) _

end Verif.LightGrid
