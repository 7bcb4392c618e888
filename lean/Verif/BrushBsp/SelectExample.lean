import Verif.BrushBsp.Example
import Verif.BrushBsp.SelectProps
import Verif.BrushBsp.TermProps

/-! Examples and counterexamples for the choice of the planes. -/

namespace Verif.BrushBsp.Ex

open Geom Spec

/-- Brushes with the contents `[2]` are detail. -/
def envD : Env ℚ (List Nat) := { env with isDetail := fun c => c = [2] }

/-- The same, and middle planes are looked for. -/
def envM : Env ℚ (List Nat) := { envD with midsplit := fun _ _ => true }

/-- The theorem about the marks applies to a structural and a detail box. -/
example : ∃ t, brushBsp envD (fun _ => boxV) 24 9 [boxA, boxB] = some (.ok t) ∧
    ∀ x ∈ nodes t, PlaneOf envD [boxA, boxB] x.2 x.1 := by
  obtain ⟨t, ht, _⟩ := brush_bsp_ends envD (fun _ => boxV) 24 [boxA, boxB] (by simp) 9 (by decide +kernel)
  exact ⟨t, ht, node_marks (fun _ _ => rfl) (by simp) ht⟩

/-- A plane of a detail box is chosen when the sides of the structural box are all on nodes. -/
example : selectSplit envD [] (some boxA) boxA.bounds [boxA, boxB] =
    .ok (some ⟨12, [⟨true, true, false⟩, ⟨true, false, true⟩], true⟩) := by decide +kernel

/-- A leaf is made when the planes of the box do not cut the volume; the sides are usable. -/
example : selectSplit envD [] (some boxA) boxA.bounds [boxA] = .ok none ∧ ∀ s ∈ boxA.sides, Usable s := by
  refine ⟨by decide +kernel, ?_⟩
  intro s hs
  have : ∀ s ∈ boxA.sides, s.bevel = false ∧ s.w ≠ [] ∧ s.onnode = false ∧ s.hintskip = false := by decide +kernel
  exact this s hs

/-- C97, negation: a middle plane of a detail brush does not mark its node. The only brush is detail, and the node is
not marked. -/
theorem mid_unmarked : selectSplit envM [] (some boxV) boxV.bounds [boxB] = .ok (some ⟨14, [⟨false, true, true⟩], false⟩) ∧
    ¬ PlaneOf envM [boxB] false 14 := by
  refine ⟨by decide +kernel, ?_⟩
  rintro ⟨b, hb, hd, _⟩
  simp only [List.mem_singleton] at hb
  subst hb
  revert hd
  decide

/-- A box whose sides are all on nodes, but one. -/
def halfUsed (k : Nat) (b : Brush ℚ (List Nat)) : Brush ℚ (List Nat) :=
  { b with sides := b.sides.map fun s => if s.planenum = k then s else { s with onnode := true } }

/-- A box that reaches half a unit behind the plane `x = 64`, with sides that are never chosen. -/
def skipBox : Brush ℚ (List Nat) :=
  let b := box [14, 13, 6, 5, 10, 9] (127 / 2) 96 0 64 0 64 [2]
  { b with sides := b.sides.map fun s => { s with hintskip := true } }

/-- C97, negation: a leaf is made although a usable side has a plane that cuts the volume: 101 brushes that reach less
than one unit through the plane make its value too low. -/
theorem leaf_not_done : selectSplit env [] (some boxV) boxV.bounds (halfUsed 2 boxA :: List.replicate 101 skipBox) =
    .ok none ∧ (∃ s ∈ (halfUsed 2 boxA).sides, Usable s ∧ s.planenum / 2 * 2 = 2) ∧ CutsVolume env (some boxV) 2 := by
  refine ⟨by decide +kernel, ⟨(halfUsed 2 boxA).sides.head (by decide), by simp, ?_, by decide⟩, boxV, rfl, by decide +kernel⟩
  have : ∀ s ∈ (halfUsed 2 boxA).sides, s.planenum = 2 → s.bevel = false ∧ s.w ≠ [] ∧ s.onnode = false ∧ s.hintskip = false := by
    decide +kernel
  exact this _ (by simp) (by decide)

/-- A box of hint sides. -/
def hintB : Brush ℚ (List Nat) :=
  let b := box [14, 13, 22, 5, 10, 9] 32 96 0 88 0 64 [2]
  { b with sides := b.sides.map fun s => { s with hint := true } }

/-- A box of hint sides around the volume. -/
def hintBox : Brush ℚ (List Nat) := { boxV with sides := boxV.sides.map fun s => { s with hint := true } }

/-- C97, negation: whether a plane may split the sides of a hint brush depends on the order of the brushes. If the hint
brush is not the last, a plane that splits its sides is chosen. -/
theorem hint_split : selectSplit env [] (some boxV) boxV.bounds [hintBox, boxA] =
      .ok (some ⟨2, [⟨true, true, false⟩, ⟨false, true, true⟩], false⟩) ∧
    (∃ s ∈ hintBox.sides, s.hint = true ∧ sideSplit (env.planes 2) s.w = true) ∧
    selectSplit env [] (some boxV) boxV.bounds [boxA, hintBox] = .ok none := by
  refine ⟨by decide +kernel, by decide +kernel, by decide +kernel⟩

/-- The hypotheses of the theorem about hint sides: the plane `x = 64` of a hint side splits sides of a hint box. -/
example : ∃ c, selectSplit env [] (some boxV) boxV.bounds
      ([{ halfUsed 2 boxA with sides := (halfUsed 2 boxA).sides.map fun s => { s with hint := true } }] ++ [halfUsed 22 hintB]) =
      .ok (some c) ∧ c.planenum = 2 ∧ testBrush env 2 (halfUsed 22 hintB) = ⟨true, true, false⟩ ∧
    ∃ s ∈ (halfUsed 22 hintB).sides, s.visible = true ∧ s.onnode = false ∧ s.hintskip = false ∧ s.hint = true ∧
      (∃ q ∈ s.w, (env.planes 2).distTo q > 1 / 10) ∧ ∃ q ∈ s.w, (env.planes 2).distTo q < -(1 / 10) :=
  ⟨⟨2, [⟨false, true, true⟩, ⟨true, true, false⟩], false⟩, by decide +kernel, rfl, by decide +kernel, by decide +kernel⟩

end Verif.BrushBsp.Ex
