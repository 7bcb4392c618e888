import Verif.BrushBsp.Example
import Verif.BrushBsp.LeafProps
import Mathlib.Tactic.FinCases
import Mathlib.Tactic.NormNum

/-! The theorems about the tree, for two boxes that overlap. -/

namespace Verif.BrushBsp.Ex

open Geom Geom.Spec Spec

theorem unitPlane (n : Nat) : UnitNormal (planes n) := by
  unfold planes UnitNormal axisVec
  generalize (table[n / 2]?).getD (0, 0) = e
  obtain ⟨a, d⟩ := e
  by_cases h : n % 2 = 0 <;> fin_cases a <;> simp [h, dot]

theorem flipDiv (n : Nat) : flipNum n / 2 = n / 2 ∧ (flipNum n % 2 = 0 ↔ n % 2 ≠ 0) := by
  unfold flipNum
  split <;> constructor <;> omega

theorem upAxis (n : Nat) : dot (upOf (planes n).normal) (upOf (planes n).normal) = 1 := by
  unfold planes axisVec upOf
  generalize (table[n / 2]?).getD (0, 0) = e
  obtain ⟨a, d⟩ := e
  by_cases h : n % 2 = 0 <;> fin_cases a <;> simp [h, dot]

theorem planesOk : PlanesOk env where
  unit := unitPlane
  flip n q := by
    obtain ⟨h1, h2⟩ := flipDiv n
    show (planes (flipNum n)).distTo q = -(planes n).distTo q
    unfold planes
    rw [h1]
    generalize (table[n / 2]?).getD (0, 0) = e
    obtain ⟨a, d⟩ := e
    by_cases h : n % 2 = 0
    · have h' : ¬ flipNum n % 2 = 0 := fun x => (h2.1 x) h
      simp only [h, h', if_true, if_false]
      fin_cases a <;> simp [Plane.distTo, dot, axisVec] <;> ring
    · have h' : flipNum n % 2 = 0 := h2.2 h
      simp only [h, h', if_true, if_false]
      fin_cases a <;> simp [Plane.distTo, dot, axisVec] <;> ring
  axial n h := by
    show (planes n).normal.x ≠ -1 ∧ (planes n).normal.y ≠ -1 ∧ (planes n).normal.z ≠ -1
    unfold planes
    generalize (table[n / 2]?).getD (0, 0) = e
    obtain ⟨a, d⟩ := e
    simp only [h, if_true]
    fin_cases a <;> simp [axisVec] <;> norm_num
  baseConvex n := (from_plane_ok (normalize := id) (w := 4096) (by norm_num) (unitPlane n) ⟨1, by simp⟩ (upAxis n)).1
  baseOn n := (from_plane_ok (normalize := id) (w := 4096) (by norm_num) (unitPlane n) ⟨1, by simp⟩ (upAxis n)).2.1
  baseSpans n := (from_plane_ok (normalize := id) (w := 4096) (by norm_num) (unitPlane n) ⟨1, by simp⟩ (upAxis n)).2.2

theorem inA {q : Vec ℚ} (h : Inside env rawA q) : InBox ⟨⟨0, 0, 0⟩, ⟨64, 64, 64⟩⟩ q := by
  have h1 := h (side 2) (by decide)
  have h2 := h (side 1) (by decide)
  have h3 := h (side 6) (by decide)
  have h4 := h (side 5) (by decide)
  have h5 := h (side 10) (by decide)
  have h6 := h (side 9) (by decide)
  simp [env, planes, side, table, axisVec, Plane.distTo, dot] at h1 h2 h3 h4 h5 h6
  refine ⟨⟨?_, ?_⟩, ⟨?_, ?_⟩, ⟨?_, ?_⟩⟩ <;> simp only <;> linarith

theorem inB {q : Vec ℚ} (h : Inside env rawB q) : InBox ⟨⟨32, 0, 0⟩, ⟨96, 64, 64⟩⟩ q := by
  have h1 := h (side 14) (by decide)
  have h2 := h (side 13) (by decide)
  have h3 := h (side 6) (by decide)
  have h4 := h (side 5) (by decide)
  have h5 := h (side 10) (by decide)
  have h6 := h (side 9) (by decide)
  simp [env, planes, side, table, axisVec, Plane.distTo, dot] at h1 h2 h3 h4 h5 h6
  refine ⟨⟨?_, ?_⟩, ⟨?_, ?_⟩, ⟨?_, ?_⟩⟩ <;> simp only <;> linarith

theorem worldOf {b : Bounds ℚ} {q : Vec ℚ} (h : InBox b q) (h1 : ⟨0, 0, 0⟩ = b.mins ∨ ⟨32, 0, 0⟩ = b.mins)
    (h2 : ⟨64, 64, 64⟩ = b.maxs ∨ ⟨96, 64, 64⟩ = b.maxs) : dot q q ≤ env.worldextent * env.worldextent := by
  have bound : 0 ≤ q.x ∧ q.x ≤ 96 ∧ 0 ≤ q.y ∧ q.y ≤ 64 ∧ 0 ≤ q.z ∧ q.z ≤ 64 := by
    obtain ⟨⟨a1, a2⟩, ⟨a3, a4⟩, ⟨a5, a6⟩⟩ := h
    rcases h1 with h1 | h1 <;> rcases h2 with h2 | h2 <;> rw [← h1] at a1 a3 a5 <;> rw [← h2] at a2 a4 a6 <;>
      simp only at a1 a2 a3 a4 a5 a6 <;> refine ⟨?_, ?_, ?_, ?_, ?_, ?_⟩ <;> linarith
  obtain ⟨a1, a2, a3, a4, a5, a6⟩ := bound
  show q.x * q.x + q.y * q.y + q.z * q.z ≤ 4096 * 4096
  nlinarith

theorem closedA : Closed env boxA := by
  obtain ⟨v, b, e, _, _, h⟩ := windings_close_partial planesOk (by decide +kernel : (0 : ℚ) ≤ env.worldextent)
    (by norm_num : (0 : ℚ) ≤ 1 / 10000) (b := rawA) (by decide) ⟨⟨32, 32, 32⟩, by decide +kernel⟩
    (fun q hq => worldOf (inA hq) (.inl rfl) (.inl rfl)) nearA
  rw [madeA] at e
  obtain ⟨rfl, rfl⟩ : v = true ∧ b = boxA := by
    injection e with e
    injection e with e1 e2
    exact ⟨e1.symm, e2.symm⟩
  exact h (fun s hs he => absurd he ((by decide +kernel : ∀ s ∈ boxA.sides, s.w ≠ []) s hs))

theorem closedB : Closed env boxB := by
  obtain ⟨v, b, e, _, _, h⟩ := windings_close_partial planesOk (by decide +kernel : (0 : ℚ) ≤ env.worldextent)
    (by norm_num : (0 : ℚ) ≤ 1 / 10000) (b := rawB) (by decide) ⟨⟨64, 32, 32⟩, by decide +kernel⟩
    (fun q hq => worldOf (inB hq) (.inr rfl) (.inr rfl)) nearB
  rw [madeB] at e
  obtain ⟨rfl, rfl⟩ : v = true ∧ b = boxB := by
    injection e with e
    injection e with e1 e2
    exact ⟨e1.symm, e2.symm⟩
  exact h (fun s hs he => absurd he ((by decide +kernel : ∀ s ∈ boxB.sides, s.w ≠ []) s hs))

/-- The theorem about the end of the construction applies to the two boxes. -/
example : ∃ t, brushBsp env (fun _ => boxV) 24 9 [boxA, boxB] = some (.ok t) ∧
    ∀ p ∈ paths t, p.Nodup ∧ p.length ≤ 8 ∧ ∀ n ∈ p, ∃ b ∈ [boxA, boxB], ∃ s ∈ b.sides, n = s.planenum / 2 * 2 :=
  brush_bsp_ends env (fun _ => boxV) 24 [boxA, boxB] (by simp) 9 (by decide +kernel)

theorem isGood : good = true := by decide +kernel

/-- So do the theorems about the contents: a point in both boxes, one in the first box, one in none. -/
example : ∃ t, brushBsp env (fun _ => boxV) 24 9 [boxA, boxB] = some (.ok t) ∧
    ∀ x ∈ ([(⟨48, 32, 32⟩, [1, 2]), (⟨16, 32, 32⟩, [1]), (⟨16, 32, 80⟩, [])] : List (Vec ℚ × List Nat)),
      (leafAt env.planes x.1 t).2.1 = x.2 ∧
      (leafAt env.planes x.1 t).2.1 =
        ([boxA, boxB].filter fun b => Inside env b x.1).foldl (fun c b => env.combine c b.contents) env.empty := by
  have h := isGood
  unfold good at h
  split at h
  · rename_i t ht
    refine ⟨t, ht, ?_⟩
    intro x hx
    have hx' := List.all_eq_true.1 h x hx
    obtain ⟨p, c⟩ := x
    simp only [Bool.and_eq_true, List.all_eq_true, decide_eq_true_eq] at hx'
    obtain ⟨⟨⟨h1, h2⟩, h3⟩, h4⟩ := hx'
    exact ⟨h4, leaf_contents planesOk (by simp) (by
      intro b hb
      simp only [List.mem_cons, List.not_mem_nil, or_false] at hb
      rcases hb with rfl | rfl
      · exact closedA
      · exact closedB) ht h1 h2 h3⟩
  · simp at h

end Verif.BrushBsp.Ex
