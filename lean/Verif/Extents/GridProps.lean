import Mathlib.Algebra.BigOperators.Fin
import Mathlib.Algebra.BigOperators.Intervals
import Mathlib.Algebra.Order.BigOperators.Group.Finset
import Verif.Extents.DecoupledProps

/-!
C163: the samples of a face. With `-extra` a luxel has 2 by 2 samples, with `-extra4` 4 by 4: they surround the luxel evenly,
they are one unit in front of the face, and every point of the face is near a sample.
-/

namespace Verif.Extents

open Verif.Geom

section
variable {K : Type} [Field K] [LinearOrder K] [IsStrictOrderedRing K]

/-- The samples of a luxel lie within it. -/
theorem grid_inside {extra : Nat} (he : 0 < extra) (S i : Nat) (hi : i < extra) :
    |(gridCoord extra (S * extra + i) : K) - S| < 1 / 2 := by
  have pe : (0 : K) < extra := Nat.cast_pos.2 he
  have pi : (i : K) + 1 ≤ extra := by exact_mod_cast hi
  have p0 : (0 : K) ≤ i := Nat.cast_nonneg i
  have e : (gridCoord extra (S * extra + i) : K) - S = -(1 / 2) + (1 / 2 + i) / extra := by
    unfold gridCoord
    push_cast
    field_simp
    ring
  rw [e, abs_lt]
  have h1 : 0 < (1 / 2 + (i : K)) / extra := div_pos (by linarith) pe
  have h2 : (1 / 2 + (i : K)) / extra < 1 := (div_lt_one pe).2 (by linarith)
  constructor <;> linarith

/-- The middle of the samples of a luxel is the luxel. -/
theorem grid_centered {extra : Nat} (he : 0 < extra) (S : Nat) :
    (∑ i ∈ Finset.range extra, (gridCoord extra (S * extra + i) : K)) = extra * S := by
  have pe : (extra : K) ≠ 0 := ne_of_gt (Nat.cast_pos.2 he)
  have e : ∀ i ∈ Finset.range extra, (gridCoord extra (S * extra + i) : K) =
      (S - 1 / 2 + 1 / 2 / extra) + (i : K) * (1 / extra) := by
    intro i _
    unfold gridCoord
    push_cast
    field_simp
    ring
  rw [Finset.sum_congr rfl e, Finset.sum_add_distrib, Finset.sum_const, Finset.card_range, ← Finset.sum_mul,
    nsmul_eq_mul]
  have g : (∑ i ∈ Finset.range extra, (i : K)) * 2 = extra * (extra - 1) := by
    have := Finset.sum_range_id_mul_two extra
    have c : ((∑ i ∈ Finset.range extra, i : Nat) : K) * 2 = ((extra * (extra - 1) : Nat) : K) := by
      rw [← this]; push_cast; ring
    rw [Nat.cast_sum, Nat.cast_mul, Nat.cast_sub he] at c
    rw [c, Nat.cast_one]
  have g' : (∑ i ∈ Finset.range extra, (i : K)) = extra * (extra - 1) / 2 := by
    rw [eq_div_iff two_ne_zero]; exact g
  rw [g']
  field_simp
  ring

/-- Every coordinate inside the lightmap has a sample within half the distance of two samples. -/
theorem grid_dense [FloorRing K] {extra : Nat} (he : 0 < extra) {w : Nat} {x : K} (h0 : 0 ≤ x) (h1 : x ≤ w) :
    ∃ i < (w + 1) * extra, |x - gridCoord extra i| ≤ 1 / 2 / extra := by
  have pe : (0 : K) < extra := Nat.cast_pos.2 he
  have pos : 0 ≤ (x + 1 / 2) * extra := mul_nonneg (by linarith) (le_of_lt pe)
  have f1 := Int.floor_le ((x + 1 / 2) * (extra : K))
  have f2 := Int.lt_floor_add_one ((x + 1 / 2) * (extra : K))
  have fn : 0 ≤ ⌊(x + 1 / 2) * (extra : K)⌋ := Int.floor_nonneg.2 pos
  obtain ⟨i, hi⟩ := Int.eq_ofNat_of_zero_le fn
  rw [hi] at f1 f2
  simp only [Int.cast_natCast] at f1 f2
  refine ⟨i, ?_, ?_⟩
  · have : (i : K) < ((w + 1) * extra : Nat) := by
      push_cast
      nlinarith
    exact_mod_cast this
  · have e : x - gridCoord extra i = ((x + 1 / 2) * extra - i - 1 / 2) / extra := by
      unfold gridCoord
      field_simp
      ring
    rw [e, abs_div, abs_of_pos pe]
    apply div_le_div_of_nonneg_right _ (le_of_lt pe)
    rw [abs_le]
    constructor <;> linarith

variable [FloorRing K]

/-- The samples are one unit in front of the plane, straight above the points of their lightmap coordinates. -/
theorem sample_in_front {f : Face K} {e : Ext K} (h : Spec.Measured f e)
    (hn : f.plane.normal.x * f.plane.normal.x + f.plane.normal.y * f.plane.normal.y +
      f.plane.normal.z * f.plane.normal.z = 1) {extra s t : Nat} {p : Vec K}
    (hp : samplePoint e f.plane.normal extra s t = some p) :
    f.plane.distTo p = 1 ∧
      e.lmCoord ⟨p.x - f.plane.normal.x, p.y - f.plane.normal.y, p.z - f.plane.normal.z⟩ =
        (gridCoord extra s, gridCoord extra t) := by
  unfold samplePoint at hp
  cases hw : e.world (gridCoord extra s) (gridCoord extra t) with
  | none => rw [hw] at hp; cases hp
  | some q =>
    rw [hw] at hp
    injection hp with hp
    obtain ⟨h1, h2⟩ := lightmap_on_face h hw
    rw [← hp]
    unfold Spec.On at h1
    refine ⟨?_, ?_⟩
    · unfold Plane.distTo dot
      simp only
      linarith
    · simp only [add_sub_cancel_right]
      exact h2

/-- Every point of a measured face is near a sample of its lightmap. -/
theorem face_sampled {f : Face K} {e : Ext K} (h : Spec.Measured f e) {extra : Nat} (he : 0 < extra) {p : Vec K}
    (hp : Spec.InFace f.points p) :
    ∃ s t : Nat, (s : Int) < (e.w + 1) * extra ∧ (t : Int) < (e.h + 1) * extra ∧
      |(e.lmCoord p).1 - gridCoord extra s| ≤ 1 / 2 / extra ∧ |(e.lmCoord p).2 - gridCoord extra t| ≤ 1 / 2 / extra := by
  obtain ⟨w0, h0, _⟩ := measured_nonneg h
  obtain ⟨a, b, c, d⟩ := face_covered h hp
  obtain ⟨w, hw⟩ := Int.eq_ofNat_of_zero_le w0
  obtain ⟨k, hk⟩ := Int.eq_ofNat_of_zero_le h0
  rw [hw, Int.cast_natCast] at b
  rw [hk, Int.cast_natCast] at d
  obtain ⟨s, s1, s2⟩ := grid_dense he a b
  obtain ⟨t, t1, t2⟩ := grid_dense he c d
  exact ⟨s, t, by rw [hw]; exact_mod_cast s1, by rw [hk]; exact_mod_cast t1, s2, t2⟩

end

/-- With `-extra4`, the first samples of a luxel are at -3/8 and -1/8. -/
example : (gridCoord 4 0 : ℚ) = -3 / 8 ∧ (gridCoord 4 1 : ℚ) = -1 / 8 ∧ (gridCoord 1 3 : ℚ) = 3 := by decide +kernel

/-- A sample of the face on the floor. -/
example : ∃ e, vanilla exampleFace 16 = .ok e ∧ samplePoint e exampleFace.plane.normal 1 1 1 = some ⟨13, 16, 9⟩ := by
  obtain ⟨e, h, hp⟩ := check_ok (o := vanilla exampleFace 16)
    (p := fun e => decide (samplePoint e exampleFace.plane.normal 1 1 1 = some ⟨13, 16, 9⟩)) (by decide +kernel)
  exact ⟨e, h, of_decide_eq_true hp⟩

end Verif.Extents
