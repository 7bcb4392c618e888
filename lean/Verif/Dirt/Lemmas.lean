import Verif.Dirt.Spec
import Mathlib.Tactic.Ring
import Mathlib.Tactic.Positivity
import Mathlib.Tactic.LinearCombination
import Mathlib.Tactic.FieldSimp
import Mathlib.Algebra.BigOperators.Group.List.Basic
import Mathlib.Algebra.Order.BigOperators.Group.List
import Mathlib.Analysis.SpecialFunctions.Trigonometric.Bounds

/-!
Lemmas for C215.
-/

namespace Verif.Dirt

open Verif.Geom Spec

theorem sq_le_of_abs {a b : ℝ} (h : |a| ≤ |b|) : a ^ 2 ≤ b ^ 2 := sq_le_sq.mpr h

/-- The two tangents of a unit vector, in terms of its components. -/
theorem tangents_spec (n : Vec ℝ) (hn : Normed n) : ∃ p q m : ℝ, p ^ 2 + q ^ 2 + m ^ 2 = 1 ∧ p ^ 2 ≤ m ^ 2 ∧ q ^ 2 ≤ m ^ 2 ∧
    p * q * m = n.x * n.y * n.z ∧ dot (tangents n).1 n = 0 ∧ dot (tangents n).2 n = 0 ∧
    dot (tangents n).1 (tangents n).1 = 1 - p ^ 2 ∧ dot (tangents n).2 (tangents n).2 = 1 - q ^ 2 ∧
    dot (tangents n).2 (tangents n).1 = -(p * q) := by
  unfold Normed at hn
  have key : ∀ (t b : Vec ℝ) (p q m : ℝ), p ^ 2 + q ^ 2 + m ^ 2 = 1 → p ^ 2 ≤ m ^ 2 → q ^ 2 ≤ m ^ 2 → p * q * m = n.x * n.y * n.z →
      dot t n = 0 → dot b n = 0 → dot t t = 1 - p ^ 2 → dot b b = 1 - q ^ 2 → dot b t = -(p * q) → ∀ c : Prop, ∀ _ : Decidable c,
      ∃ p q m : ℝ, p ^ 2 + q ^ 2 + m ^ 2 = 1 ∧ p ^ 2 ≤ m ^ 2 ∧ q ^ 2 ≤ m ^ 2 ∧
      p * q * m = n.x * n.y * n.z ∧ dot (if c then (b, t) else (t, b)).1 n = 0 ∧ dot (if c then (b, t) else (t, b)).2 n = 0 ∧
      dot (if c then (b, t) else (t, b)).1 (if c then (b, t) else (t, b)).1 = 1 - p ^ 2 ∧
      dot (if c then (b, t) else (t, b)).2 (if c then (b, t) else (t, b)).2 = 1 - q ^ 2 ∧
      dot (if c then (b, t) else (t, b)).2 (if c then (b, t) else (t, b)).1 = -(p * q) := by
    intro t b p q m h1 h2 h3 h4 h5 h6 h7 h8 h9 c _
    by_cases hc : c
    · refine ⟨q, p, m, by linarith, h3, h2, by linarith, ?_⟩
      simp only [if_pos hc]
      refine ⟨h6, h5, h8, h7, ?_⟩
      have : dot t b = dot b t := by unfold dot; ring
      rw [this, h9]; ring
    · refine ⟨p, q, m, h1, h2, h3, h4, ?_⟩
      simp only [if_neg hc]
      exact ⟨h5, h6, h7, h8, h9⟩
  unfold tangents
  have cases : (largest n = 0 ∧ |n.y| ≤ |n.x| ∧ |n.z| ≤ |n.x|) ∨ (largest n = 1 ∧ |n.x| ≤ |n.y| ∧ |n.z| ≤ |n.y|) ∨
      (largest n = 2 ∧ |n.x| ≤ |n.z| ∧ |n.y| ≤ |n.z|) := by
    unfold largest
    split_ifs with h1 h2 h2
    · exact Or.inl ⟨rfl, h1, h2⟩
    · exact Or.inr (Or.inr ⟨rfl, (not_le.mp h2).le, le_trans h1 (not_le.mp h2).le⟩)
    · exact Or.inr (Or.inl ⟨rfl, (not_le.mp h1).le, h2⟩)
    · exact Or.inr (Or.inr ⟨rfl, le_trans (not_le.mp h1).le (not_le.mp h2).le, (not_le.mp h2).le⟩)
  rcases cases with ⟨e, h1, h2⟩ | ⟨e, h1, h2⟩ | ⟨e, h1, h2⟩
  · simp only [e]
    refine key (cross n (unit 1)) (cross n (unit 2)) n.y n.z n.x (by linarith) (sq_le_of_abs h1) (sq_le_of_abs h2) (by ring) ?_ ?_ ?_ ?_ ?_ _ _ <;>
      simp only [cross, unit, dot] <;> nlinarith
  · simp only [e]
    refine key (cross n (unit 2)) (cross n (unit 0)) n.z n.x n.y (by linarith) (sq_le_of_abs h2) (sq_le_of_abs h1) (by ring) ?_ ?_ ?_ ?_ ?_ _ _ <;>
      simp only [cross, unit, dot] <;> nlinarith
  · simp only [e]
    refine key (cross n (unit 0)) (cross n (unit 1)) n.x n.y n.z (by linarith) (sq_le_of_abs h1) (sq_le_of_abs h2) (by ring) ?_ ?_ ?_ ?_ ?_ _ _ <;>
      simp only [cross, unit, dot] <;> nlinarith

theorem dot_smul_left (k : ℝ) (a b : Vec ℝ) : dot (smul k a) b = k * dot a b := by unfold dot smul; ring
theorem dot_smul_right (k : ℝ) (a b : Vec ℝ) : dot a (smul k b) = k * dot a b := by unfold dot smul; ring
theorem dot_vadd_left (a b c : Vec ℝ) : dot (vadd a b) c = dot a c + dot b c := by unfold dot vadd; ring
theorem dot_vadd_right (a b c : Vec ℝ) : dot a (vadd b c) = dot a b + dot a c := by unfold dot vadd; ring
theorem dot_comm (a b : Vec ℝ) : dot a b = dot b a := by unfold dot; ring

theorem normalize_unit {a : Vec ℝ} (h : 0 < dot a a) : dot (normalize a) (normalize a) = 1 := by
  unfold normalize
  rw [dot_smul_left, dot_smul_right]
  have := Real.sq_sqrt h.le
  have hp := Real.sqrt_pos.mpr h
  field_simp
  linarith

/-- How oblique the two unit tangents are. -/
noncomputable def skew (n : Vec ℝ) : ℝ := dot (normalize (tangents n).2) (normalize (tangents n).1)

/-- The direction of a ray: its part along the normal, and its length. -/
theorem dir_dots (n v : Vec ℝ) (hn : Normed n) : dot (toTangentSpace n v) n = v.z ∧
    dot (toTangentSpace n v) (toTangentSpace n v) = v.x ^ 2 + v.y ^ 2 + v.z ^ 2 + 2 * v.x * v.y * skew n := by
  obtain ⟨p, q, m, h1, h2, h3, _, h5, h6, h7, h8, _⟩ := tangents_spec n hn
  have hnn : dot n n = 1 := by unfold Normed at hn; unfold dot; linarith
  have e1 : dot (normalize (tangents n).1) n = 0 := by unfold normalize; rw [dot_smul_left, h5, mul_zero]
  have e2 : dot (normalize (tangents n).2) n = 0 := by unfold normalize; rw [dot_smul_left, h6, mul_zero]
  have u1 := normalize_unit (a := (tangents n).1) (by rw [h7]; nlinarith [sq_nonneg q])
  have u2 := normalize_unit (a := (tangents n).2) (by rw [h8]; nlinarith [sq_nonneg p])
  unfold toTangentSpace skew
  generalize normalize (tangents n).1 = a at *
  generalize normalize (tangents n).2 = b at *
  constructor
  · rw [dot_vadd_left, dot_vadd_left, dot_smul_left, dot_smul_left, dot_smul_left, e1, e2, hnn]; ring
  · have e1' : dot n a = 0 := by rw [dot_comm]; exact e1
    have e2' : dot n b = 0 := by rw [dot_comm]; exact e2
    simp only [dot_vadd_left, dot_vadd_right, dot_smul_left, dot_smul_right]
    rw [e1, e2, e1', e2', u1, u2, hnn, dot_comm a b]
    ring

/-- The tangents are oblique by at most 30 degrees, and perpendicular where a component of the normal is zero. -/
theorem skew_bound (n : Vec ℝ) (hn : Normed n) : |skew n| ≤ 1 / 2 ∧ (n.x * n.y * n.z = 0 → skew n = 0) := by
  obtain ⟨p, q, m, h1, h2, h3, h4, _, _, h7, h8, h9⟩ := tangents_spec n hn
  have hA : 0 < 1 - p ^ 2 := by nlinarith [sq_nonneg q]
  have hB : 0 < 1 - q ^ 2 := by nlinarith [sq_nonneg p]
  have e : skew n = -(p * q) / (Real.sqrt (1 - q ^ 2) * Real.sqrt (1 - p ^ 2)) := by
    unfold skew normalize
    rw [dot_smul_left, dot_smul_right, h7, h8, h9]
    have := Real.sqrt_pos.mpr hA
    have := Real.sqrt_pos.mpr hB
    field_simp
  constructor
  · rw [e, ← Real.sqrt_mul hB.le, abs_div, abs_of_pos (Real.sqrt_pos.mpr (mul_pos hB hA)), div_le_iff₀ (Real.sqrt_pos.mpr (mul_pos hB hA)), abs_neg]
    have h : |p * q| * 2 ≤ Real.sqrt ((1 - q ^ 2) * (1 - p ^ 2)) := by
      apply Real.le_sqrt_of_sq_le
      rw [mul_pow, sq_abs]
      have hp := sq_nonneg p
      have hq := sq_nonneg q
      have hm := sq_nonneg m
      nlinarith [mul_nonneg hp (sub_nonneg.mpr h3), mul_nonneg hq (sub_nonneg.mpr h2), mul_nonneg (sub_nonneg.mpr h2) (sub_nonneg.mpr h3)]
    linarith
  · intro h0
    rw [← h4] at h0
    have hm : m ≠ 0 := by
      rintro rfl
      nlinarith
    have : p * q = 0 := (mul_eq_zero.mp h0).resolve_right hm
    rw [e, this]
    simp

/-! ### The vectors -/

theorem vector_unit (a e : ℝ) : (vector a e).x ^ 2 + (vector a e).y ^ 2 + (vector a e).z ^ 2 = 1 := by
  simp only [vector]
  have h1 := Real.sin_sq_add_cos_sq a
  have h2 := Real.sin_sq_add_cos_sq e
  linear_combination (Real.sin e) ^ 2 * h1 + h2

theorem dirtVectors_length (a : ℝ) : (dirtVectors a).length = 48 := by
  unfold dirtVectors
  simp

/-- Every vector has angles, the elevation being up to the cone angle. -/
theorem getVector_spec (cfg : Conf) (hc : Valid cfg) (rnd : ℕ → ℝ × ℝ) (hr : Draws rnd) (j : ℕ) (hj : j < 48) :
    ∃ a e, getVector cfg (rnd j) j = vector a e ∧ 0 ≤ e ∧ e ≤ deg2rad cfg.angle := by
  obtain ⟨_, h1, h2⟩ := hc
  have hd : 0 ≤ deg2rad cfg.angle := by unfold deg2rad; have := Real.pi_pos; positivity
  unfold getVector
  split_ifs with h
  · obtain ⟨_, _, r1, r2⟩ := hr j
    exact ⟨_, _, rfl, by positivity, by nlinarith⟩
  · have hl := dirtVectors_length cfg.angle
    rw [List.getD_eq_getElem?_getD, List.getElem?_eq_getElem (by omega), Option.getD_some]
    have hm := List.getElem_mem (l := dirtVectors cfg.angle) (n := j) (by omega)
    generalize (dirtVectors cfg.angle)[j] = v at hm
    unfold dirtVectors at hm
    rw [List.mem_flatMap] at hm
    obtain ⟨i, _, hm⟩ := hm
    rw [List.mem_map] at hm
    obtain ⟨k, hk, rfl⟩ := hm
    rw [List.mem_range] at hk
    have hk' : (k : ℝ) ≤ 2 := by exact_mod_cast (by omega : k ≤ 2)
    have hk0 : (0 : ℝ) ≤ k := by positivity
    have e : deg2rad (cfg.angle / 3) = deg2rad cfg.angle / 3 := by unfold deg2rad; ring
    refine ⟨_, _, rfl, ?_, ?_⟩ <;> rw [e] <;> nlinarith

/-- The length of every ray's direction. -/
theorem dir_length (n v : Vec ℝ) (hn : Normed n) (hv : v.x ^ 2 + v.y ^ 2 + v.z ^ 2 = 1) :
    1 / 2 ≤ dot (toTangentSpace n v) (toTangentSpace n v) ∧ dot (toTangentSpace n v) (toTangentSpace n v) ≤ 3 / 2 ∧
    (n.x * n.y * n.z = 0 → dot (toTangentSpace n v) (toTangentSpace n v) = 1) := by
  obtain ⟨hb, h0⟩ := skew_bound n hn
  rw [(dir_dots n v hn).2, hv]
  have h1 : |2 * v.x * v.y * skew n| ≤ 1 / 2 := by
    rw [abs_mul]
    have : |2 * v.x * v.y| ≤ 1 := by
      rw [abs_le]
      constructor <;> nlinarith [sq_nonneg (v.x + v.y), sq_nonneg (v.x - v.y), sq_nonneg v.z]
    nlinarith [abs_nonneg (2 * v.x * v.y), abs_nonneg (skew n)]
  rw [abs_le] at h1
  refine ⟨by linarith [h1.1], by linarith [h1.2], fun h => by rw [h0 h]; ring⟩

theorem distSq_along (o d : Vec ℝ) (t : ℝ) : distSq (along o d t) o = t ^ 2 * dot d d := by
  unfold distSq along dot
  ring

theorem dot_along (o d n : Vec ℝ) (t : ℝ) : dot (along o d t) n = dot o n + t * dot d n := by
  unfold along dot
  ring

/-! ### Sums -/

theorem sum_const (l : List ℕ) (f : ℕ → ℝ) (c : ℝ) (h : ∀ j ∈ l, f j = c) : (l.map f).sum = l.length * c := by
  induction l with
  | nil => simp
  | cons a t ih =>
    rw [List.map_cons, List.sum_cons, h a List.mem_cons_self, ih fun j hj => h j (List.mem_cons_of_mem _ hj), List.length_cons]
    push_cast
    ring

theorem sum_mono (l : List ℕ) (f g : ℕ → ℝ) (h : ∀ j ∈ l, f j ≤ g j) : (l.map f).sum ≤ (l.map g).sum := by
  induction l with
  | nil => simp
  | cons a t ih =>
    rw [List.map_cons, List.sum_cons, List.map_cons, List.sum_cons]
    have := h a List.mem_cons_self
    have := ih fun j hj => h j (List.mem_cons_of_mem _ hj)
    linarith

theorem sum_lt (l : List ℕ) (f g : ℕ → ℝ) (h : ∀ j ∈ l, f j ≤ g j) (hs : ∃ j ∈ l, f j < g j) : (l.map f).sum < (l.map g).sum := by
  induction l with
  | nil => obtain ⟨j, hj, _⟩ := hs; cases hj
  | cons a t ih =>
    rw [List.map_cons, List.sum_cons, List.map_cons, List.sum_cons]
    have ha := h a List.mem_cons_self
    have ht : ∀ j ∈ t, f j ≤ g j := fun j hj => h j (List.mem_cons_of_mem _ hj)
    obtain ⟨j, hj, hlt⟩ := hs
    rcases List.mem_cons.mp hj with rfl | hj
    · have := sum_mono t f g ht
      linarith
    · have := ih ht ⟨j, hj, hlt⟩
      linarith

end Verif.Dirt
