import Mathlib.Tactic.Ring
import Mathlib.Tactic.FieldSimp
import Mathlib.Tactic.LinearCombination
import Verif.Projector.Model
import Verif.Projector.Spec

/-! Lemmas on lights that project a texture. -/

namespace Verif.Projector

open Verif.Geom

theorem transform_multiply (a b : Mat) (v : Vec4) : transform (multiply a b) v = transform a (transform b v) := by
  simp only [transform, multiply, Vec4.mk.injEq]
  norm_num
  refine ⟨?_, ?_, ?_, ?_⟩ <;> ring

theorem rad_eq (d : ℝ) : d * Real.pi / 180 = rad d := by unfold rad; ring

theorem rad_neg (d : ℝ) : rad (-d) = -rad d := by unfold rad; ring

theorem transform_modelView (a o p : Vec ℝ) :
    transform (modelView a o) ⟨p.x, p.y, p.z, 1⟩
      = ⟨dot (right a.x a.y a.z) (fromTo o p), dot (up a.x a.y a.z) (fromTo o p), -dot (ahead a.x a.y) (fromTo o p), 1⟩ := by
  unfold modelView
  simp only [transform_multiply, right, up, ahead, level, upright, mix, fromTo, dot]
  simp only [transform, translation, rotation, axes, rad_eq, rad_neg, Real.cos_neg, Real.sin_neg, Vec4.mk.injEq]
  refine ⟨?_, ?_, ?_, ?_⟩ <;> ring

theorem halfTan_eq (f : ℝ) : Real.tan (f * Real.pi / 360) = halfTan f := by
  unfold halfTan rad
  congr 1
  ring

theorem halfTan_pos {f : ℝ} (h0 : 0 < f) (h1 : f < 180) : 0 < halfTan f := by
  have hp := Real.pi_pos
  unfold halfTan rad
  apply Real.tan_pos_of_pos_of_lt_pi_div_two
  · positivity
  · have : f / 2 * (Real.pi / 180) = f / 180 * (Real.pi / 2) := by ring
    rw [this]
    exact mul_lt_of_lt_one_left (by positivity) ((div_lt_one (by norm_num)).2 h1)

theorem transform_infinite {fx fy : ℝ} (hx : 0 < halfTan fx) (hy : 0 < halfTan fy) (v : Vec4) :
    transform (infinite fx fy 4) v = ⟨v.x / halfTan fx, v.y / halfTan fy, -v.z / 2 - 8 * v.w, -v.z⟩ := by
  have ey : 4 * halfTan fy - -(4 * halfTan fy) ≠ 0 := by linarith
  have ex : 4 * halfTan fx - -(4 * halfTan fx) ≠ 0 := by linarith
  have hx' := ne_of_gt hx
  have hy' := ne_of_gt hy
  simp only [transform, infinite, halfTan_eq, Vec4.mk.injEq]
  refine ⟨?_, ?_, by ring, by ring⟩
  · by_cases h : fx = fy
    · subst h
      simp only [if_true, add_neg_cancel, zero_div, zero_mul, add_zero]
      field_simp
      ring
    · simp only [if_neg h, add_neg_cancel, zero_div, zero_mul, add_zero]
      field_simp
      ring
  · simp only [add_neg_cancel, zero_div, zero_mul, add_zero]
    field_simp
    ring

theorem project_eq {fx fy : ℝ} (hx : 0 < halfTan fx) (hy : 0 < halfTan fy) (a o p : Vec ℝ) :
    project (modelViewProj a o fx fy) p
      = (decide (16 ≤ dot (ahead a.x a.y) (fromTo o p)),
          (1 + dot (right a.x a.y a.z) (fromTo o p) / halfTan fx / dot (ahead a.x a.y) (fromTo o p)) / 2,
          (1 + dot (up a.x a.y a.z) (fromTo o p) / halfTan fy / dot (ahead a.x a.y) (fromTo o p)) / 2) := by
  unfold project modelViewProj
  simp only [transform_multiply, transform_modelView, transform_infinite hx hy, neg_neg]
  generalize dot (ahead a.x a.y) (fromTo o p) = d
  congr 1
  by_cases h : 16 ≤ d
  · have h1 : ¬ (d / 2 - 8 * 1 < 0) := by linarith
    have hd : (0 : ℝ) < d := by linarith
    have h2 : ¬ ((1 + (d / 2 - 8 * 1) / d) / 2 > 1) := by
      have : (d / 2 - 8 * 1) / d ≤ 1 := by rw [div_le_one hd]; linarith
      linarith
    simp only [h1, h2, h, decide_false, decide_true, Bool.not_false, Bool.and_self]
  · have h1 : d / 2 - 8 * 1 < 0 := by linarith
    simp only [h1, h, decide_true, decide_false, Bool.not_true, Bool.false_and]

theorem frame_of (y p r : ℝ) : Frame (ahead y p) (right y p r) (up y p r) := by
  have hy := Real.sin_sq_add_cos_sq (rad y)
  have hp := Real.sin_sq_add_cos_sq (rad p)
  have hr := Real.sin_sq_add_cos_sq (rad r)
  constructor <;> simp only [dot, ahead, right, up, level, upright, mix, Vec.mk.injEq]
  all_goals generalize Real.sin (rad y) = sy at *
  all_goals generalize Real.cos (rad y) = cy at *
  all_goals generalize Real.sin (rad p) = sp at *
  all_goals generalize Real.cos (rad p) = cp at *
  all_goals generalize Real.sin (rad r) = sr at *
  all_goals generalize Real.cos (rad r) = cr at *
  · linear_combination cp ^ 2 * hy + hp
  · linear_combination cr ^ 2 * hy + sr ^ 2 * hp + sr ^ 2 * sp ^ 2 * hy + hr
  · linear_combination sr ^ 2 * hy + cr ^ 2 * hp + cr ^ 2 * sp ^ 2 * hy + hr
  · linear_combination cp * sp * sr * hy
  · linear_combination -cp * sp * cr * hy
  · linear_combination cr * sr * hy - sr * cr * hp - cr * sr * sp ^ 2 * hy
  · refine ⟨?_, ?_, ?_⟩
    · linear_combination -cy * cp * hr
    · linear_combination -sy * cp * hr
    · linear_combination -sp * hy * (cr ^ 2 + sr ^ 2) - sp * hr

theorem calcFov_tan {f w h g : ℝ} (hw : 0 < w) (hh : 0 < h) (e : calcFov f w h = .ok g) :
    1 ≤ f ∧ f ≤ 179 ∧ 0 < g ∧ g < 180 ∧ halfTan g = h / w * halfTan f := by
  unfold calcFov at e
  split at e
  · simp at e
  · rename_i hf
    push Not at hf
    have ht : Real.tan (f / 360 * Real.pi) = halfTan f := by rw [← halfTan_eq]; congr 1; ring
    have hpos := halfTan_pos (f := f) (by linarith [hf.1]) (by linarith [hf.2])
    have hp := Real.pi_pos
    simp only [Outcome.ok.injEq] at e
    rw [ht] at e
    have hq : h / (w / halfTan f) = h / w * halfTan f := by field_simp
    rw [hq] at e
    have hx : 0 < h / w * halfTan f := by positivity
    have a0 : 0 < Real.arctan (h / w * halfTan f) := Real.arctan_pos.2 hx
    have a1 := Real.arctan_lt_pi_div_two (h / w * halfTan f)
    refine ⟨hf.1, hf.2, ?_, ?_, ?_⟩
    · rw [← e]; positivity
    · rw [← e, div_lt_iff₀ hp]; linarith
    · have : rad (g / 2) = Real.arctan (h / w * halfTan f) := by
        rw [← e]; unfold rad; field_simp; ring
      unfold halfTan at this ⊢
      rw [this, Real.tan_arctan]

theorem ahead_eq (m : Vec ℝ) : Suns.vecFromMangle m = ahead m.x m.y := by
  simp only [Suns.vecFromMangle, ahead, rad, Real.cos_neg, Real.sin_neg, neg_neg]

end Verif.Projector
