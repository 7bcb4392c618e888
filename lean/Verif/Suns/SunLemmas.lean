import Verif.Suns.Spec
import Mathlib.Analysis.Real.Pi.Bounds
import Mathlib.Tactic.FieldSimp
import Mathlib.Tactic.Positivity

/-!
Lemmas on directions and on the draws of `SetupSun`.
-/

namespace Verif.Suns

open Verif.Geom Verif.Phong

theorem smul_smul' (a b : ℝ) (v : Vec ℝ) : smul a (smul b v) = smul (a * b) v := by
  unfold smul
  refine vec_ext ?_ ?_ ?_ <;> simp only <;> ring

theorem one_smul' (v : Vec ℝ) : smul 1 v = v := by
  unfold smul
  refine vec_ext ?_ ?_ ?_ <;> simp

theorem len_pos {v : Vec ℝ} (h : v ≠ ⟨0, 0, 0⟩) : 0 < realOps.len v := by
  rcases (len_nonneg v).lt_or_eq with h1 | h1
  · exact h1
  · exfalso
    have h2 := len_sq v
    rw [← h1, mul_zero] at h2
    unfold dot at h2
    apply h
    refine vec_ext ?_ ?_ ?_ <;>
      exact mul_self_eq_zero.1 (by nlinarith [mul_self_nonneg v.x, mul_self_nonneg v.y, mul_self_nonneg v.z])

theorem normalize_dirOf {v : Vec ℝ} (h : v ≠ ⟨0, 0, 0⟩) : DirOf (normalize v) v := by
  have hp := len_pos h
  have hs := len_sq v
  unfold normalize
  rw [if_neg hp.ne']
  generalize realOps.len v = l at hp hs
  refine ⟨?_, l, hp, ?_⟩
  · have : dot (smul (1 / l) v) (smul (1 / l) v) = (1 / l) * (1 / l) * dot v v := by unfold dot smul; ring
    rw [this, ← hs]
    field_simp
  · rw [smul_smul', mul_one_div_cancel hp.ne', one_smul']

theorem normalize_unit {v : Vec ℝ} (h : dot v v = 1) : normalize v = v := by
  have hl : realOps.len v = 1 := by
    have : realOps.len v = Real.sqrt (dot v v) := rfl
    rw [this, h, Real.sqrt_one]
  unfold normalize
  rw [if_neg (by rw [hl]; exact one_ne_zero), hl, one_div_one, one_smul']

/-- The direction in terms of two angles. -/
noncomputable def polar (a e : ℝ) : Vec ℝ := ⟨Real.cos a * Real.cos e, Real.sin a * Real.cos e, Real.sin e⟩

theorem polar_unit (a e : ℝ) : dot (polar a e) (polar a e) = 1 := by
  unfold dot polar
  simp only
  have h1 := Real.sin_sq_add_cos_sq a
  have h2 := Real.sin_sq_add_cos_sq e
  calc _ = (Real.sin a ^ 2 + Real.cos a ^ 2) * Real.cos e ^ 2 + Real.sin e ^ 2 := by ring
    _ = 1 := by rw [h1]; linarith

theorem polar_dot (a e da de : ℝ) :
    dot (polar (a + da) (e + de)) (polar a e)
      = Real.cos de - Real.cos e * Real.cos (e + de) * (1 - Real.cos da) := by
  have h1 : Real.cos da = Real.cos (a + da) * Real.cos a + Real.sin (a + da) * Real.sin a := by
    rw [← Real.cos_sub]; congr 1; ring
  have h2 : Real.cos de = Real.cos (e + de) * Real.cos e + Real.sin (e + de) * Real.sin e := by
    rw [← Real.cos_sub]; congr 1; ring
  rw [h1, h2]
  unfold dot polar
  simp only
  ring

theorem polar_of_unit {v : Vec ℝ} (h : dot v v = 1) :
    v = polar (atan2 v.y v.x) (atan2 v.z (Real.sqrt (v.x * v.x + v.y * v.y))) := by
  have hd : ‖(⟨v.x, v.y⟩ : ℂ)‖ = Real.sqrt (v.x * v.x + v.y * v.y) := by
    rw [Complex.norm_def, Complex.normSq_mk]
  have hx := Complex.norm_mul_cos_arg ⟨v.x, v.y⟩
  have hy := Complex.norm_mul_sin_arg ⟨v.x, v.y⟩
  rw [hd] at hx hy
  simp only at hx hy
  have hnn : 0 ≤ v.x * v.x + v.y * v.y := by nlinarith [mul_self_nonneg v.x, mul_self_nonneg v.y]
  have hsq := Real.mul_self_sqrt hnn
  generalize hdd : Real.sqrt (v.x * v.x + v.y * v.y) = d at hx hy hsq
  have h1 : ‖(⟨d, v.z⟩ : ℂ)‖ = 1 := by
    rw [Complex.norm_def, Complex.normSq_mk, hsq]
    unfold dot at h
    rw [h, Real.sqrt_one]
  have hc := Complex.norm_mul_cos_arg ⟨d, v.z⟩
  have hs := Complex.norm_mul_sin_arg ⟨d, v.z⟩
  rw [h1, one_mul] at hc hs
  simp only at hc hs
  unfold polar atan2
  refine vec_ext ?_ ?_ ?_
  · simp only
    rw [hc, mul_comm, hx]
  · simp only
    rw [hc, mul_comm, hy]
  · simp only
    rw [hs]

theorem turned_eq (v : Vec ℝ) (da de : ℝ) :
    turned v da de = polar (atan2 v.y v.x + da) (atan2 v.z (Real.sqrt (v.x * v.x + v.y * v.y)) + de) := rfl

/-- A turned direction is not far away. -/
theorem turned_near {v : Vec ℝ} (h : dot v v = 1) {d da de : ℝ} (hd : d ≤ Real.pi) (ha : |da| ≤ d) (he : |de| ≤ d) :
    2 * Real.cos d - 1 ≤ dot (turned v da de) v := by
  have key : ∀ a e, 2 * Real.cos d - 1 ≤ dot (polar (a + da) (e + de)) (polar a e) := by
    intro a e
    rw [polar_dot]
    have c1 : Real.cos d ≤ Real.cos da := by
      rw [← Real.cos_abs da]
      exact Real.cos_le_cos_of_nonneg_of_le_pi (abs_nonneg _) hd ha
    have c2 : Real.cos d ≤ Real.cos de := by
      rw [← Real.cos_abs de]
      exact Real.cos_le_cos_of_nonneg_of_le_pi (abs_nonneg _) hd he
    have c3 : Real.cos da ≤ 1 := Real.cos_le_one _
    have c4 : Real.cos e * Real.cos (e + de) ≤ 1 := by
      have := Real.cos_le_one e
      have := Real.neg_one_le_cos e
      have := Real.cos_le_one (e + de)
      have := Real.neg_one_le_cos (e + de)
      nlinarith
    nlinarith
  have := key (atan2 v.y v.x) (atan2 v.z (Real.sqrt (v.x * v.x + v.y * v.y)))
  rw [← turned_eq, ← polar_of_unit h] at this
  exact this

theorem turned_unit (v : Vec ℝ) (da de : ℝ) : dot (turned v da de) (turned v da de) = 1 := by
  rw [turned_eq]
  exact polar_unit _ _

theorem abs_draw {u : ℝ} (h : 0 ≤ u ∧ u ≤ 1) (d : ℝ) : |(u * 2 - 1) * d| ≤ |d| := by
  rw [abs_mul]
  have : |u * 2 - 1| ≤ 1 := abs_le.2 ⟨by linarith [h.1], by linarith [h.2]⟩
  nlinarith [abs_nonneg d]

theorem rad_small (d : ℝ) : 2 * (rad d * rad d) ≤ d * d := by
  unfold rad
  have h1 := Real.pi_le_four
  have h2 := Real.pi_pos
  have : 2 * (2 * Real.pi / 360) * (2 * Real.pi / 360) ≤ 1 := by nlinarith
  nlinarith [mul_self_nonneg d]

theorem abs_rad {d : ℝ} (h : 0 ≤ d) : |rad d| = rad d :=
  abs_of_nonneg (by unfold rad; have := Real.pi_pos; positivity)

/-- The first draw is always taken. -/
theorem drawAngles_first {r : ℕ → ℝ} (hr : Draws r) (dev : ℝ) (fuel at' : ℕ) :
    drawAngles r (rad dev) (dev * dev) (fuel + 1) at'
      = some (((r at' * 2 - 1) * rad dev, (r (at' + 1) * 2 - 1) * rad dev), at' + 2) := by
  have h1 := abs_draw (hr at') (rad dev)
  have h2 := abs_draw (hr (at' + 1)) (rad dev)
  have h3 := rad_small dev
  unfold drawAngles
  simp only
  rw [if_neg]
  rw [not_lt]
  have e1 := abs_mul_abs_self ((r at' * 2 - 1) * rad dev)
  have e2 := abs_mul_abs_self ((r (at' + 1) * 2 - 1) * rad dev)
  have e3 := abs_mul_abs_self (rad dev)
  have := mul_self_le_mul_self (abs_nonneg _) h1
  have := mul_self_le_mul_self (abs_nonneg _) h2
  linarith

theorem addSun_looks {cfg : Cfg} {dir : Vec ℝ} {light : ℝ} {k : Look} {s : Sun} (h : s ∈ addSun cfg dir light k) :
    Looks cfg k s ∧ s.light = light ∧ shine s = normalize dir := by
  unfold addSun at h
  split at h
  · cases h
  · rw [List.mem_singleton] at h
    subst h
    refine ⟨⟨rfl, rfl, rfl, rfl, ?_, ?_, ?_⟩, rfl, ?_⟩
    · intro e
      simp [resolveDirt, e]
    · intro e
      simp [resolveDirt, e]
    · intro e1 e2
      simp [resolveDirt, e1, e2]
    · unfold shine
      simp only
      rw [smul_smul']
      norm_num
      exact one_smul' _

theorem addSun_length (cfg : Cfg) (dir : Vec ℝ) {light : ℝ} (h : light ≠ 0) (k : Look) :
    ∃ s, addSun cfg dir light k = [s] := by
  unfold addSun
  rw [if_neg h]
  exact ⟨_, rfl⟩

theorem addSun_total (cfg : Cfg) (dir : Vec ℝ) (light : ℝ) (k : Look) : total (addSun cfg dir light k) = light := by
  unfold addSun total
  split
  · simp [*]
  · simp

theorem total_append (a b : List Sun) : total (a ++ b) = total a + total b := by
  unfold total
  rw [List.map_append, List.sum_append]

theorem moreSuns_spec {r : ℕ → ℝ} (hr : Draws r) (fuel : ℕ) (cfg : Cfg) (v : Vec ℝ) (dev light : ℝ) (k : Look)
    (n at' : ℕ) :
    ∃ suns, moreSuns (fuel + 1) cfg r v (rad dev) (dev * dev) light k n at' = some (suns, at' + 2 * n) ∧
      total suns = n * light ∧ (light ≠ 0 → suns.length = n) ∧
      ∀ s ∈ suns, Looks cfg k s ∧ s.light = light ∧
        ∃ da de, |da| ≤ |rad dev| ∧ |de| ≤ |rad dev| ∧ shine s = turned v da de := by
  induction n generalizing at' with
  | zero => exact ⟨[], rfl, by simp [total], fun _ => rfl, fun s h => by cases h⟩
  | succ n ih =>
    obtain ⟨suns, h1, h2, h3, h4⟩ := ih (at' + 2)
    refine ⟨addSun cfg (turned v ((r at' * 2 - 1) * rad dev) ((r (at' + 1) * 2 - 1) * rad dev)) light k ++ suns,
      ?_, ?_, ?_, ?_⟩
    · rw [moreSuns, drawAngles_first hr]
      simp only
      rw [h1]
      simp only [Option.some.injEq, Prod.mk.injEq, true_and]
      ring
    · rw [total_append, addSun_total, h2]
      push_cast
      ring
    · intro hl
      obtain ⟨s, hs⟩ := addSun_length cfg (turned v ((r at' * 2 - 1) * rad dev) ((r (at' + 1) * 2 - 1) * rad dev)) hl k
      rw [hs, List.length_append, h3 hl]
      simp
      ring
    · intro s hs
      rcases List.mem_append.1 hs with h | h
      · obtain ⟨a, b, c⟩ := addSun_looks h
        refine ⟨a, b, _, _, abs_draw (hr at') _, abs_draw (hr (at' + 1)) _, ?_⟩
        rw [c, normalize_unit (turned_unit _ _ _)]
      · exact h4 s h

/-- What `SetupSun` gives. -/
theorem setupSun_spec {r : ℕ → ℝ} (hr : Draws r) (fuel : ℕ) (cfg : Cfg) (hn : 0 < cfg.sunsamples) (at' : ℕ) (light : ℝ)
    (k : Look) (dir : Vec ℝ) (dev : ℝ) :
    ∃ suns, setupSun (fuel + 1) cfg r at' light k dir dev
        = some (addSun cfg (normalize dir) (light / sunCount cfg dev) k ++ suns, at' + 2 * (sunCount cfg dev - 1)) ∧
      total suns = (sunCount cfg dev - 1 : ℕ) * (light / sunCount cfg dev) ∧
      (light ≠ 0 → suns.length = sunCount cfg dev - 1) ∧
      ∀ s ∈ suns, Looks cfg k s ∧ s.light = light / sunCount cfg dev ∧
        ∃ da de, |da| ≤ |rad dev| ∧ |de| ≤ |rad dev| ∧ shine s = turned (normalize dir) da de := by
  have hc : 0 < sunCount cfg dev := by
    unfold sunCount
    split
    · exact one_pos
    · exact hn
  obtain ⟨suns, h1, h2, h3, h4⟩ := moreSuns_spec hr fuel cfg (normalize dir) dev (light / sunCount cfg dev) k
    (sunCount cfg dev - 1) at'
  refine ⟨suns, ?_, h2, ?_, h4⟩
  · unfold setupSun
    simp only
    rw [if_neg hc.ne', h1]
  · intro hl
    apply h3
    have : (sunCount cfg dev : ℝ) ≠ 0 := Nat.cast_ne_zero.2 hc.ne'
    exact div_ne_zero hl this

theorem sunCount_pos {cfg : Cfg} (hn : 0 < cfg.sunsamples) (dev : ℝ) : 0 < sunCount cfg dev := by
  unfold sunCount
  split
  · exact one_pos
  · exact hn

theorem setupSun_total {r : ℕ → ℝ} (hr : Draws r) (fuel : ℕ) (cfg : Cfg) (hn : 0 < cfg.sunsamples) (at' : ℕ) (light : ℝ)
    (k : Look) (dir : Vec ℝ) (dev : ℝ) :
    ∃ suns last, setupSun (fuel + 1) cfg r at' light k dir dev = some (suns, last) ∧ total suns = light := by
  obtain ⟨suns, h1, h2, -, -⟩ := setupSun_spec hr fuel cfg hn at' light k dir dev
  have hc := sunCount_pos hn dev
  refine ⟨_, _, h1, ?_⟩
  rw [total_append, addSun_total, h2]
  have h0 : (sunCount cfg dev : ℝ) ≠ 0 := Nat.cast_ne_zero.2 hc.ne'
  rw [Nat.cast_sub hc]
  push_cast
  field_simp
  ring

end Verif.Suns
