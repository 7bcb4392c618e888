import Verif.Dirt.Lemmas
import Mathlib.Tactic.IntervalCases

/-!
C215: the occlusion used for dirt.
-/

namespace Verif.Dirt

open Verif.Geom Spec

variable {solid solid' : Vec ℝ → Prop} {hit hit' : Tracer}

theorem rayDist_range (ht : Traces solid hit) (cfg : Conf) (hd : 0 < cfg.depth) (o n : Vec ℝ) (r : ℝ × ℝ) (j : ℕ) :
    0 ≤ rayDist cfg hit o n r j ∧ rayDist cfg hit o n r j ≤ cfg.depth := by
  unfold rayDist
  rcases he : hit o (toTangentSpace n (getVector cfg r j)) cfg.depth with _ | t
  · exact ⟨hd.le, le_refl _⟩
  · have := (ht _ _ _).1 t he
    exact ⟨le_min hd.le this.1, min_le_left _ _⟩

theorem rayDist_clear (ht : Traces solid hit) (cfg : Conf) (o n : Vec ℝ) (r : ℝ × ℝ) (j : ℕ)
    (h : ∀ s, 0 ≤ s → s < cfg.depth → ¬ solid (along o (toTangentSpace n (getVector cfg r j)) s)) :
    rayDist cfg hit o n r j = cfg.depth := by
  unfold rayDist
  rcases he : hit o (toTangentSpace n (getVector cfg r j)) cfg.depth with _ | t
  · rfl
  · obtain ⟨h0, _, hs, _⟩ := (ht _ _ _).1 t he
    exact min_eq_left (not_lt.mp fun hlt => h t h0 hlt hs)

theorem rayDist_lt (ht : Traces solid hit) (cfg : Conf) (o n : Vec ℝ) (r : ℝ × ℝ) (j : ℕ) (s : ℝ) (h0 : 0 ≤ s) (h1 : s < cfg.depth)
    (h : solid (along o (toTangentSpace n (getVector cfg r j)) s)) : rayDist cfg hit o n r j < cfg.depth := by
  unfold rayDist
  rcases he : hit o (toTangentSpace n (getVector cfg r j)) cfg.depth with _ | t
  · exact absurd h ((ht _ _ _).2 he s h0 h1.le)
  · obtain ⟨_, _, _, hm⟩ := (ht _ _ _).1 t he
    have : t ≤ s := not_lt.mp fun hlt => hm s h0 hlt h
    exact lt_of_le_of_lt (min_le_right _ _) (lt_of_le_of_lt this h1)

/-- **C215**: the occlusion is from 0 to 1. -/
theorem occlusion_range (ht : Traces solid hit) (cfg : Conf) (hc : Valid cfg) (o n : Vec ℝ) (b : Bool) (rnd : ℕ → ℝ × ℝ) :
    0 ≤ occlusion cfg hit o n b rnd ∧ occlusion cfg hit o n b rnd ≤ 1 := by
  have hd : 0 < cfg.depth := by linarith [hc.1]
  unfold occlusion
  cases b
  · dsimp only
    rw [if_neg (by simp)]
    have h1 := sum_mono (List.range 48) (fun j => rayDist cfg hit o n (rnd j) j) (fun _ => cfg.depth) (fun j _ => (rayDist_range ht cfg hd o n _ j).2)
    rw [sum_const (List.range 48) (fun _ => cfg.depth) cfg.depth (fun _ _ => rfl), List.length_range] at h1
    have h0 := sum_mono (List.range 48) (fun _ => 0) (fun j => rayDist cfg hit o n (rnd j) j) (fun j _ => (rayDist_range ht cfg hd o n _ j).1)
    rw [sum_const (List.range 48) (fun _ => 0) 0 (fun _ _ => rfl), mul_zero] at h0
    generalize ((List.range 48).map fun j => rayDist cfg hit o n (rnd j) j).sum = s at *
    have h2 : s / 48 / cfg.depth ≤ 1 := by
      rw [div_le_one hd]
      push_cast at h1
      linarith
    have h3 : 0 ≤ s / 48 / cfg.depth := by positivity
    constructor <;> linarith
  · simp

/-- **C215**: a sample inside a solid is fully occluded. -/
theorem occlusion_occluded (cfg : Conf) (hit : Tracer) (o n : Vec ℝ) (rnd : ℕ → ℝ × ℝ) : occlusion cfg hit o n true rnd = 1 := by
  unfold occlusion
  simp

/-- **C215**: there is occlusion exactly if something solid is on one of the 48 rays, nearer than the depth in units of the length of
the direction. -/
theorem occlusion_pos (ht : Traces solid hit) (cfg : Conf) (hc : Valid cfg) (o n : Vec ℝ) (rnd : ℕ → ℝ × ℝ) :
    0 < occlusion cfg hit o n false rnd ↔
      ∃ j < 48, ∃ s, 0 ≤ s ∧ s < cfg.depth ∧ solid (along o (toTangentSpace n (getVector cfg (rnd j) j)) s) := by
  have hd : 0 < cfg.depth := by linarith [hc.1]
  unfold occlusion
  dsimp only
  rw [if_neg (by simp)]
  have hcst := sum_const (List.range 48) (fun _ => cfg.depth) cfg.depth (fun _ _ => rfl)
  rw [List.length_range] at hcst
  push_cast at hcst
  constructor
  · intro h
    by_contra hno
    push Not at hno
    rw [sum_const (List.range 48) _ cfg.depth (fun j hj => rayDist_clear ht cfg o n (rnd j) j (hno j (List.mem_range.mp hj))), List.length_range] at h
    push_cast at h
    rw [mul_div_cancel_left₀ _ (by norm_num), div_self hd.ne'] at h
    linarith
  · rintro ⟨j, hj, s, h0, h1, hs⟩
    have h := sum_lt (List.range 48) (fun j => rayDist cfg hit o n (rnd j) j) (fun _ => cfg.depth)
      (fun j _ => (rayDist_range ht cfg hd o n _ j).2) ⟨j, List.mem_range.mpr hj, rayDist_lt ht cfg o n (rnd j) j s h0 h1 hs⟩
    rw [hcst] at h
    have : ((List.range 48).map fun j => rayDist cfg hit o n (rnd j) j).sum / 48 / cfg.depth < 1 := by
      rw [div_lt_one hd]
      linarith
    linarith

theorem occlusion_zero (ht : Traces solid hit) (cfg : Conf) (hc : Valid cfg) (o n : Vec ℝ) (rnd : ℕ → ℝ × ℝ)
    (h : ∀ j < 48, ∀ s, 0 ≤ s → s < cfg.depth → ¬ solid (along o (toTangentSpace n (getVector cfg (rnd j) j)) s)) :
    occlusion cfg hit o n false rnd = 0 := by
  refine le_antisymm (not_lt.mp fun hp => ?_) (occlusion_range ht cfg hc o n false rnd).1
  obtain ⟨j, hj, s, h0, h1, hs⟩ := (occlusion_pos ht cfg hc o n rnd).mp hp
  exact h j hj s h0 h1 hs

/-- **C215**: what is farther than `sqrt (3/2)` times the depth does not occlude. That what is farther than the depth does not is
false: see `far_counts`. -/
theorem clear_partial (ht : Traces solid hit) (cfg : Conf) (hc : Valid cfg) (o n : Vec ℝ) (hn : Normed n) (rnd : ℕ → ℝ × ℝ) (hr : Draws rnd)
    (h : ∀ p, solid p → 3 / 2 * cfg.depth ^ 2 ≤ distSq p o) : occlusion cfg hit o n false rnd = 0 := by
  refine occlusion_zero ht cfg hc o n rnd fun j hj s h0 h1 hs => ?_
  have := h _ hs
  obtain ⟨a, e, he, _⟩ := getVector_spec cfg hc rnd hr j hj
  have hl := dir_length n (getVector cfg (rnd j) j) hn (by rw [he]; exact vector_unit a e)
  rw [distSq_along] at this
  nlinarith [hl.1, hl.2.1, hc.1]

/-- **C215**: on a surface parallel to an axis, what is at the depth or farther does not occlude. -/
theorem clear_axial (ht : Traces solid hit) (cfg : Conf) (hc : Valid cfg) (o n : Vec ℝ) (hn : Normed n) (hx : n.x * n.y * n.z = 0)
    (rnd : ℕ → ℝ × ℝ) (hr : Draws rnd) (h : ∀ p, solid p → cfg.depth ^ 2 ≤ distSq p o) : occlusion cfg hit o n false rnd = 0 := by
  refine occlusion_zero ht cfg hc o n rnd fun j hj s h0 h1 hs => ?_
  have := h _ hs
  obtain ⟨a, e, he, _⟩ := getVector_spec cfg hc rnd hr j hj
  have hl := (dir_length n (getVector cfg (rnd j) j) hn (by rw [he]; exact vector_unit a e)).2.2 hx
  rw [distSq_along, hl] at this
  nlinarith [hc.1]

/-- **C215**: what is behind the sample does not occlude. -/
theorem behind_clear (ht : Traces solid hit) (cfg : Conf) (hc : Valid cfg) (o n : Vec ℝ) (hn : Normed n) (rnd : ℕ → ℝ × ℝ) (hr : Draws rnd)
    (h : ∀ p, solid p → dot p n < dot o n) : occlusion cfg hit o n false rnd = 0 := by
  refine occlusion_zero ht cfg hc o n rnd fun j hj s h0 h1 hs => ?_
  have := h _ hs
  obtain ⟨a, e, he, e0, e1⟩ := getVector_spec cfg hc rnd hr j hj
  rw [dot_along, (dir_dots n _ hn).1, he] at this
  have hz : 0 ≤ (vector a e).z := by
    show 0 ≤ Real.cos e
    apply Real.cos_nonneg_of_neg_pi_div_two_le_of_le
    · linarith [Real.pi_pos]
    · refine le_trans e1 ?_
      unfold deg2rad
      nlinarith [hc.2.2, Real.pi_pos]
  nlinarith

/-- **C215**: more that is solid does not make less occlusion. -/
theorem occlusion_mono (ht : Traces solid hit) (ht' : Traces solid' hit') (hsub : ∀ p, solid p → solid' p) (cfg : Conf) (hc : Valid cfg)
    (o n : Vec ℝ) (b : Bool) (rnd : ℕ → ℝ × ℝ) : occlusion cfg hit o n b rnd ≤ occlusion cfg hit' o n b rnd := by
  have hd : 0 < cfg.depth := by linarith [hc.1]
  cases b
  · unfold occlusion
    dsimp only
    rw [if_neg (by simp), if_neg (by simp)]
    have hm := sum_mono (List.range 48) (fun j => rayDist cfg hit' o n (rnd j) j) (fun j => rayDist cfg hit o n (rnd j) j) (fun j _ => by
      rcases lt_or_eq_of_le (rayDist_range ht cfg hd o n (rnd j) j).2 with hlt | heq
      · unfold rayDist at hlt ⊢
        rcases he : hit o (toTangentSpace n (getVector cfg (rnd j) j)) cfg.depth with _ | t
        · rw [he] at hlt
          exact absurd hlt (lt_irrefl _)
        · obtain ⟨h0, h1, hs, _⟩ := (ht _ _ _).1 t he
          rcases he' : hit' o (toTangentSpace n (getVector cfg (rnd j) j)) cfg.depth with _ | t'
          · exact absurd (hsub _ hs) ((ht' _ _ _).2 he' t h0 h1)
          · obtain ⟨_, _, _, hmin⟩ := (ht' _ _ _).1 t' he'
            have : t' ≤ t := not_lt.mp fun hlt' => hmin t h0 hlt' (hsub _ hs)
            exact min_le_min (le_refl _) this
      · rw [heq]
        exact (rayDist_range ht' cfg hd o n (rnd j) j).2)
    have : ((List.range 48).map fun j => rayDist cfg hit' o n (rnd j) j).sum / 48 / cfg.depth ≤
        ((List.range 48).map fun j => rayDist cfg hit o n (rnd j) j).sum / 48 / cfg.depth := by gcongr
    linarith
  · rw [occlusion_occluded, occlusion_occluded]

/-! ### Against the property -/

open Classical in
/-- A tracer for a world of one point. -/
noncomputable def single (p : Vec ℝ) : Tracer := fun o d m =>
  if h : ∃ t, 0 ≤ t ∧ t ≤ m ∧ along o d t = p ∧ ∀ s, 0 ≤ s → s < t → ¬ along o d s = p then some h.choose else none

theorem single_traces (p : Vec ℝ) : Traces (· = p) (single p) := by
  intro o d m
  unfold single
  constructor
  · intro t ht
    split_ifs at ht with h
    cases ht
    exact h.choose_spec
  · intro hnone s h0 h1 hs
    split_ifs at hnone with h
    apply h
    by_cases hz : along o d 0 = p
    · exact ⟨0, le_refl _, le_trans h0 h1, hz, fun s h0 h1 => absurd h0 (not_le.mpr h1)⟩
    · refine ⟨s, h0, h1, hs, fun u hu0 hu1 hu => hz ?_⟩
      rw [← hs] at hu ⊢
      unfold along at hu ⊢
      simp only [Vec.mk.injEq] at hu
      obtain ⟨a, b, c⟩ := hu
      have z : ∀ x : ℝ, u * x = s * x → x = 0 := by
        intro x hx
        have : (u - s) * x = 0 := by linarith
        exact (mul_eq_zero.mp this).resolve_left (by linarith)
      rw [z d.x (by linarith), z d.y (by linarith), z d.z (by linarith)]
      simp

/-- A normal between the three axes. -/
noncomputable def oblique : Vec ℝ := ⟨1 / Real.sqrt 3, 1 / Real.sqrt 3, 1 / Real.sqrt 3⟩

theorem oblique_normed : Normed oblique := by
  unfold Normed oblique
  have : (Real.sqrt 3) ^ 2 = 3 := Real.sq_sqrt (by norm_num)
  have h0 : Real.sqrt 3 ≠ 0 := by positivity
  field_simp
  linarith

theorem oblique_skew : skew oblique = -(1 / 2) := by
  have h0 : 0 < Real.sqrt 3 := by positivity
  have h3 : (Real.sqrt 3) ^ 2 = 3 := Real.sq_sqrt (by norm_num)
  have hl : largest oblique = 0 := by unfold largest oblique; simp
  have ht : tangents oblique = (⟨-(1 / Real.sqrt 3), 0, 1 / Real.sqrt 3⟩, ⟨1 / Real.sqrt 3, -(1 / Real.sqrt 3), 0⟩) := by
    unfold tangents
    simp only [hl]
    have e1 : cross oblique (unit 1) = ⟨-(1 / Real.sqrt 3), 0, 1 / Real.sqrt 3⟩ := by unfold cross unit oblique; simp
    have e2 : cross oblique (unit 2) = ⟨1 / Real.sqrt 3, -(1 / Real.sqrt 3), 0⟩ := by unfold cross unit oblique; simp
    show (if dot (cross (cross oblique (unit 1)) (cross oblique (unit 2))) oblique < 0 then _ else (cross oblique (unit 1), cross oblique (unit 2))) = _
    rw [e1, e2, if_neg]
    unfold dot cross oblique
    have : 0 < 1 / Real.sqrt 3 := by positivity
    generalize 1 / Real.sqrt 3 = c at *
    simp only
    have hc := pow_pos this 3
    nlinarith
  unfold skew
  rw [ht]
  have hdot : ∀ a b c d e f : ℝ, dot (⟨a, b, c⟩ : Vec ℝ) ⟨d, e, f⟩ = a * d + b * e + c * f := fun _ _ _ _ _ _ => rfl
  unfold normalize
  rw [dot_smul_left, dot_smul_right, hdot, hdot, hdot]
  have hc : (1 / Real.sqrt 3) ^ 2 = 1 / 3 := by rw [div_pow, h3]; norm_num
  generalize 1 / Real.sqrt 3 = c at *
  rw [show c * c + -c * -c + 0 * 0 = 2 / 3 by nlinarith, show -c * -c + 0 * 0 + c * c = 2 / 3 by nlinarith,
    show c * -c + -c * 0 + 0 * c = -(1 / 3) by nlinarith]
  have h1 : 0 < Real.sqrt (2 / 3) := Real.sqrt_pos.mpr (by norm_num)
  have h2 : (Real.sqrt (2 / 3)) ^ 2 = 2 / 3 := Real.sq_sqrt (by norm_num)
  field_simp
  nlinarith

/-- The vector at 135 and 45 degrees. -/
theorem vector_135 : vector (3 * Real.pi / 4) (Real.pi / 4) = ⟨-(1 / 2), 1 / 2, Real.sqrt 2 / 2⟩ := by
  have h : 3 * Real.pi / 4 = Real.pi - Real.pi / 4 := by ring
  have h2 : (Real.sqrt 2) ^ 2 = 2 := Real.sq_sqrt (by norm_num)
  unfold vector
  rw [h, Real.cos_pi_sub, Real.sin_pi_sub, Real.cos_pi_div_four, Real.sin_pi_div_four]
  simp only [Vec.mk.injEq, and_true]
  constructor <;> nlinarith

theorem length_135 : dot (toTangentSpace oblique (vector (3 * Real.pi / 4) (Real.pi / 4))) (toTangentSpace oblique (vector (3 * Real.pi / 4) (Real.pi / 4))) = 5 / 4 := by
  rw [(dir_dots oblique _ oblique_normed).2, oblique_skew, vector_unit, vector_135]
  norm_num

theorem ordered_19 : (dirtVectors 90).getD 19 ⟨0, 0, 0⟩ = vector (3 * Real.pi / 4) (Real.pi / 4) := by
  have : (dirtVectors 90).getD 19 ⟨0, 0, 0⟩ = vector ((6 : ℕ) * deg2rad (360 / 16)) (deg2rad (90 / 3) * (1 / 2) + (1 : ℕ) * deg2rad (90 / 3)) := rfl
  rw [this]
  congr 1 <;> unfold deg2rad <;> push_cast <;> ring

/-- **C215**, against the property: something farther than the depth, here by 6 percent, occludes: the directions of the rays on an
oblique surface are not of length one. -/
theorem far_counts : ∃ (cfg : Conf) (o n : Vec ℝ) (solid : Vec ℝ → Prop) (hit : Tracer), Valid cfg ∧ cfg.random = false ∧ Normed n ∧ Traces solid hit ∧
    (∀ p, solid p → (1.06 * cfg.depth) ^ 2 < distSq p o) ∧ ∀ rnd, 0 < occlusion cfg hit o n false rnd := by
  let d := toTangentSpace oblique (vector (3 * Real.pi / 4) (Real.pi / 4))
  have hd : dot d d = 5 / 4 := length_135
  refine ⟨⟨false, 128, 90⟩, ⟨0, 0, 0⟩, oblique, _, _, ⟨by norm_num, by norm_num, by norm_num⟩, rfl, oblique_normed, single_traces (along ⟨0, 0, 0⟩ d (0.95 * 128)), ?_, ?_⟩
  · rintro p rfl
    rw [distSq_along, hd]
    norm_num
  · intro rnd
    rw [occlusion_pos (single_traces _) _ ⟨by norm_num, by norm_num, by norm_num⟩]
    refine ⟨19, by norm_num, 0.95 * 128, by norm_num, by norm_num, ?_⟩
    have : getVector ⟨false, 128, 90⟩ (rnd 19) 19 = vector (3 * Real.pi / 4) (Real.pi / 4) := by
      unfold getVector
      rw [if_neg (by simp)]
      exact ordered_19
    rw [this]

/-- **C215**, against the property: a random ray on an oblique surface leaves the cone of the angle given. -/
theorem cone_exceeded : ∃ (cfg : Conf) (n : Vec ℝ) (r : ℝ × ℝ), Valid cfg ∧ cfg.random = true ∧ Normed n ∧ Draws (fun _ => r) ∧
    ∀ j, dot (toTangentSpace n (getVector cfg r j)) n <
      Real.cos (deg2rad cfg.angle) * Real.sqrt (dot (toTangentSpace n (getVector cfg r j)) (toTangentSpace n (getVector cfg r j))) := by
  refine ⟨⟨true, 128, 45⟩, oblique, (3 / 8, 1), ⟨by norm_num, by norm_num, by norm_num⟩, rfl, oblique_normed, fun _ => ⟨by norm_num, by norm_num, by norm_num, by norm_num⟩, fun j => ?_⟩
  have : getVector ⟨true, 128, 45⟩ (3 / 8, 1) j = vector (3 * Real.pi / 4) (Real.pi / 4) := by
    unfold getVector
    rw [if_pos rfl]
    congr 1 <;> simp only [deg2rad] <;> ring
  rw [this, length_135, (dir_dots _ _ oblique_normed).1, vector_135]
  show Real.sqrt 2 / 2 < Real.cos (deg2rad 45) * _
  rw [show deg2rad 45 = Real.pi / 4 by unfold deg2rad; ring, Real.cos_pi_div_four]
  have h1 : 1 < Real.sqrt (5 / 4) := Real.lt_sqrt_of_sq_lt (by norm_num)
  have h2 : 0 < Real.sqrt 2 / 2 := by positivity
  nlinarith

/-- **C215**: the rays of the ordered mode: 16 angles, and elevations of a sixth, a half and five sixths of the angle given; all of length
one before they are turned to the surface. -/
theorem ordered_vectors (a : ℝ) : (dirtVectors a).length = 48 ∧ ∀ i : ℕ, i < 16 → ∀ j : ℕ, j < 3 →
    (dirtVectors a)[i * 3 + j]? = some (vector (deg2rad (22.5 * i)) (deg2rad (a * (2 * j + 1) / 6))) := by
  refine ⟨dirtVectors_length a, fun i hi j hj => ?_⟩
  have key : (dirtVectors a)[i * 3 + j]? = some (vector (i * deg2rad (360 / 16)) (deg2rad (a / 3) * (1 / 2) + j * deg2rad (a / 3))) := by
    interval_cases i <;> interval_cases j <;> rfl
  rw [key]
  congr 2 <;> unfold deg2rad <;> ring

/-- **C215**: whether dirt is calculated. -/
theorem inUse_iff (k : Keys) : inUse k = true ↔
    k.dirt = true ∨ (k.dirtCmdline = false ∧ (k.minlightDirt = true ∨ 0 < k.sunlightDirt ∨ 0 < k.sunlight2Dirt ∨ ∃ l ∈ k.lights, 0 < l)) := by
  unfold inUse boolValue
  cases k.dirt <;> cases k.dirtCmdline <;> simp [or_assoc]

/-- Of a wall, a sample in front of it is not occluded; of a world that is everywhere, it is. -/
example : occlusion ⟨false, 128, 88⟩ (fun _ _ _ => none) ⟨0, 0, 0⟩ ⟨0, 0, 1⟩ false (fun _ => (0, 0)) = 0 :=
  behind_clear (solid := fun _ => False) (fun _ _ _ => ⟨fun _ h => by (cases h), fun _ _ _ _ h => h⟩) _ ⟨by norm_num, by norm_num, by norm_num⟩ _ _
    (by unfold Normed; norm_num) _ (fun _ => ⟨by norm_num, by norm_num, by norm_num, by norm_num⟩) (fun _ h => h.elim)

example : 0 < occlusion ⟨false, 128, 88⟩ (fun _ _ _ => some 0) ⟨0, 0, 0⟩ ⟨0, 0, 1⟩ false (fun _ => (0, 0)) := by
  unfold occlusion rayDist
  simp

end Verif.Dirt
