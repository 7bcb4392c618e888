import Verif.Suns.SunProps

/-!
C185: domes of suns.
-/

namespace Verif.Suns

open Verif.Geom Verif.Phong

theorem domeDir_unit (a e : ℝ) : dot (domeDir a e) (domeDir a e) = 1 := by
  have := polar_unit a (-e)
  unfold polar at this
  rw [Real.cos_neg, Real.sin_neg] at this
  exact this

theorem flip_unit {v : Vec ℝ} (h : dot v v = 1) : dot (flip v) (flip v) = 1 := by
  unfold dot flip at *
  simp only
  linarith

theorem domeSun_none (cfg : Cfg) (dir : Vec ℝ) (k : Look) : domeSun cfg dir 0 k = [] := by
  unfold domeSun
  rw [if_neg (lt_irrefl _)]

theorem domeSun_neg (cfg : Cfg) (dir : Vec ℝ) {s : ℝ} (hs : s ≤ 0) (k : Look) : domeSun cfg dir s k = [] := by
  unfold domeSun
  rw [if_neg (not_lt.2 hs)]

/-- The sun in a direction. -/
noncomputable def sunAt (cfg : Cfg) (dir : Vec ℝ) (share : ℝ) (k : Look) : Sun :=
  { vec := smul (-16384) dir, light := share, color := k.color, anglescale := k.anglescale,
    dirt := resolveDirt cfg k.dirt, style := k.style, texture := k.texture }

theorem domeSun_some (cfg : Cfg) {dir : Vec ℝ} (hd : dot dir dir = 1) {s : ℝ} (hs : 0 < s) (k : Look) :
    domeSun cfg dir s k = [sunAt cfg dir s k] := by
  unfold domeSun addSun sunAt
  rw [if_pos hs, if_neg hs.ne', normalize_unit hd]

theorem sunAt_shine (cfg : Cfg) (dir : Vec ℝ) (s : ℝ) (k : Look) : shine (sunAt cfg dir s k) = dir := by
  unfold shine sunAt
  simp only
  rw [smul_smul']
  norm_num
  exact one_smul' _

theorem sunAt_looks (cfg : Cfg) (dir : Vec ℝ) (s : ℝ) (k : Look) : Looks cfg k (sunAt cfg dir s k) := by
  refine ⟨rfl, rfl, rfl, rfl, ?_, ?_, ?_⟩
  · intro e
    simp [sunAt, resolveDirt, e]
  · intro e
    simp [sunAt, resolveDirt, e]
  · intro e1 e2
    simp [sunAt, resolveDirt, e1, e2]

/-- The places of a ring of suns, without their light. -/
noncomputable def ringAngles (step : ℝ) (n : ℕ) (a : ℝ) : List ℝ := (List.range n).map fun j : ℕ => a + j * step

theorem ring_angle (cfg : Cfg) (up low : Half) (s2 s3 step e : ℝ) (n : ℕ) (a : ℝ) :
    (ring cfg up low s2 s3 step e n a).2 = a + n * step := by
  induction n generalizing a with
  | zero => simp [ring]
  | succ n ih =>
    simp only [ring]
    rw [ih]
    push_cast
    ring

theorem range_map_succ {α : Type} (n : ℕ) (f : ℕ → α) :
    (List.range (n + 1)).map f = f 0 :: (List.range n).map fun j => f (j + 1) := by
  rw [List.range_succ_eq_map, List.map_cons, List.map_map]
  rfl

/-- A ring with only one hemisphere. -/
theorem ring_up (cfg : Cfg) (up low : Half) {s2 : ℝ} (h : 0 < s2) (step e : ℝ) (n : ℕ) (a : ℝ) :
    (ring cfg up low s2 0 step e n a).1
      = (List.range n).map fun j : ℕ => sunAt cfg (domeDir (a + j * step) e) s2 up.look := by
  induction n generalizing a with
  | zero => rfl
  | succ n ih =>
    simp only [ring]
    rw [ih, domeSun_none, domeSun_some cfg (domeDir_unit _ _) h, range_map_succ]
    simp only [List.nil_append, List.singleton_append, Nat.cast_zero, zero_mul, add_zero]
    congr 1
    apply List.map_congr_left
    intro j _
    push_cast
    have : a + step + j * step = a + (j + 1) * step := by ring
    rw [this]

theorem ring_low (cfg : Cfg) (up low : Half) {s3 : ℝ} (h : 0 < s3) (step e : ℝ) (n : ℕ) (a : ℝ) :
    (ring cfg up low 0 s3 step e n a).1
      = (List.range n).map fun j : ℕ => sunAt cfg (flip (domeDir (a + j * step) e)) s3 low.look := by
  induction n generalizing a with
  | zero => rfl
  | succ n ih =>
    simp only [ring]
    rw [ih, domeSun_none, domeSun_some cfg (flip_unit (domeDir_unit _ _)) h, range_map_succ]
    simp only [List.nil_append, List.singleton_append, Nat.cast_zero, zero_mul, add_zero]
    congr 1
    apply List.map_congr_left
    intro j _
    push_cast
    have : a + step + j * step = a + (j + 1) * step := by ring
    rw [this]

/-- The two hemispheres of a ring do not depend on each other. -/
theorem ring_perm (cfg : Cfg) (up low up' low' : Half) (s2 s3 step e : ℝ) (n : ℕ) (a : ℝ) :
    (ring cfg up low s2 s3 step e n a).1.Perm
      ((ring cfg up low' s2 0 step e n a).1 ++ (ring cfg up' low 0 s3 step e n a).1) := by
  induction n generalizing a with
  | zero => exact List.Perm.refl _
  | succ n ih =>
    simp only [ring]
    rw [domeSun_none, domeSun_none, List.nil_append, List.nil_append, List.append_assoc]
    refine List.Perm.append_left _ ?_
    have h := ih (a + step)
    refine (List.Perm.append_left _ h).trans ?_
    exact List.perm_append_comm_assoc _ _ _

theorem rings_perm (cfg : Cfg) (up low up' low' : Half) (s2 s3 : ℝ) (k : ℕ) (step estep : ℝ) (n : ℕ) (e a : ℝ) :
    (rings cfg up low s2 s3 k step estep n e a).Perm
      (rings cfg up low' s2 0 k step estep n e a ++ rings cfg up' low 0 s3 k step estep n e a) := by
  induction n generalizing e a with
  | zero => exact List.Perm.refl _
  | succ n ih =>
    simp only [rings]
    rw [ring_angle, ring_angle, ring_angle]
    have h1 := ring_perm cfg up low up' low' s2 s3 step e (k * 4) a
    have h2 := ih (e + estep) (a + ↑(k * 4) * step + step / k)
    refine (h1.append h2).trans ?_
    rw [List.append_assoc, List.append_assoc]
    refine List.Perm.append_left _ ?_
    exact List.perm_append_comm_assoc _ _ _

/-- A property of every sun of a dome's rings. -/
theorem rings_all (P : Sun → Prop) (cfg : Cfg) (up low : Half) (s2 s3 : ℝ) (k : ℕ) (step estep : ℝ) (n i : ℕ) (e0 a : ℝ)
    (h : ∀ a', ∀ j < n, ∀ s ∈ (ring cfg up low s2 s3 step (e0 + (i + j : ℕ) * estep) (k * 4) a').1, P s) :
    ∀ s ∈ rings cfg up low s2 s3 k step estep n (e0 + i * estep) a, P s := by
  induction n generalizing i a with
  | zero => intro s hs; cases hs
  | succ n ih =>
    intro s hs
    simp only [rings] at hs
    rcases List.mem_append.1 hs with hs | hs
    · refine h a 0 (Nat.succ_pos _) s ?_
      rw [add_zero]
      exact hs
    · have e1 : e0 + i * estep + estep = e0 + (i + 1 : ℕ) * estep := by push_cast; ring
      rw [e1] at hs
      refine ih (i + 1) _ ?_ s hs
      intro a' j hj s' hs'
      refine h a' (j + 1) (by omega) s' ?_
      have : i + 1 + j = i + (j + 1) := by omega
      rw [← this]
      exact hs'

/-- A sum over the suns of a dome's rings. -/
theorem rings_sum (f : Sun → ℝ) (c : ℝ) (cfg : Cfg) (up low : Half) (s2 s3 : ℝ) (k : ℕ) (step estep : ℝ)
    (h : ∀ a e, ((ring cfg up low s2 s3 step e (k * 4) a).1.map f).sum = c) (n : ℕ) (e a : ℝ) :
    ((rings cfg up low s2 s3 k step estep n e a).map f).sum = n * c := by
  induction n generalizing e a with
  | zero => simp [rings]
  | succ n ih =>
    simp only [rings]
    rw [List.map_append, List.sum_append, h, ih]
    push_cast
    ring

theorem half_turn (f : ℝ → ℝ) (hf : ∀ x, f (x + Real.pi) = -f x) (m : ℕ) (step : ℝ) (hs : m * step = Real.pi) (a : ℝ) :
    ((List.range (m + m)).map fun j : ℕ => f (a + j * step)).sum = 0 := by
  rw [List.range_add, List.map_append, List.sum_append, List.map_map]
  have : (List.range m).map ((fun j : ℕ => f (a + j * step)) ∘ fun x => m + x)
      = (List.range m).map fun j : ℕ => -f (a + j * step) := by
    apply List.map_congr_left
    intro j _
    simp only [Function.comp]
    rw [← hf]
    congr 1
    push_cast
    rw [add_mul, hs]
    ring
  rw [this]
  have hneg : ∀ l : List ℕ, (l.map fun j : ℕ => -f (a + j * step)).sum = -(l.map fun j : ℕ => f (a + j * step)).sum := by
    intro l
    induction l with
    | nil => simp
    | cons x l ih =>
      simp only [List.map_cons, List.sum_cons]
      rw [ih]
      ring
  rw [hneg]
  ring

theorem step_turn {k : ℕ} (hk : 0 < k) : ((2 * k : ℕ) : ℝ) * rad (360 / ((k * 4 : ℕ) : ℝ)) = Real.pi := by
  have h0 : (k : ℝ) ≠ 0 := Nat.cast_ne_zero.2 hk.ne'
  unfold rad
  push_cast
  field_simp
  ring

theorem vecSum_eq (suns : List Sun) :
    vecSum suns = ⟨(suns.map fun s => s.vec.x).sum, (suns.map fun s => s.vec.y).sum, (suns.map fun s => s.vec.z).sum⟩ := by
  induction suns with
  | nil => rfl
  | cons s suns ih =>
    unfold vecSum at ih ⊢
    rw [List.foldr_cons, ih]
    simp [add]

theorem iterations_pos (n : ℕ) : 0 < iterations n - 1 := by
  unfold iterations
  have := le_max_right ((round (Real.sqrt (((n - 1) / 4 : ℕ) : ℝ))).toNat + 1) 2
  omega

/-- How close the number of suns is to what was asked for. -/
theorem count_close {n : ℕ} (hn : 8 ≤ n) : 1 ≤ iterations n - 1 ∧
    4 * (iterations n - 1) ^ 2 + 1 ≤ n + (4 * (iterations n - 1) + 3) ∧
    n ≤ 4 * (iterations n - 1) ^ 2 + 1 + (4 * (iterations n - 1) + 3) := by
  refine ⟨iterations_pos n, ?_⟩
  have hm : 1 ≤ (n - 1) / 4 := by omega
  have hm2 : 4 * ((n - 1) / 4) ≤ n - 1 ∧ n - 1 ≤ 4 * ((n - 1) / 4) + 3 := by omega
  generalize hM : (n - 1) / 4 = m at hm hm2
  have hs1 : (1 : ℝ) ≤ Real.sqrt m := by
    rw [Real.one_le_sqrt]
    exact_mod_cast hm
  have habs := abs_sub_round (Real.sqrt (m : ℝ))
  rw [abs_le] at habs
  have hz : (1 : ℤ) ≤ round (Real.sqrt (m : ℝ)) := by
    have : (1 / 2 : ℝ) ≤ (round (Real.sqrt (m : ℝ)) : ℝ) := by linarith [habs.2]
    by_contra hcon
    have h0 : round (Real.sqrt (m : ℝ)) ≤ 0 := by omega
    have : (round (Real.sqrt (m : ℝ)) : ℝ) ≤ 0 := by exact_mod_cast h0
    linarith
  have hk : iterations n - 1 = (round (Real.sqrt (m : ℝ))).toNat := by
    unfold iterations
    rw [hM]
    have : 2 ≤ (round (Real.sqrt (m : ℝ))).toNat + 1 := by omega
    rw [max_eq_left this]
    omega
  rw [hk]
  have hcast : (((round (Real.sqrt (m : ℝ))).toNat : ℕ) : ℝ) = ((round (Real.sqrt (m : ℝ)) : ℤ) : ℝ) := by
    have := Int.toNat_of_nonneg (le_trans zero_le_one hz)
    exact_mod_cast congrArg (fun z : ℤ => (z : ℝ)) this
  rw [← hcast] at habs
  generalize (round (Real.sqrt (m : ℝ))).toNat = k at *
  have hsq := Real.mul_self_sqrt (Nat.cast_nonneg m : (0 : ℝ) ≤ m)
  have up : (m : ℝ) ≤ k * k + k + 1 / 4 := by nlinarith [Real.sqrt_nonneg (m : ℝ)]
  have hk1 : (1 : ℝ) ≤ k := by
    have : 1 ≤ k := by
      by_contra hcon
      have : k = 0 := by omega
      rw [this] at habs
      norm_num at habs
      linarith
    exact_mod_cast this
  have lo : (k : ℝ) * k - k + 1 / 4 ≤ m := by nlinarith [Real.sqrt_nonneg (m : ℝ)]
  have up' : m ≤ k * k + k := by
    by_contra hcon
    have : k * k + k + 1 ≤ m := by omega
    have : ((k * k + k + 1 : ℕ) : ℝ) ≤ m := by exact_mod_cast this
    push_cast at this
    linarith
  have lo' : k * k ≤ m + k := by
    have : (k : ℝ) * k ≤ m + k := by linarith
    exact_mod_cast this
  have e4 : 4 * k ^ 2 = 4 * (k * k) := by ring
  rw [e4]
  generalize k * k = q at *
  constructor <;> omega

theorem elevation_range {k : ℕ} {j : ℕ} (hj : j < k) :
    0 < rad (90 / ((k + 1 : ℕ) : ℝ)) * (1 / 2) + j * rad (90 / ((k + 1 : ℕ) : ℝ)) ∧
    rad (90 / ((k + 1 : ℕ) : ℝ)) * (1 / 2) + j * rad (90 / ((k + 1 : ℕ) : ℝ)) < Real.pi / 2 := by
  have hpi := Real.pi_pos
  have hk : (0 : ℝ) < ((k + 1 : ℕ) : ℝ) := by exact_mod_cast Nat.succ_pos k
  have e : rad (90 / ((k + 1 : ℕ) : ℝ)) = Real.pi / 2 / ((k + 1 : ℕ) : ℝ) := by
    unfold rad
    field_simp
    norm_num
  have hj' : (j : ℝ) + 1 / 2 < ((k + 1 : ℕ) : ℝ) := by
    have : ((j + 1 : ℕ) : ℝ) ≤ ((k + 1 : ℕ) : ℝ) := by exact_mod_cast (by omega : j + 1 ≤ k + 1)
    push_cast at this ⊢
    linarith
  rw [e]
  have h1 : 0 < Real.pi / 2 / ((k + 1 : ℕ) : ℝ) := by positivity
  refine ⟨by positivity, ?_⟩
  have h2 : Real.pi / 2 / ((k + 1 : ℕ) : ℝ) * ((k + 1 : ℕ) : ℝ) = Real.pi / 2 := by field_simp
  nlinarith

/-- C185: the dome of `_sunlight2` consists of `4 k² + 1` suns, a number that is no more than `4 k + 3` off
`-sunsamples`. They share its light equally, look as it does, and shine down along unit vectors; together they favour no
direction but down. -/
theorem dome_up (cfg : Cfg) (hn : 8 ≤ cfg.sunsamples) (up low : Half) (hu : 0 < up.light) (hl : low.light = 0) :
    (∃ k, 1 ≤ k ∧ (skyDome cfg up low).length = 4 * k ^ 2 + 1 ∧ 4 * k ^ 2 + 1 ≤ cfg.sunsamples + (4 * k + 3) ∧
      cfg.sunsamples ≤ 4 * k ^ 2 + 1 + (4 * k + 3)) ∧
    total (skyDome cfg up low) = up.light ∧
    (vecSum (skyDome cfg up low)).x = 0 ∧ (vecSum (skyDome cfg up low)).y = 0 ∧
    ∀ s ∈ skyDome cfg up low, Looks cfg up.look s ∧ s.light = up.light / (skyDome cfg up low).length ∧
      dot (shine s) (shine s) = 1 ∧ (shine s).z < 0 := by
  obtain ⟨hk1, hk2, hk3⟩ := count_close hn
  unfold skyDome
  rw [if_neg (by intro h; exact absurd h.1 (not_le.2 hu))]
  simp only
  generalize iterations cfg.sunsamples - 1 = k at *
  have hc : (0 : ℝ) < (k * 4 * k + 1 : ℕ) := by exact_mod_cast Nat.succ_pos _
  have hcast : ((k : ℝ) * 4 * k + 1) = ((k * 4 * k + 1 : ℕ) : ℝ) := by push_cast; ring
  have hs3 : low.light / ((k * 4 * k + 1 : ℕ) : ℝ) = 0 := by rw [hl, zero_div]
  have hs2 : 0 < up.light / ((k * 4 * k + 1 : ℕ) : ℝ) := div_pos hu hc
  rw [hs3]
  generalize hsh : up.light / ((k * 4 * k + 1 : ℕ) : ℝ) = s2 at hs2 ⊢
  rw [domeSun_none, List.append_nil, domeSun_some cfg (by norm_num [dot]) hs2]
  generalize hes : rad (90 / ((k + 1 : ℕ) : ℝ)) = estep
  generalize hst : rad (360 / ((k * 4 : ℕ) : ℝ)) = step
  have hlen : (rings cfg up low s2 0 k step estep k (estep * (1 / 2)) 0 ++ [sunAt cfg ⟨0, 0, -1⟩ s2 up.look]).length
      = 4 * k ^ 2 + 1 := by
    have h1 := rings_sum (fun _ => 1) ((k * 4 : ℕ) : ℝ) cfg up low s2 0 k step estep (by
      intro a e
      rw [ring_up cfg up low hs2]
      simp [Function.comp_def]) k (estep * (1 / 2)) 0
    have h2 : ((rings cfg up low s2 0 k step estep k (estep * (1 / 2)) 0).length : ℝ)
        = ((k * (k * 4) : ℕ) : ℝ) := by
      rw [← Nat.cast_mul] at h1
      rw [← h1]
      simp
    have h3 : (rings cfg up low s2 0 k step estep k (estep * (1 / 2)) 0).length = k * (k * 4) := by exact_mod_cast h2
    rw [List.length_append, h3, List.length_singleton]
    ring
  rw [hlen]
  have hcl : ((4 * k ^ 2 + 1 : ℕ) : ℝ) = ((k * 4 * k + 1 : ℕ) : ℝ) := by push_cast; ring
  refine ⟨⟨k, hk1, rfl, hk2, hk3⟩, ?_, ?_, ?_, ?_⟩
  · rw [total_append]
    unfold total
    rw [rings_sum (fun s => s.light) ((k * 4 : ℕ) * s2) cfg up low s2 0 k step estep (by
      intro a e
      rw [ring_up cfg up low hs2]
      simp [sunAt, Function.comp_def]
      ) k (estep * (1 / 2)) 0]
    simp only [List.map_cons, List.map_nil, List.sum_cons, List.sum_nil, sunAt, add_zero]
    rw [← hsh]
    field_simp
    push_cast
    ring
  · rw [vecSum_eq]
    simp only [List.map_append, List.sum_append]
    rw [rings_sum (fun s => s.vec.x) 0 cfg up low s2 0 k step estep (by
      intro a e
      rw [ring_up cfg up low hs2, List.map_map]
      have := half_turn (fun x => -16384 * (Real.cos x * Real.cos e)) (by
        intro x
        rw [Real.cos_add_pi]
        ring) (2 * k) step (by rw [← hst]; exact step_turn hk1) a
      have h4 : 2 * k + 2 * k = k * 4 := by ring
      rw [h4] at this
      exact this) k (estep * (1 / 2)) 0]
    simp [sunAt, smul]
  · rw [vecSum_eq]
    simp only [List.map_append, List.sum_append]
    rw [rings_sum (fun s => s.vec.y) 0 cfg up low s2 0 k step estep (by
      intro a e
      rw [ring_up cfg up low hs2, List.map_map]
      have := half_turn (fun x => -16384 * (Real.sin x * Real.cos e)) (by
        intro x
        rw [Real.sin_add_pi]
        ring) (2 * k) step (by rw [← hst]; exact step_turn hk1) a
      have h4 : 2 * k + 2 * k = k * 4 := by ring
      rw [h4] at this
      exact this) k (estep * (1 / 2)) 0]
    simp [sunAt, smul]
  · intro s hs
    rw [hcl, hsh]
    rcases List.mem_append.1 hs with hs | hs
    · have e0 : estep * (1 / 2) = estep * (1 / 2) + (0 : ℕ) * estep := by push_cast; ring
      rw [e0] at hs
      refine rings_all (fun s => Looks cfg up.look s ∧ s.light = s2 ∧ dot (shine s) (shine s) = 1 ∧ (shine s).z < 0) cfg
        up low s2 0 k step estep k 0 (estep * (1 / 2)) 0 ?_ s hs
      intro a' j hj s' hs'
      rw [ring_up cfg up low hs2, List.mem_map] at hs'
      obtain ⟨i, -, rfl⟩ := hs'
      rw [sunAt_shine]
      refine ⟨sunAt_looks _ _ _ _, rfl, domeDir_unit _ _, ?_⟩
      rw [zero_add]
      have hr := elevation_range hj
      rw [hes] at hr
      unfold domeDir
      simp only
      have := Real.sin_pos_of_pos_of_lt_pi hr.1 (by linarith [hr.2, Real.pi_pos])
      linarith
    · rw [List.mem_singleton] at hs
      subst hs
      rw [sunAt_shine]
      exact ⟨sunAt_looks _ _ _ _, rfl, by norm_num [dot], by norm_num⟩

/-- The mirror image of a sun. -/
def mirror (k : Look) (d : Bool) (s : Sun) : Sun :=
  { vec := flip s.vec, light := s.light, color := k.color, anglescale := k.anglescale, dirt := d,
    style := k.style, texture := k.texture }

theorem flip_smul (c : ℝ) (v : Vec ℝ) : flip (smul c v) = smul c (flip v) := by
  unfold flip smul
  refine vec_ext ?_ ?_ ?_ <;> simp

theorem rings_low (cfg : Cfg) (up low up' low' : Half) {s : ℝ} (h : 0 < s) (k : ℕ) (step estep : ℝ) (n : ℕ) (e a : ℝ) :
    rings cfg up low 0 s k step estep n e a
      = (rings cfg up' low' s 0 k step estep n e a).map (mirror low.look (resolveDirt cfg low.look.dirt)) := by
  induction n generalizing e a with
  | zero => rfl
  | succ n ih =>
    simp only [rings]
    rw [ring_angle, ring_angle, List.map_append, ← ih, ring_up cfg up' low' h, ring_low cfg up low h, List.map_map]
    congr 1
    apply List.map_congr_left
    intro j _
    simp only [Function.comp, mirror, sunAt]
    rw [flip_smul]

/-- C185: the dome of `_sunlight3` is the mirror image of a dome of `_sunlight2` with the same light: as many suns at the
same angles, which shine up. -/
theorem dome_low (cfg : Cfg) (up low up' low' : Half) (hl : 0 < low.light) (hu : up.light = 0)
    (hu' : up'.light = low.light) (hl' : low'.light = 0) :
    skyDome cfg up low = (skyDome cfg up' low').map fun s =>
      { s with vec := ⟨s.vec.x, s.vec.y, -s.vec.z⟩, color := low.look.color, anglescale := low.look.anglescale,
               dirt := resolveDirt cfg low.look.dirt, style := low.look.style, texture := low.look.texture } := by
  have hc : (0 : ℝ) < ((iterations cfg.sunsamples - 1) * 4 * (iterations cfg.sunsamples - 1) + 1 : ℕ) := by
    exact_mod_cast Nat.succ_pos _
  unfold skyDome
  rw [if_neg (by intro h; exact absurd h.2 (not_le.2 hl)), if_neg (by
    intro h
    rw [hu'] at h
    exact absurd h.1 (not_le.2 hl))]
  simp only
  rw [hu, hu', hl']
  simp only [zero_div]
  generalize hs : low.light / (((iterations cfg.sunsamples - 1) * 4 * (iterations cfg.sunsamples - 1) + 1 : ℕ) : ℝ) = s
  have hs' : 0 < s := by rw [← hs]; exact div_pos hl hc
  rw [domeSun_none, domeSun_none, List.nil_append, List.append_nil, domeSun_some cfg (by norm_num [dot]) hs',
    domeSun_some cfg (by norm_num [dot]) hs', rings_low cfg up low up' low' hs', List.map_append]
  have he : (⟨0, 0, 1⟩ : Vec ℝ) = flip ⟨0, 0, -1⟩ := by unfold flip; simp
  congr 1
  simp only [List.map_cons, List.map_nil, sunAt, he]
  rw [← flip_smul]
  rfl

/-- C185: the two hemispheres do not depend on each other. A hemisphere without light has no suns. -/
theorem dome_halves (cfg : Cfg) (up low up' low' : Half) (hu : 0 ≤ up.light) (hl : 0 ≤ low.light) (hu' : up'.light = 0)
    (hl' : low'.light = 0) :
    (skyDome cfg up low).Perm (skyDome cfg up low' ++ skyDome cfg up' low) ∧
      (up.light = 0 → skyDome cfg up low' = []) := by
  have hz : ∀ a b : Half, a.light = 0 → b.light = 0 → skyDome cfg a b = [] := by
    intro a b ha hb
    unfold skyDome
    rw [ha, hb, if_pos ⟨le_refl _, le_refl _⟩]
  refine ⟨?_, fun h => hz _ _ h hl'⟩
  have hz2 : ∀ a b b' : Half, b.light = 0 → b'.light = 0 → skyDome cfg a b = skyDome cfg a b' := by
    intro a b b' hb hb'
    have hr : ∀ s2 k step estep n e c, rings cfg a b s2 0 k step estep n e c = rings cfg a b' s2 0 k step estep n e c := by
      intro s2 k step estep n
      induction n with
      | zero => intro e c; rfl
      | succ n ih =>
        intro e c
        simp only [rings]
        rw [ring_angle, ring_angle, ih]
        congr 1
        have : ∀ m c', (ring cfg a b s2 0 step e m c').1 = (ring cfg a b' s2 0 step e m c').1 := by
          intro m
          induction m with
          | zero => intro c'; rfl
          | succ m ih2 =>
            intro c'
            simp only [ring]
            rw [ih2, domeSun_none, domeSun_none]
        exact this _ _
    unfold skyDome
    simp only [hb, hb', zero_div]
    rw [hr, domeSun_none, domeSun_none]
  have hz3 : ∀ a a' b : Half, a.light = 0 → a'.light = 0 → skyDome cfg a b = skyDome cfg a' b := by
    intro a a' b ha ha'
    have hr : ∀ s3 k step estep n e c, rings cfg a b 0 s3 k step estep n e c = rings cfg a' b 0 s3 k step estep n e c := by
      intro s3 k step estep n
      induction n with
      | zero => intro e c; rfl
      | succ n ih =>
        intro e c
        simp only [rings]
        rw [ring_angle, ring_angle, ih]
        congr 1
        have : ∀ m c', (ring cfg a b 0 s3 step e m c').1 = (ring cfg a' b 0 s3 step e m c').1 := by
          intro m
          induction m with
          | zero => intro c'; rfl
          | succ m ih2 =>
            intro c'
            simp only [ring]
            rw [ih2, domeSun_none, domeSun_none]
        exact this _ _
    unfold skyDome
    simp only [ha, ha', zero_div]
    rw [hr, domeSun_none, domeSun_none]
  rcases hu.lt_or_eq with hu1 | hu1
  · rcases hl.lt_or_eq with hl1 | hl1
    · unfold skyDome
      rw [if_neg (by intro h; exact absurd h.1 (not_le.2 hu1)), if_neg (by intro h; exact absurd h.1 (not_le.2 hu1)),
        if_neg (by intro h; exact absurd h.2 (not_le.2 hl1))]
      simp only
      rw [hu', hl', zero_div, domeSun_none, domeSun_none, List.append_nil, List.nil_append]
      have h1 := rings_perm cfg up low up' low'
        (up.light / (((iterations cfg.sunsamples - 1) * 4 * (iterations cfg.sunsamples - 1) + 1 : ℕ) : ℝ))
        (low.light / (((iterations cfg.sunsamples - 1) * 4 * (iterations cfg.sunsamples - 1) + 1 : ℕ) : ℝ))
        (iterations cfg.sunsamples - 1) (rad (360 / (((iterations cfg.sunsamples - 1) * 4 : ℕ) : ℝ)))
        (rad (90 / ((iterations cfg.sunsamples - 1 + 1 : ℕ) : ℝ))) (iterations cfg.sunsamples - 1)
        (rad (90 / ((iterations cfg.sunsamples - 1 + 1 : ℕ) : ℝ)) * (1 / 2)) 0
      refine (h1.append_right _).trans ?_
      rw [List.append_assoc, List.append_assoc]
      refine List.Perm.append_left _ ?_
      exact List.perm_append_comm_assoc _ _ _
    · rw [hz up' low hu' hl1.symm, List.append_nil, hz2 up low low' hl1.symm hl']
  · rw [hz up low' hu1.symm hl', List.nil_append, hz3 up up' low hu1.symm hu']

/-- C185: an entity with `_sunlight2` or `_sunlight3` and its light is switched off; it gives a dome of its own, with the
whole of its light, and worldspawn's domes are there as well. -/
theorem domes_total (cfg : Cfg) (hn : 8 ≤ cfg.sunsamples) (up low : Half) (hu : 0 ≤ up.light) (hl : 0 ≤ low.light)
    (ls : List Lamp) :
    (skyDomes cfg up low ls).1
        = (ls.map fun l => if (l.sunlight2 = true ∨ l.sunlight3 = true) ∧ l.light > 0 then { l with light := 0 } else l) ∧
      total (skyDomes cfg up low ls).2 = up.light + low.light
        + (ls.map fun l => if (l.sunlight2 = true ∨ l.sunlight3 = true) ∧ l.light > 0 then l.light else 0).sum := by
  have hup : ∀ a b : Half, 0 ≤ a.light → b.light = 0 → total (skyDome cfg a b) = a.light := by
    intro a b ha hb
    rcases ha.lt_or_eq with h | h
    · exact (dome_up cfg hn a b h hb).2.1
    · unfold skyDome
      rw [if_pos ⟨h.symm.le, hb.le⟩, ← h]
      simp [total]
  have hlow : ∀ a b : Half, a.light = 0 → 0 ≤ b.light → total (skyDome cfg a b) = b.light := by
    intro a b ha hb
    rcases hb.lt_or_eq with h | h
    · rw [dome_low cfg a b b a h ha rfl ha, ← hup b a hb ha]
      unfold total
      rw [List.map_map]
      rfl
    · unfold skyDome
      rw [if_pos ⟨ha.le, h.symm.le⟩, ← h]
      simp [total]
  have hperm : ∀ {a b : List Sun}, a.Perm b → total a = total b := by
    intro a b h
    unfold total
    exact (h.map _).sum_eq
  have hboth : ∀ a b : Half, 0 ≤ a.light → 0 ≤ b.light → total (skyDome cfg a b) = a.light + b.light := by
    intro a b ha hb
    rw [hperm (dome_halves cfg a b noHalf noHalf ha hb rfl rfl).1, total_append, hup a noHalf ha rfl,
      hlow noHalf b rfl hb]
  unfold skyDomes
  simp only
  refine ⟨?_, ?_⟩
  · apply List.map_congr_left
    intro l _
    unfold isDome
    congr
  · rw [total_append, hboth up low hu hl]
    congr 1
    induction ls with
    | nil => simp [total]
    | cons l ls ih =>
      rw [List.flatMap_cons, total_append, ih, List.map_cons, List.sum_cons]
      congr 1
      by_cases h : isDome l
      · rw [if_pos h, if_pos (c := (l.sunlight2 = true ∨ l.sunlight3 = true) ∧ l.light > 0) h]
        unfold entityDome
        split
        · exact hup _ _ h.2.le rfl
        · exact hlow _ _ rfl h.2.le
      · rw [if_neg h, if_neg (c := (l.sunlight2 = true ∨ l.sunlight3 = true) ∧ l.light > 0) h]
        rfl

/-- The default number of samples gives 65 suns or fewer. -/
example : total (skyDome ⟨false, 64⟩ ⟨100, plain.look⟩ noHalf) = 100 :=
  (dome_up ⟨false, 64⟩ (by norm_num) ⟨100, plain.look⟩ noHalf (by norm_num) rfl).2.1

end Verif.Suns
