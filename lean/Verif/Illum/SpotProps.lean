import Verif.Illum.ValueProps

/-!
C156: the cone of a spotlight.
-/

namespace Verif.Illum

open Verif.Geom

theorem half_range {a : ℝ} (h0 : 0 ≤ a) (h : a ≤ 360) : 0 ≤ half a ∧ half a ≤ Real.pi := by
  have hp := Real.pi_pos
  unfold half
  constructor
  · positivity
  · have : a / 2 * Real.pi / 180 = a / 360 * Real.pi := by ring
    rw [this]
    exact mul_le_of_le_one_left hp.le ((div_le_one (by norm_num)).2 h)

theorem offAxis_le_iff {v d : Vec ℝ} {t : ℝ} (hv : Unit v) (hd : Unit d) (h0 : 0 ≤ t) (hp : t ≤ Real.pi) :
    offAxis v d ≤ t ↔ dot v d ≤ -Real.cos t := by
  have hr := dot_unit_le hv hd
  have hc : Real.cos (offAxis v d) = -(dot v d) := Real.cos_arccos (by linarith) (by linarith)
  have hm := Real.strictAntiOn_cos.le_iff_ge (a := t) (b := offAxis v d)
    ⟨h0, hp⟩ ⟨Real.arccos_nonneg _, Real.arccos_le_pi _⟩
  rw [hc] at hm
  constructor
  · intro h; have := hm.2 h; linarith
  · intro h; exact hm.1 (by linarith)

theorem softAngle_range {base soft : ℝ} (h0 : 0 < base) : 0 < softAngle base soft ∧ softAngle base soft ≤ base := by
  unfold softAngle
  split_ifs with h
  · exact ⟨h0, le_refl _⟩
  · push Not at h; exact h

/-- The cone of a spotlight that was set up, in angles. -/
theorem spotScale_setup {vec dir : Vec ℝ} {base soft : ℝ} (hv : Unit vec) (hd : Unit dir) (h0 : 0 < base)
    (h360 : base ≤ 360) :
    (half base < offAxis vec dir → spotScale (some (setupSpot vec base soft)) dir = none) ∧
      (offAxis vec dir ≤ half (softAngle base soft) → spotScale (some (setupSpot vec base soft)) dir = some 1) ∧
      (offAxis vec dir ≤ half base → ∃ k, spotScale (some (setupSpot vec base soft)) dir = some k ∧ 0 ≤ k ∧ k ≤ 1) := by
  have hs := softAngle_range (soft := soft) h0
  have hb := half_range h0.le h360
  have hsr := half_range hs.1.le (hs.2.trans h360)
  have i1 := offAxis_le_iff hv hd hb.1 hb.2
  have i2 := offAxis_le_iff hv hd hsr.1 hsr.2
  have hmono : half (softAngle base soft) ≤ half base := by
    unfold half
    have hp := Real.pi_pos
    have := hs.2
    nlinarith
  have e1 : (setupSpot vec base soft).falloff = -Real.cos (half base) := rfl
  have e2 : (setupSpot vec base soft).falloff2 = -Real.cos (half (softAngle base soft)) := rfl
  have hff : (setupSpot vec base soft).falloff2 ≤ (setupSpot vec base soft).falloff := by
    rw [e1, e2]
    have := Real.strictAntiOn_cos.antitoneOn ⟨hsr.1, hsr.2⟩ ⟨hb.1, hb.2⟩ hmono
    linarith
  refine ⟨?_, ?_, ?_⟩
  · intro h
    unfold spotScale
    simp only
    rw [if_pos]
    rw [e1]
    by_contra hc
    exact absurd (i1.2 (not_lt.1 hc)) (not_le.2 h)
  · intro h
    have h2 := i2.1 h
    unfold spotScale
    simp only
    rw [if_neg, if_neg]
    · rw [e2]; exact not_lt.2 h2
    · rw [← e2] at h2; exact not_lt.2 (h2.trans hff)
  · intro h
    have h1 := i1.1 h
    cases hk : spotScale (some (setupSpot vec base soft)) dir with
    | none =>
      exfalso
      unfold spotScale at hk
      simp only at hk
      rw [if_neg (by rw [e1]; exact not_lt.2 h1)] at hk
      split_ifs at hk
    | some k =>
      exact ⟨k, rfl, spotScale_range (by intro s hs'; injection hs' with hs'; subst hs'; exact hff) hk⟩

/-- C156: outside the cone a spotlight casts nothing. `base` is the cone's diameter in degrees. -/
theorem spot_outside (sd : ℝ) (l : Light) (vec n dir : Vec ℝ) (dist : ℝ) (ts : Bool) (base soft : ℝ)
    (hs : l.spot = some (setupSpot vec base soft)) (hv : Unit vec) (hd : Unit dir) (h0 : 0 < base) (h360 : base ≤ 360)
    (h : half base < offAxis vec dir) : valueWithAngle sd l n dir dist ts = some 0 := by
  unfold valueWithAngle
  rw [hs, (spotScale_setup hv hd h0 h360).1 h]
  simp

/-- C156: within the soft cone it casts what the light without a cone would. -/
theorem spot_inside (sd : ℝ) (l : Light) (vec n dir : Vec ℝ) (dist : ℝ) (ts : Bool) (base soft : ℝ)
    (hs : l.spot = some (setupSpot vec base soft)) (hv : Unit vec) (hd : Unit dir) (h0 : 0 < base) (h360 : base ≤ 360)
    (h : offAxis vec dir ≤ half (softAngle base soft)) :
    valueWithAngle sd l n dir dist ts = valueWithAngle sd { l with spot := none } n dir dist ts := by
  have hl : lightValue sd { l with spot := none } dist = lightValue sd l dist := rfl
  have hi : incidence { l with spot := none } n dir ts = incidence l n dir ts := rfl
  unfold valueWithAngle
  rw [hs, (spotScale_setup hv hd h0 h360).2.1 h, hl, hi]
  rfl

/-- C156: everywhere else in the cone it casts a part of it. -/
theorem spot_between (sd : ℝ) (l : Light) (vec n dir : Vec ℝ) (dist v : ℝ) (ts : Bool) (base soft : ℝ)
    (hs : l.spot = some (setupSpot vec base soft)) (hv : Unit vec) (hd : Unit dir) (h0 : 0 < base) (h360 : base ≤ 360)
    (h : offAxis vec dir ≤ half base) (hval : valueWithAngle sd { l with spot := none } n dir dist ts = some v) :
    ∃ k, 0 ≤ k ∧ k ≤ 1 ∧ valueWithAngle sd l n dir dist ts = some (k * v) := by
  obtain ⟨k, hk, hk0, hk1⟩ := (spotScale_setup hv hd h0 h360).2.2 h
  refine ⟨k, hk0, hk1, ?_⟩
  have hl : lightValue sd { l with spot := none } dist = lightValue sd l dist := rfl
  have hi : incidence { l with spot := none } n dir ts = incidence l n dir ts := rfl
  unfold valueWithAngle at hval ⊢
  simp only [hl, hi, spotScale] at hval
  rw [hs, hk]
  simp only
  by_cases hneg : incidence l n dir ts < 0
  · rw [if_pos hneg] at hval ⊢
    injection hval with hval
    rw [← hval, mul_zero]
  · rw [if_neg hneg] at hval ⊢
    cases hlv : lightValue sd l dist with
    | none => rw [hlv] at hval; exact absurd hval (by simp)
    | some x =>
      rw [hlv] at hval
      simp only [Option.map_some] at hval ⊢
      injection hval with hval
      rw [← hval, Option.some.injEq]; ring

/-- C156: between the soft cone and the edge of the cone the light fades out, linearly in the cosine of the angle off
the axis. -/
theorem spot_fades (sd : ℝ) (l : Light) (vec n dir : Vec ℝ) (dist v : ℝ) (ts : Bool) (base soft : ℝ)
    (hs : l.spot = some (setupSpot vec base soft)) (hv : Unit vec) (hd : Unit dir) (h0 : 0 < base) (h360 : base ≤ 360)
    (hsoft : half (softAngle base soft) < offAxis vec dir) (h : offAxis vec dir ≤ half base)
    (hval : valueWithAngle sd { l with spot := none } n dir dist ts = some v) :
    valueWithAngle sd l n dir dist ts = some ((Real.cos (offAxis vec dir) - Real.cos (half base)) /
      (Real.cos (half (softAngle base soft)) - Real.cos (half base)) * v) := by
  have hsr' := softAngle_range (soft := soft) h0
  have hb := half_range h0.le h360
  have hsr := half_range hsr'.1.le (hsr'.2.trans h360)
  have i1 := (offAxis_le_iff hv hd hb.1 hb.2).1 h
  have i2 : ¬ dot vec dir ≤ -Real.cos (half (softAngle base soft)) := fun hc =>
    absurd ((offAxis_le_iff hv hd hsr.1 hsr.2).2 hc) (not_le.2 hsoft)
  have hr := dot_unit_le hv hd
  have hc : Real.cos (offAxis vec dir) = -(dot vec dir) := Real.cos_arccos (by linarith) (by linarith)
  have hk : spotScale (some (setupSpot vec base soft)) dir =
      some (1 - (dot vec dir - -Real.cos (half (softAngle base soft))) /
        (-Real.cos (half base) - -Real.cos (half (softAngle base soft)))) := by
    unfold spotScale
    simp only
    rw [if_neg, if_pos]
    · rfl
    · exact not_le.1 i2
    · exact not_lt.2 i1
  have hl : lightValue sd { l with spot := none } dist = lightValue sd l dist := rfl
  have hi : incidence { l with spot := none } n dir ts = incidence l n dir ts := rfl
  have hne : Real.cos (half (softAngle base soft)) - Real.cos (half base) ≠ 0 := by
    have := not_le.1 i2
    intro h'
    linarith
  have hk' : 1 - (dot vec dir - -Real.cos (half (softAngle base soft))) /
        (-Real.cos (half base) - -Real.cos (half (softAngle base soft))) =
      (Real.cos (offAxis vec dir) - Real.cos (half base)) /
      (Real.cos (half (softAngle base soft)) - Real.cos (half base)) := by
    rw [hc]
    have e : -Real.cos (half base) - -Real.cos (half (softAngle base soft)) =
      Real.cos (half (softAngle base soft)) - Real.cos (half base) := by ring
    rw [e, eq_div_iff hne, sub_mul, div_mul_cancel₀ _ hne]
    ring
  rw [hk'] at hk
  unfold valueWithAngle at hval ⊢
  simp only [hl, hi, spotScale] at hval
  rw [hs, hk]
  simp only
  by_cases hneg : incidence l n dir ts < 0
  · rw [if_pos hneg] at hval ⊢
    injection hval with hval
    rw [← hval, mul_zero]
  · rw [if_neg hneg] at hval ⊢
    cases hlv : lightValue sd l dist with
    | none => rw [hlv] at hval; exact absurd hval (by simp)
    | some x =>
      rw [hlv] at hval
      simp only [Option.map_some] at hval ⊢
      injection hval with hval
      rw [← hval, Option.some.injEq]; ring

/-- C156: an unset or zero cone falls back on the default of the game; `_cone` is the angle off the axis and `angle` the
whole of the cone. -/
theorem cone_default (dflt : ℝ) : baseAngle none none dflt = dflt ∧ baseAngle (some 0) none dflt = dflt ∧
    (∀ c a, c ≠ 0 → half (baseAngle (some c) a dflt) = c * Real.pi / 180) ∧
    (∀ a, a ≠ 0 → half (baseAngle none (some a) dflt) = a / 2 * Real.pi / 180) := by
  refine ⟨by simp [baseAngle], by simp [baseAngle], ?_, ?_⟩
  · intro c a hc
    simp only [baseAngle]
    rw [if_neg (by simpa using hc)]
    unfold half
    ring
  · intro a ha
    simp only [baseAngle, Option.getD_some]
    rw [if_neg ha]
    rfl

/-- A spotlight of 90 degrees that points down; straight below is within it, level with it is not. -/
example : Unit (⟨0, 0, -1⟩ : Vec ℝ) ∧ half 90 = Real.pi / 4 ∧ offAxis ⟨0, 0, -1⟩ ⟨0, 0, 1⟩ = 0 ∧
    offAxis ⟨0, 0, -1⟩ ⟨1, 0, 0⟩ = Real.pi / 2 ∧ half 90 < offAxis ⟨0, 0, -1⟩ ⟨1, 0, 0⟩ := by
  have h1 : offAxis ⟨0, 0, -1⟩ ⟨1, 0, 0⟩ = Real.pi / 2 := by
    unfold offAxis
    have : -(dot (⟨0, 0, -1⟩ : Vec ℝ) ⟨1, 0, 0⟩) = 0 := by norm_num [dot]
    rw [this, Real.arccos_zero]
  have h2 : half 90 = Real.pi / 4 := by unfold half; ring
  refine ⟨by norm_num [Unit, dot], h2, ?_, h1, ?_⟩
  · unfold offAxis
    have : -(dot (⟨0, 0, -1⟩ : Vec ℝ) ⟨0, 0, 1⟩) = 1 := by norm_num [dot]
    rw [this, Real.arccos_one]
  · rw [h1, h2]; have := Real.pi_pos; linarith

/-- C156: the limit of 360 degrees matters. A cone of 720 degrees lights only what is straight ahead. -/
theorem wide_cone_dark (sd : ℝ) (l : Light) (n : Vec ℝ) (dist : ℝ) (ts : Bool)
    (hs : l.spot = some (setupSpot ⟨0, 0, -1⟩ 720 0)) : valueWithAngle sd l n ⟨1, 0, 0⟩ dist ts = some 0 := by
  unfold valueWithAngle
  have : spotScale l.spot ⟨1, 0, 0⟩ = none := by
    rw [hs]
    unfold spotScale
    simp only
    rw [if_pos]
    have e : (setupSpot ⟨0, 0, -1⟩ 720 0).falloff = -1 := by
      unfold setupSpot
      simp only
      have : (720 : ℝ) / 2 * Real.pi / 180 = 2 * Real.pi := by ring
      rw [this, Real.cos_two_pi]
    rw [e]
    norm_num [setupSpot, dot]
  rw [this]
  simp

end Verif.Illum
