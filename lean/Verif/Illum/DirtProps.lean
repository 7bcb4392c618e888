import Verif.Illum.ValueProps

/-!
C157: dirt (ambient occlusion) only darkens.
-/

namespace Verif.Illum

open Verif.Geom

/-- C157, partial: a scale that is not negative. The factor is in 0 to 1. -/
theorem dirt_darkens_partial (cfg : Cfg) (nodirt : Bool) (o : ℝ) (l : Option Light) (d : ℝ) (hc : 0 ≤ cfg.dirtscale)
    (hl : ∀ e, l = some e → 0 ≤ e.dirtscale) :
    0 ≤ dirtFactor cfg nodirt o l d ∧ dirtFactor cfg nodirt o l d ≤ 1 := by
  apply dirtFactor_range
  unfold dirtScale
  split
  · exact hc
  · split_ifs
    · exact hl _ rfl
    · exact hc

/-- A light with `_dirtscale -1`. -/
noncomputable def anti : Light := { plain 300 ⟨0, 0, 0⟩ with dirt := 1, dirtscale := -1 }

/-- Dirt in use for everything, with scale and gain 1. -/
noncomputable def dirty : Cfg := { plainCfg 0 with dirtInUse := true, dirt := true }

/-- C157: a light with `_dirtscale -1` is brighter where its light is occluded. -/
theorem negative_scale_brightens (d : ℝ) : dirtFactor dirty false 1 (some anti) d = 2 := by
  unfold dirtFactor
  rw [if_neg (by simp [dirty]), if_neg (by simp), if_neg (by simp [usesDirt, anti]), if_neg (by norm_num)]
  norm_num [ramp, rawDirt, dirtScale, anti, plain]

/-- C157: `_dirtscale 0` on a light does not turn its dirt off: the global scale is used. -/
theorem zero_scale_ignored (d : ℝ) : dirtFactor dirty false 1 (some { anti with dirtscale := 0 }) d = 0 := by
  unfold dirtFactor
  rw [if_neg (by simp [dirty]), if_neg (by simp), if_neg (by simp [usesDirt, anti]), if_neg (by norm_num)]
  norm_num [ramp, rawDirt, dirtScale, anti, plain, dirty, plainCfg]

/-- C157: no dirt without occlusion, on a face or model with dirt off, or from a light with `_dirt -1`. -/
theorem dirt_off (cfg : Cfg) (nodirt : Bool) (o : ℝ) (l : Option Light) (d : ℝ)
    (h : o ≤ 0 ∨ nodirt = true ∨ cfg.dirtInUse = false ∨ ∃ e, l = some e ∧ e.dirt = -1) :
    dirtFactor cfg nodirt o l d = 1 := by
  unfold dirtFactor
  split_ifs with h1 h2 h3 h4
  · rfl
  · rfl
  · rfl
  · exfalso
    rcases h with h | h | h | ⟨e, rfl, h⟩
    · exact h4 h
    · exact h2 h
    · exact h1 h
    · simp only [usesDirt, h] at h3; norm_num at h3
  · rfl

/-- C157: more occlusion is no brighter. -/
theorem dirt_monotone (cfg : Cfg) (nodirt : Bool) (o o' : ℝ) (l : Option Light) (d : ℝ) (hc : 0 ≤ dirtScale cfg l)
    (hg : 0 ≤ dirtGain cfg l) (ho : o ≤ o') : dirtFactor cfg nodirt o' l d ≤ dirtFactor cfg nodirt o l d := by
  by_cases hz : o ≤ 0
  · rw [dirt_off cfg nodirt o l d (Or.inl hz)]
    exact (dirtFactor_range hc).2
  · push Not at hz
    unfold dirtFactor
    split_ifs with h1 h2 h3 h4 h5 h5 <;> first | exact le_refl _ | (exfalso; linarith) | skip
    have hraw : rawDirt cfg l o ≤ rawDirt cfg l o' := by
      unfold rawDirt
      apply min_le_min_right
      apply mul_le_mul_of_nonneg_right _ hc
      exact min_le_min_right _ (Real.rpow_le_rpow hz.le ho hg)
    have hramp : ramp l d (rawDirt cfg l o) ≤ ramp l d (rawDirt cfg l o') := by
      unfold ramp
      split
      · exact hraw
      · split
        · split_ifs
          · exact le_refl _
          · exact mul_le_mul_of_nonneg_left hraw (fraction_range _ _ _).1
          · exact hraw
        · exact hraw
    linarith

/-- C157: nearer to the light than `_dirt_off_radius` there is no dirt, beyond `_dirt_on_radius` all of it, and between
the two the dirt grows linearly. -/
theorem dirt_radii (cfg : Cfg) (o : ℝ) (e : Light) (on off d : ℝ) (hon : e.onRadius = some on)
    (hoff : e.offRadius = some off) (hd : 0 < o) (hu : cfg.dirtInUse = true) (he : e.dirt = 1) :
    let full := 1 - dirtFactor cfg false o (some { e with onRadius := none }) d
    (d < off → dirtFactor cfg false o (some e) d = 1) ∧
      (off ≤ d → on ≤ d → dirtFactor cfg false o (some e) d = 1 - full) ∧
      (off ≤ d → d < on → dirtFactor cfg false o (some e) d = 1 - (d - off) / (on - off) * full) := by
  have key : ∀ e' : Light, e'.dirt = 1 →
      dirtFactor cfg false o (some e') d = 1 - ramp (some e') d (rawDirt cfg (some e') o) := by
    intro e' he'
    unfold dirtFactor
    rw [if_neg (by simp [hu]), if_neg (by simp), if_neg (by simp [usesDirt, he']), if_neg (not_le.2 hd)]
  have hraw : rawDirt cfg (some { e with onRadius := none }) o = rawDirt cfg (some e) o := rfl
  have hr : ∀ x, ramp (some { e with onRadius := none }) d x = x := by intro x; rfl
  rw [key e he, key { e with onRadius := none } he, hraw, hr]
  intro full
  have hfull : full = rawDirt cfg (some e) o := by simp only [full]; ring
  rw [← hfull]
  unfold ramp
  simp only [hon, hoff]
  refine ⟨?_, ?_, ?_⟩
  · intro h; rw [if_pos h]; ring
  · intro h1 h2
    rw [if_neg (not_lt.2 h1), if_neg (by intro h; linarith [h.2])]
  · intro h1 h2
    rw [if_neg (not_lt.2 h1), if_pos ⟨h1, h2⟩]
    unfold fraction
    rw [if_neg (not_le.2 h2)]
    by_cases h3 : d ≤ off
    · have : d = off := le_antisymm h3 h1
      rw [if_pos h3, this, sub_self, zero_div]
    · rw [if_neg h3]

example : dirty.dirtInUse = true ∧ 0 ≤ dirty.dirtscale ∧ anti.dirt = 1 ∧
    dirtFactor dirty false 1 none 0 = 0 := by
  refine ⟨rfl, by norm_num [dirty, plainCfg], rfl, ?_⟩
  unfold dirtFactor
  rw [if_neg (by simp [dirty]), if_neg (by simp), if_neg (by simp [usesDirt]), if_neg (by norm_num)]
  norm_num [ramp, rawDirt, dirtScale, dirty, plainCfg]

end Verif.Illum
