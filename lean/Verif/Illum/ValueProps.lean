import Verif.Illum.CullProps

/-!
C155: how the light of an entity fades with distance.
-/

namespace Verif.Illum

open Verif.Geom

/-- C155: with a distance scale that is not negative and a positive `wait`, the light gets no brighter with distance and
never changes sign. -/
theorem light_fades (sd : ℝ) (l : Light) (a b v : ℝ) (hs : 0 ≤ sd) (ha : 0 < l.atten) (h0 : 0 ≤ a) (hab : a ≤ b)
    (h : lightValue sd l a = some v) : ∃ w, lightValue sd l b = some w ∧ |w| ≤ |v| ∧ 0 ≤ w * l.light := by
  have hk : 0 ≤ sd * l.atten := mul_nonneg hs ha.le
  exact value_fades_aux sd sd l l rfl rfl rfl h0 hab (mul_nonneg hk h0) (mul_le_mul_of_nonneg_left hab hk) h

example : (∃ v, lightValue 1 (plain 300 ⟨0, 0, 0⟩) 100 = some v) ∧ (0 : ℝ) ≤ 1 ∧ 0 < (plain 300 ⟨0, 0, 0⟩).atten :=
  ⟨⟨200, by norm_num [lightValue, plainValue, linearValue, plain]⟩, by norm_num, by norm_num [plain]⟩

/-- C155: a greater `wait` makes the light fade no less. -/
theorem wait_fades (sd : ℝ) (l : Light) (wait d v : ℝ) (hs : 0 ≤ sd) (ha : 0 < l.atten) (hw : l.atten ≤ wait)
    (h0 : 0 ≤ d) (h : lightValue sd l d = some v) :
    ∃ w, lightValue sd { l with atten := wait } d = some w ∧ |w| ≤ |v| ∧ 0 ≤ w * l.light := by
  have hk : 0 ≤ sd * l.atten := mul_nonneg hs ha.le
  exact value_fades_aux sd sd l { l with atten := wait } rfl rfl rfl h0 (le_refl d) (mul_nonneg hk h0)
    (mul_le_mul_of_nonneg_right (mul_le_mul_of_nonneg_left hw hs) h0) h

/-- C155: the light is a number at every positive distance. -/
theorem light_defined (sd : ℝ) (l : Light) (d : ℝ) (hs : 0 < sd) (ha : 0 < l.atten) (hd : 0 < d) :
    ∃ v, lightValue sd l d = some v := by
  have hx : 0 < sd * l.atten * d := by positivity
  unfold lightValue
  split_ifs
  · exact ⟨_, rfl⟩
  · exact ⟨_, rfl⟩
  · unfold plainValue
    simp only
    generalize sd * l.atten * d = x at hx
    have h1 : x / 128 ≠ 0 := by positivity
    have h2 : (x + 128) * (x + 128) / (128 * 128) ≠ 0 := by positivity
    have h3 : x * x / (128 * 128) ≠ 0 := by positivity
    split
    · exact ⟨_, rfl⟩
    · exact ⟨_, rfl⟩
    · exact ⟨_, if_neg h1⟩
    · exact ⟨_, if_neg h2⟩
    · exact ⟨_, if_neg h3⟩
    · exact ⟨_, rfl⟩

/-- C155: `-dist 0`, which the option allows, makes a `delay 1` light infinitely bright everywhere. -/
theorem no_scale_infinite (l : Light) (d : ℝ) (hf : l.formula = .inverse) : lightValue 0 l d = none := by
  unfold lightValue
  rw [if_neg (by rw [hf]; simp)]
  unfold plainValue over
  simp [hf]

/-- C155: a linear light ends exactly where the scaled distance reaches its brightness. -/
theorem linear_reach (sd : ℝ) (l : Light) (d : ℝ) (hf : l.formula = .linear) (hfall : l.falloff ≤ 0) :
    lightValue sd l d = some 0 ↔ |l.light| ≤ sd * l.atten * d := by
  unfold lightValue plainValue linearValue
  rw [if_neg (by intro h; linarith [h.1])]
  simp only [hf, Option.some.injEq]
  generalize sd * l.atten * d = x at *
  rcases lt_or_ge 0 l.light with h | h
  · rw [if_pos h, abs_of_pos h]
    split_ifs with h1
    · constructor <;> intro h2 <;> linarith
    · constructor
      · intro _; linarith
      · intro _; rfl
  · rw [if_neg (not_lt.2 h), abs_of_nonpos h]
    split_ifs with h1
    · constructor <;> intro h2 <;> linarith
    · constructor
      · intro _; linarith
      · intro _; rfl

/-- C155: a light with `_falloff` ends exactly at that distance, and `wait` and the distance scale do not matter. -/
theorem falloff_reach (sd : ℝ) (l : Light) (d : ℝ) (hf : l.formula = .linear) (hfall : 0 < l.falloff)
    (hl : l.light ≠ 0) :
    (lightValue sd l d = some 0 ↔ l.falloff ≤ d) ∧ lightValue sd l 0 = some l.light ∧
      ∀ sd' wait, lightValue sd' { l with atten := wait } d = lightValue sd l d := by
  refine ⟨?_, ?_, ?_⟩
  · unfold lightValue
    rw [if_pos ⟨hfall, hf⟩]
    split_ifs with h
    · simp only [Option.some.injEq, mul_eq_zero, hl, false_or]
      have h1 : d / l.falloff < 1 := (div_lt_one hfall).2 h
      constructor <;> intro h2 <;> linarith
    · constructor
      · intro _; linarith
      · intro _; rfl
  · unfold lightValue
    rw [if_pos ⟨hfall, hf⟩, if_pos hfall]
    simp
  · intro sd' wait
    unfold lightValue
    simp only [hf, hfall, gt_iff_lt, and_self, if_true]

example : (plain 300 ⟨0, 0, 0⟩).formula = .linear ∧ (plain 300 ⟨0, 0, 0⟩).falloff ≤ 0 := ⟨rfl, by norm_num [plain]⟩

example : lightValue 1 { plain 300 ⟨0, 0, 0⟩ with falloff := 100 } 50 = some 150 := by
  norm_num [lightValue, plain]

/-- C155: the plain formulas at the distance they are scaled to: 1/x and 1/x² give the light value at 128 units, and
`delay 5` gives it at the source. -/
theorem scaled_to_128 (l : Light) (ha : l.atten = 1) :
    (l.formula = .inverse → lightValue 1 l 128 = some l.light) ∧
      (l.formula = .inverse2 → lightValue 1 l 128 = some l.light) ∧
      (l.formula = .inverse2a → lightValue 1 l 0 = some l.light) ∧
      (l.formula = .infinite → ∀ d, lightValue 1 l d = some l.light) := by
  refine ⟨?_, ?_, ?_, ?_⟩
  all_goals
    intro h
    try intro d
    unfold lightValue
    rw [if_neg (by rw [h]; simp)]
    unfold plainValue over
    simp only [h, ha]
    try norm_num

/-- C155: twice as far, a 1/x light is half as bright and a 1/x² light a quarter. -/
theorem doubled_distance (sd : ℝ) (l : Light) (d v : ℝ) (h : lightValue sd l d = some v) :
    (l.formula = .inverse → lightValue sd l (2 * d) = some (v / 2)) ∧
      (l.formula = .inverse2 → lightValue sd l (2 * d) = some (v / 4)) := by
  constructor
  · intro hf
    unfold lightValue at h ⊢
    rw [if_neg (by rw [hf]; simp)] at h ⊢
    unfold plainValue over at h ⊢
    simp only [hf] at h ⊢
    by_cases h0 : sd * l.atten * d / 128 = 0
    · rw [if_pos h0] at h; exact absurd h (by simp)
    · rw [if_neg h0] at h
      have h1 : sd * l.atten * d ≠ 0 := by intro h'; exact h0 (by rw [h']; simp)
      have e : sd * l.atten * (2 * d) = 2 * (sd * l.atten * d) := by ring
      rw [e]
      generalize sd * l.atten * d = x at *
      rw [if_neg (by intro h'; apply h1; linarith)]
      injection h with h; rw [← h]; congr 1; field_simp
  · intro hf
    unfold lightValue at h ⊢
    rw [if_neg (by rw [hf]; simp)] at h ⊢
    unfold plainValue over at h ⊢
    simp only [hf] at h ⊢
    by_cases h0 : sd * l.atten * d * (sd * l.atten * d) / (128 * 128) = 0
    · rw [if_pos h0] at h; exact absurd h (by simp)
    · rw [if_neg h0] at h
      have h1 : sd * l.atten * d ≠ 0 := by intro h'; exact h0 (by rw [h']; simp)
      have e : sd * l.atten * (2 * d) = 2 * (sd * l.atten * d) := by ring
      rw [e]
      generalize sd * l.atten * d = x at *
      have h2 : 2 * x * (2 * x) / (128 * 128) ≠ 0 := by
        have : 2 * x * (2 * x) / (128 * 128) = 4 * (x * x / (128 * 128)) := by ring
        rw [this]; simp only [ne_eq, mul_eq_zero, OfNat.ofNat_ne_zero, false_or]; exact h0
      rw [if_neg h2]
      injection h with h; rw [← h]; congr 1; field_simp; ring

/-- C155: `delay 5` is never brighter than the light value, nor than `delay 2` at the same distance. -/
theorem delay5_tamer (sd : ℝ) (l : Light) (d v : ℝ) (hs : 0 ≤ sd) (ha : 0 < l.atten) (hd : 0 ≤ d)
    (h : lightValue sd { l with formula := .inverse2 } d = some v) :
    ∃ w, lightValue sd { l with formula := .inverse2a } d = some w ∧ |w| ≤ |l.light| ∧ |w| ≤ |v| := by
  have hx : 0 ≤ sd * l.atten * d := by positivity
  unfold lightValue at h ⊢
  simp only at h ⊢
  rw [if_neg (by simp)] at h ⊢
  unfold plainValue at h ⊢
  simp only at h ⊢
  generalize sd * l.atten * d = x at *
  obtain ⟨w, hw, hwv, _⟩ := over_fades (c := (x + 128) * (x + 128) / (128 * 128)) (by positivity) (by nlinarith) h
  have h1 : over l.light 1 = some l.light := by simp [over]
  obtain ⟨w', hw', hwl, _⟩ := over_fades (c := (x + 128) * (x + 128) / (128 * 128)) (by norm_num) (by nlinarith) h1
  rw [hw] at hw'
  injection hw' with hw'
  exact ⟨w, hw, hw' ▸ hwl, hwv⟩

/-- C155: whatever a map says, the keys are in their ranges once they have been checked: a positive `wait`, an angle
scale in 0 to 1 and `_falloff` on linear lights only. -/
theorem checked_ranges (global : ℝ) (addmin : Bool) (r : Raw) (hg : 0 ≤ global ∧ global ≤ 1) :
    0 < (checkFields global addmin r).1.atten ∧
      0 ≤ (checkFields global addmin r).1.anglescale ∧ (checkFields global addmin r).1.anglescale ≤ 1 ∧
      (0 < (checkFields global addmin r).1.falloff → (checkFields global addmin r).1.formula = .linear) ∧
      1 ≤ (checkFields global addmin r).2 := by
  unfold checkFields jitter
  simp only
  refine ⟨?_, ?_, ?_, ?_, ?_⟩
  · split_ifs with h
    · norm_num
    · linarith
  · split_ifs with h
    · exact hg.1
    · push Not at h; exact h.1
  · split_ifs with h
    · exact hg.2
    · push Not at h; exact h.2
  · split_ifs with h
    · intro h'; exact absurd h' (lt_irrefl _)
    · push Not at h; exact h
  · split_ifs <;> omega

/-- C155: the copies that `_deviance` splits a light into add up to the light itself, where it does not move them, for
the formulas that the documentation names. -/
theorem jitter_total (global : ℝ) (addmin : Bool) (r : Raw) (sd d v : ℝ)
    (hf : r.base.formula = .inverse ∨ r.base.formula = .inverse2 ∨ r.base.formula = .infinite ∨
      r.base.formula = .inverse2a)
    (h : lightValue sd (checkFields global addmin { r with deviance := 0 }).1 d = some v) :
    ∃ w, lightValue sd (checkFields global addmin r).1 d = some w ∧ (checkFields global addmin r).2 * w = v := by
  have hn : 1 ≤ jitter r.deviance r.samples := by
    unfold jitter; simp only; split_ifs <;> omega
  have hn0 : (jitter r.deviance r.samples : ℝ) ≠ 0 := by
    have : (1 : ℝ) ≤ jitter r.deviance r.samples := by exact_mod_cast hn
    linarith
  have h1 : jitter 0 r.samples = 1 := by simp [jitter]
  unfold checkFields at h ⊢
  unfold lightValue plainValue over at h ⊢
  simp only [h1] at h ⊢
  generalize (jitter r.deviance r.samples : ℝ) = n at *
  generalize (if r.base.atten ≤ 0 then 1 else r.base.atten) = at' at *
  generalize (if r.lightSet = true then r.base.light else 300) = li at *
  rcases hf with hf | hf | hf | hf <;>
    · simp only [hf, divides, reduceCtorEq, and_false, if_false, if_true, Nat.cast_one, div_one] at h ⊢
      first
        | (split_ifs at h with h0
           rw [if_neg h0]
           injection h with h
           refine ⟨_, rfl, ?_⟩
           rw [← h]; field_simp)
        | (injection h with h
           refine ⟨_, rfl, ?_⟩
           rw [← h]; field_simp)

/-- C155: the copies of a linear light, and of a local minimum light unless minimum light adds up, are each as bright as
the light itself. -/
theorem jitter_whole (global : ℝ) (addmin : Bool) (r : Raw)
    (hf : r.base.formula = .linear ∨ (r.base.formula = .localmin ∧ addmin = false)) :
    (checkFields global addmin r).1 = (checkFields global addmin { r with deviance := 0 }).1 := by
  rcases hf with hf | ⟨hf, ha⟩ <;> simp only [checkFields, hf, divides] <;> simp_all

/-- A light with `_deviance 8` and no `_samples`: sixteen copies. -/
example : (checkFields (1 / 2) false
    ⟨{ plain 320 ⟨0, 0, 0⟩ with formula := .inverse }, true, 8, 0⟩).2 = 16 ∧
    (checkFields (1 / 2) false ⟨{ plain 320 ⟨0, 0, 0⟩ with formula := .inverse }, true, 8, 0⟩).1.light = 20 := by
  norm_num [checkFields, jitter, divides, plain]

end Verif.Illum
