import Mathlib.Tactic.Ring
import Mathlib.Tactic.FieldSimp
import Mathlib.Tactic.Positivity
import Verif.Illum.Spec

/-!
Helper lemmas on light values.
-/

namespace Verif.Illum

open Verif.Geom

theorem dot_self_nonneg (a : Vec ℝ) : 0 ≤ dot a a := by
  unfold dot; nlinarith [mul_self_nonneg a.x, mul_self_nonneg a.y, mul_self_nonneg a.z]

theorem len_nonneg (a : Vec ℝ) : 0 ≤ len a := Real.sqrt_nonneg _

theorem len_sq (a : Vec ℝ) : len a * len a = dot a a := Real.mul_self_sqrt (dot_self_nonneg a)

theorem dot_sq_le (a b : Vec ℝ) : dot a b * dot a b ≤ dot a a * dot b b := by
  unfold dot
  nlinarith [mul_self_nonneg (a.x * b.y - a.y * b.x), mul_self_nonneg (a.x * b.z - a.z * b.x),
    mul_self_nonneg (a.y * b.z - a.z * b.y)]

theorem abs_dot_le (a b : Vec ℝ) : |dot a b| ≤ len a * len b := by
  apply abs_le_of_sq_le_sq _ (mul_nonneg (len_nonneg a) (len_nonneg b))
  have h := dot_sq_le a b
  have h2 : (len a * len b) ^ 2 = dot a a * dot b b := by rw [← len_sq a, ← len_sq b]; ring
  rw [h2, sq]; exact h

theorem dot_unit_le {a b : Vec ℝ} (ha : Unit a) (hb : Unit b) : dot a b ≤ 1 ∧ -1 ≤ dot a b := by
  have h := dot_sq_le a b
  rw [ha, hb] at h
  constructor <;> nlinarith

theorem len_triangle (a b c : Vec ℝ) : len (vsub a c) ≤ len (vsub a b) + len (vsub b c) := by
  have hA := len_nonneg (vsub a b)
  have hB := len_nonneg (vsub b c)
  have hC := len_nonneg (vsub a c)
  have h1 := len_sq (vsub a b)
  have h2 := len_sq (vsub b c)
  have h3 := len_sq (vsub a c)
  have h4 := (abs_le.1 (abs_dot_le (vsub a b) (vsub b c))).2
  have h5 : dot (vsub a c) (vsub a c) =
      dot (vsub a b) (vsub a b) + dot (vsub b c) (vsub b c) + 2 * dot (vsub a b) (vsub b c) := by
    unfold dot vsub; ring
  by_contra hlt
  push Not at hlt
  nlinarith

theorem unit_smul {d : Vec ℝ} (h : len d ≠ 0) : Unit (smul (1 / len d) d) := by
  have h1 := len_sq d
  have h2 : dot (smul (1 / len d) d) (smul (1 / len d) d) = (1 / len d) * (1 / len d) * dot d d := by
    unfold dot smul; ring
  unfold Unit
  rw [h2, ← h1]; field_simp

/-- The direction to the light has length one, and the distance is at least a tenth and at least the true distance. -/
theorem toLight_unit (l : Light) (p : Vec ℝ) : Unit (toLight l p).2 := by
  unfold toLight
  simp only
  by_cases h : len (vsub l.origin p) < 1 / 10
  · rw [if_pos h]; simp [Unit, dot]
  · rw [if_neg h]
    apply unit_smul
    push Not at h; linarith

theorem toLight_dist (l : Light) (p : Vec ℝ) : len (vsub l.origin p) ≤ (toLight l p).1 ∧ 1 / 10 ≤ (toLight l p).1 := by
  unfold toLight
  simp only
  by_cases h : len (vsub l.origin p) < 1 / 10
  · rw [if_pos h]; exact ⟨h.le, le_refl _⟩
  · rw [if_neg h]; push Not at h; exact ⟨le_refl _, h⟩

/-! ### Attenuation -/

theorem over_fades {a b c v : ℝ} (hb : 0 ≤ b) (hbc : b ≤ c) (h : over a b = some v) :
    ∃ w, over a c = some w ∧ |w| ≤ |v| ∧ 0 ≤ w * a := by
  unfold over at h ⊢
  by_cases h0 : b = 0
  · rw [if_pos h0] at h; exact absurd h (by simp)
  · rw [if_neg h0] at h
    have hb' : 0 < b := lt_of_le_of_ne hb (Ne.symm h0)
    have hc : 0 < c := lt_of_lt_of_le hb' hbc
    rw [if_neg hc.ne']
    injection h with h; subst h
    refine ⟨a / c, rfl, ?_, ?_⟩
    · rw [abs_div, abs_div, abs_of_pos hb', abs_of_pos hc]
      exact div_le_div_of_nonneg_left (abs_nonneg a) hb' hbc
    · have : a / c * a = a * a / c := by ring
      rw [this]; exact div_nonneg (mul_self_nonneg a) hc.le

theorem linear_fades (a : ℝ) {x y : ℝ} (_ : 0 ≤ x) (hxy : x ≤ y) :
    |linearValue a y| ≤ |linearValue a x| ∧ 0 ≤ linearValue a y * a := by
  unfold linearValue
  split_ifs <;> constructor <;> (try simp only [abs_zero]) <;> first
    | positivity
    | (apply abs_le_abs_of_nonneg <;> linarith)
    | (apply abs_le_abs_of_nonpos <;> linarith)
    | nlinarith

theorem plain_fades (sd1 sd2 : ℝ) (l l' : Light) (hl : l'.light = l.light) (hf : l'.formula = l.formula)
    {a b : ℝ} {v : ℝ} (h0 : 0 ≤ sd1 * l.atten * a) (hab : sd1 * l.atten * a ≤ sd2 * l'.atten * b)
    (h : plainValue sd1 l a = some v) :
    ∃ w, plainValue sd2 l' b = some w ∧ |w| ≤ |v| ∧ 0 ≤ w * l.light := by
  unfold plainValue at h ⊢
  rw [hf, hl]
  simp only at h ⊢
  generalize sd1 * l.atten * a = x at *
  generalize sd2 * l'.atten * b = y at *
  cases hform : l.formula <;> rw [hform] at h <;> simp only at h ⊢
  · injection h with h; subst h
    exact ⟨_, rfl, linear_fades _ h0 hab⟩
  · exact over_fades (by positivity) (by linarith) h
  · exact over_fades (by positivity) (by nlinarith) h
  · injection h with h; subst h
    exact ⟨_, rfl, le_refl _, mul_self_nonneg _⟩
  · injection h with h; subst h
    exact ⟨_, rfl, le_refl _, mul_self_nonneg _⟩
  · exact over_fades (by positivity) (by nlinarith) h

theorem falloff_fades {l f a b : ℝ} (hf : 0 < f) (_ : 0 ≤ a) (hab : a ≤ b) :
    |if f > b then l * (1 - b / f) else 0| ≤ |if f > a then l * (1 - a / f) else 0| ∧
      0 ≤ (if f > b then l * (1 - b / f) else 0) * l := by
  by_cases hb : f > b
  · have ha : f > a := lt_of_le_of_lt hab hb
    rw [if_pos hb, if_pos ha]
    have h1 : b / f < 1 := (div_lt_one hf).2 hb
    have h2 : a / f ≤ b / f := div_le_div_of_nonneg_right hab hf.le
    constructor
    · rw [abs_mul, abs_mul]
      apply mul_le_mul_of_nonneg_left _ (abs_nonneg l)
      rw [abs_of_nonneg (by linarith), abs_of_nonneg (by linarith)]; linarith
    · have h3 : l * (1 - b / f) * l = l * l * (1 - b / f) := by ring
      rw [h3]; exact mul_nonneg (mul_self_nonneg l) (by linarith)
  · rw [if_neg hb]; constructor
    · rw [abs_zero]; exact abs_nonneg _
    · rw [zero_mul]

theorem value_fades_aux (sd1 sd2 : ℝ) (l l' : Light) (hl : l'.light = l.light) (hf : l'.formula = l.formula)
    (hfall : l'.falloff = l.falloff) {a b v : ℝ} (ha : 0 ≤ a) (hab : a ≤ b) (h0 : 0 ≤ sd1 * l.atten * a)
    (hx : sd1 * l.atten * a ≤ sd2 * l'.atten * b) (h : lightValue sd1 l a = some v) :
    ∃ w, lightValue sd2 l' b = some w ∧ |w| ≤ |v| ∧ 0 ≤ w * l.light := by
  unfold lightValue at h ⊢
  rw [hfall, hf]
  by_cases hc : l.falloff > 0 ∧ l.formula = .linear
  · rw [if_pos hc] at h ⊢
    have hg := falloff_fades (l := l.light) hc.1 ha hab
    rw [hl]
    have e : ∀ x, (if l.falloff > x then some (l.light * (1 - x / l.falloff)) else some 0) =
        some (if l.falloff > x then l.light * (1 - x / l.falloff) else 0) := by intro x; split_ifs <;> rfl
    rw [e] at h ⊢
    injection h with h; subst h
    exact ⟨_, rfl, hg⟩
  · rw [if_neg hc] at h ⊢
    exact plain_fades sd1 sd2 l l' hl hf h0 hx h

/-! ### Spotlights -/

theorem spotScale_range {spot : Option Spot} {dir : Vec ℝ} {sc : ℝ}
    (hs : ∀ s, spot = some s → s.falloff2 ≤ s.falloff) (h : spotScale spot dir = some sc) : 0 ≤ sc ∧ sc ≤ 1 := by
  cases spot with
  | none => simp only [spotScale] at h; injection h with h; subst h; norm_num
  | some s =>
    unfold spotScale at h
    simp only at h
    by_cases h1 : dot s.vec dir > s.falloff
    · rw [if_pos h1] at h; exact absurd h (by simp)
    · rw [if_neg h1] at h
      by_cases h2 : dot s.vec dir > s.falloff2
      · rw [if_pos h2] at h
        injection h with h; subst h
        have hd : 0 < s.falloff - s.falloff2 := by linarith
        have h3 : 0 ≤ (dot s.vec dir - s.falloff2) / (s.falloff - s.falloff2) := div_nonneg (by linarith) hd.le
        have h4 : (dot s.vec dir - s.falloff2) / (s.falloff - s.falloff2) ≤ 1 := (div_le_one hd).2 (by linarith)
        constructor <;> linarith
      · rw [if_neg h2] at h; injection h with h; subst h; norm_num

/-! ### Dirt -/

theorem fraction_range (a b c : ℝ) : 0 ≤ fraction a b c ∧ fraction a b c ≤ 1 := by
  unfold fraction
  split_ifs with h1 h2
  · norm_num
  · norm_num
  · push Not at h1 h2
    have hd : 0 < c - a := by linarith
    exact ⟨div_nonneg (by linarith) hd.le, (div_le_one hd).2 (by linarith)⟩

theorem rawDirt_range {cfg : Cfg} {l : Option Light} {o : ℝ} (ho : 0 < o) (hs : 0 ≤ dirtScale cfg l) :
    0 ≤ rawDirt cfg l o ∧ rawDirt cfg l o ≤ 1 := by
  unfold rawDirt
  refine ⟨le_min (mul_nonneg (le_min (Real.rpow_nonneg ho.le _) zero_le_one) hs) zero_le_one, min_le_right _ _⟩

theorem ramp_range {l : Option Light} {d out : ℝ} (h : 0 ≤ out ∧ out ≤ 1) : 0 ≤ ramp l d out ∧ ramp l d out ≤ out := by
  cases l with
  | none => exact ⟨h.1, le_refl _⟩
  | some e =>
    unfold ramp
    simp only
    split
    · rename_i on off _ _
      have hfr := fraction_range off d on
      split_ifs
      · exact ⟨le_refl _, h.1⟩
      · exact ⟨mul_nonneg hfr.1 h.1, mul_le_of_le_one_left h.1 hfr.2⟩
      · exact ⟨h.1, le_refl _⟩
    · exact ⟨h.1, le_refl _⟩

theorem dirtFactor_range {cfg : Cfg} {nodirt : Bool} {o : ℝ} {l : Option Light} {d : ℝ}
    (hs : 0 ≤ dirtScale cfg l) : 0 ≤ dirtFactor cfg nodirt o l d ∧ dirtFactor cfg nodirt o l d ≤ 1 := by
  unfold dirtFactor
  split_ifs with h1 h2 h3 h4
  · norm_num
  · norm_num
  · norm_num
  · push Not at h4
    have hr := rawDirt_range (cfg := cfg) (l := l) h4 hs
    have := ramp_range (l := l) (d := d) hr
    constructor <;> linarith
  · norm_num

/-! ### Contributions -/

theorem incidence_le {l : Light} {n d : Vec ℝ} {ts : Bool} (hn : Unit n) (hd : Unit d) : incidence l n d ts ≤ 1 := by
  unfold incidence
  have h := dot_unit_le hd hn
  simp only
  split_ifs <;> linarith

theorem valueWithAngle_le {cfg : Cfg} {l : Light} {n d : Vec ℝ} {ts : Bool} {dist v : ℝ} (hf : Fair cfg l)
    (hn : Unit n) (hd : Unit d) (h : lightValue cfg.scaledist l dist = some v) :
    ∃ w, valueWithAngle cfg.scaledist l n d dist ts = some w ∧ |w| ≤ |v| := by
  unfold valueWithAngle
  simp only
  by_cases h1 : incidence l n d ts < 0
  · rw [if_pos h1]; exact ⟨0, rfl, by simp⟩
  · rw [if_neg h1]
    cases hs : spotScale l.spot d with
    | none => exact ⟨0, rfl, by simp⟩
    | some sc =>
      simp only [h, Option.map_some]
      refine ⟨_, rfl, ?_⟩
      have hsc := spotScale_range hf.spot hs
      have hi := incidence_le (l := l) (ts := ts) hn hd
      push Not at h1
      have ha := hf.angle
      have hang : 0 ≤ (1 - l.anglescale) + l.anglescale * incidence l n d ts ∧
          (1 - l.anglescale) + l.anglescale * incidence l n d ts ≤ 1 := by
        constructor
        · have := mul_nonneg ha.1 h1; linarith
        · nlinarith
      rw [abs_mul, abs_mul, abs_of_nonneg hang.1, abs_of_nonneg hsc.1, mul_assoc]
      exact mul_le_of_le_one_right (abs_nonneg v) (mul_le_one₀ hang.2 hsc.1 hsc.2)

theorem brightness_smul (k : ℝ) (c : Vec ℝ) : brightness (smul k c) = k * brightness c := by
  unfold brightness smul; ring

theorem brightness_color {cfg : Cfg} {l : Light} (hf : Fair cfg l) :
    0 ≤ brightness l.color ∧ brightness l.color ≤ 255 := by
  have h1 := hf.color l.color.x (by simp)
  have h2 := hf.color l.color.y (by simp)
  have h3 := hf.color l.color.z (by simp)
  unfold brightness
  constructor <;> linarith [h1.1, h1.2, h2.1, h2.2, h3.1, h3.2]

/-- What is added at a sample is no brighter than the light value at its distance. -/
theorem sampleColor_le {cfg : Cfg} {l : Light} {s : Surf} {p : Sample} {v : ℝ} (hf : Fair cfg l) (hn : Unit p.normal)
    (h : lightValue cfg.scaledist l (toLight l p.point).1 = some v) :
    ∃ c, sampleColor cfg l s p = some c ∧ |brightness c| ≤ |v| := by
  obtain ⟨w, hw, hwv⟩ := valueWithAngle_le (ts := s.twosided) hf hn (toLight_unit l p.point) h
  unfold sampleColor contrib
  simp only [hw, Option.map_some]
  refine ⟨_, rfl, ?_⟩
  have hd := dirtFactor_range (cfg := cfg) (nodirt := s.nodirt) (o := p.occlusion) (l := some l)
    (d := (toLight l p.point).1) (by
      unfold dirtScale; simp only; split_ifs
      · exact hf.dirt.2
      · exact hf.dirt.1)
  have hc := brightness_color hf
  have hcol : colorAt l p.point = l.color := by unfold colorAt; rw [hf.proj]
  rw [brightness_smul, brightness_smul, hcol, abs_mul, abs_mul, abs_mul, abs_of_nonneg hd.1, abs_of_nonneg hc.1]
  have h255 : |(1 / 255 : ℝ)| = 1 / 255 := abs_of_nonneg (by norm_num)
  rw [h255]
  have h1 : |w| * (1 / 255) * brightness l.color ≤ |w| := by
    have : 1 / 255 * brightness l.color ≤ 1 := by linarith [hc.2]
    rw [mul_assoc]; exact mul_le_of_le_one_right (abs_nonneg w) this
  have h0 : 0 ≤ |w| * (1 / 255) * brightness l.color := by have := abs_nonneg w; have := hc.1; positivity
  calc _ ≤ |w| * (1 / 255) * brightness l.color := mul_le_of_le_one_left h0 hd.2
    _ ≤ |w| := h1
    _ ≤ |v| := hwv

/-- No ray is pushed for a sample whose colour is within the gate. -/
theorem rays_nil {cfg : Cfg} {l : Light} {s : Surf}
    (h : ∀ p ∈ s.samples, ∃ c, sampleColor cfg l s p = some c ∧ |brightness c| ≤ cfg.gate) : rays cfg l s = [] := by
  unfold rays
  rw [List.filterMap_eq_nil_iff]
  intro p hp
  have hm : p.1 ∈ s.samples := by
    obtain ⟨a, b⟩ := p
    exact (List.mem_zipIdx' hp).2 ▸ List.getElem_mem _
  obtain ⟨c, hc, hb⟩ := h p.1 hm
  have : pushed cfg l s p.1 = none := by
    unfold pushed
    rw [hc]
    split_ifs with h1 h2
    · rfl
    · rfl
    · exact absurd (by simpa [atMost] using hb) h2
  rw [this]; rfl

end Verif.Illum
