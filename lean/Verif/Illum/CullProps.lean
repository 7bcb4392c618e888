import Verif.Illum.Lemmas

/-!
C154: skipping a light for a whole face loses nothing.
-/

namespace Verif.Illum

open Verif.Geom

theorem cull_samples {cfg : Cfg} {l : Light} {s : Surf} (hf : Fair cfg l) (hw : Within s) (hc : cullLight cfg l s) :
    ∀ p ∈ s.samples, ∃ c, sampleColor cfg l s p = some c ∧ |brightness c| ≤ cfg.gate := by
  intro p hp
  obtain ⟨hn, hr⟩ := hw p hp
  unfold cullLight at hc
  simp only at hc
  obtain ⟨h0, hv⟩ := hc
  push Not at h0
  cases hval : lightValue cfg.scaledist l (len (vsub l.origin s.center) - s.radius) with
  | none => rw [hval] at hv; exact absurd hv (by simp [atMost])
  | some v =>
    rw [hval] at hv
    have htri := len_triangle l.origin p.point s.center
    have hd := (toLight_dist l p.point).1
    have hk : 0 ≤ cfg.scaledist * l.atten := mul_nonneg hf.scaledist hf.atten.le
    have hle : len (vsub l.origin s.center) - s.radius ≤ (toLight l p.point).1 := by linarith
    obtain ⟨w, hw', hwv, _⟩ := value_fades_aux cfg.scaledist cfg.scaledist l l rfl rfl rfl h0 hle
      (mul_nonneg hk h0) (mul_le_mul_of_nonneg_left hle hk) hval
    obtain ⟨c, hcc, hb⟩ := sampleColor_le (s := s) hf hn hw'
    exact ⟨c, hcc, hb.trans (hwv.trans hv)⟩

theorem behind_samples {cfg : Cfg} {l : Light} {s : Surf} (hg : 0 ≤ cfg.gate) (hu : Unit s.plane.normal)
    (hfr : InFront s) (hb : behind l s) :
    ∀ p ∈ s.samples, ∃ c, sampleColor cfg l s p = some c ∧ |brightness c| ≤ cfg.gate := by
  intro p hp
  obtain ⟨hd, hbl, hcu, hts⟩ := hb
  obtain ⟨hn, hp1⟩ := hfr hcu p hp
  have hdot : dot (vsub l.origin p.point) s.plane.normal < -(1 / 10) := by
    have : dot (vsub l.origin p.point) s.plane.normal = s.plane.distTo l.origin - s.plane.distTo p.point := by
      unfold Plane.distTo dot vsub; ring
    linarith
  have hlen : ¬ len (vsub l.origin p.point) < 1 / 10 := by
    have h1 := (abs_le.1 (abs_dot_le (vsub l.origin p.point) s.plane.normal)).1
    have h2 : len s.plane.normal = 1 := by unfold len; rw [hu]; exact Real.sqrt_one
    rw [h2] at h1
    push Not
    linarith
  have hpos : 0 < len (vsub l.origin p.point) := by push Not at hlen; linarith
  have hinc : incidence l p.normal (toLight l p.point).2 s.twosided < 0 := by
    unfold incidence toLight
    simp only [hbl, hts]
    rw [if_neg hlen, hn]
    have e : dot (smul (1 / len (vsub l.origin p.point)) (vsub l.origin p.point)) s.plane.normal =
        1 / len (vsub l.origin p.point) * dot (vsub l.origin p.point) s.plane.normal := by
      unfold dot smul; ring
    simp only [e]
    rw [if_neg (by simp)]
    exact mul_neg_of_pos_of_neg (one_div_pos.2 hpos) (by linarith)
  refine ⟨⟨0, 0, 0⟩, ?_, ?_⟩
  · unfold sampleColor contrib valueWithAngle
    simp only
    rw [if_pos hinc]
    simp [smul]
  · simp [brightness, hg]

/-- C154, partial: the documented keys and settings, and samples within the bounding sphere of their face. Then a face
gets the same rays whether or not the light is first tested against the plane and the bounding sphere of the face. -/
theorem cull_lossless_partial (cfg : Cfg) (l : Light) (s : Surf) (hf : Fair cfg l) (hu : Unit s.plane.normal)
    (hw : Within s) (hfr : InFront s) (hm : l.mask &&& s.mask ≠ 0) : faceRays cfg l s = rays cfg l s := by
  unfold faceRays
  by_cases hb : behind l s
  · rw [if_pos hb, rays_nil (behind_samples hf.gate hu hfr hb)]
  · rw [if_neg hb]
    by_cases hc : cullLight cfg l s
    · rw [if_pos hc, rays_nil (cull_samples hf hw hc)]
    · rw [if_neg hc, if_neg hm]

/-- A light on no channel of the face gives it nothing. -/
theorem other_channel (cfg : Cfg) (l : Light) (s : Surf) (hm : l.mask &&& s.mask = 0) : faceRays cfg l s = [] := by
  unfold faceRays
  split_ifs <;> rfl

/-! ### Examples -/

/-- A plain light of brightness `b` at `o` that fades linearly. -/
noncomputable def plain (b : ℝ) (o : Vec ℝ) : Light :=
  { light := b, atten := 1, formula := .linear, falloff := 0, anglescale := 0, bleed := false, origin := o,
    color := ⟨255, 255, 255⟩, spot := none, proj := none, dirt := 0, dirtscale := 0, dirtgain := 0,
    onRadius := none, offRadius := none, mask := 1 }

noncomputable def plainCfg (gate : ℝ) : Cfg :=
  { scaledist := 1, gate := gate, dirtInUse := false, dirt := false, dirtscale := 1, dirtgain := 1 }

/-- The floor `z = 0` with one sample, one unit in front of it. -/
noncomputable def floorAt (p : Vec ℝ) (r : ℝ) : Surf :=
  { plane := ⟨⟨0, 0, 1⟩, 0⟩, center := ⟨0, 0, 0⟩, radius := r, curved := false, twosided := false, nodirt := false,
    mask := 1, samples := [⟨p, ⟨0, 0, 1⟩, false, 0⟩] }

theorem len_z (z : ℝ) (h : 0 ≤ z) : len ⟨0, 0, z⟩ = z := by
  unfold len dot; simp only [mul_zero, zero_add]; exact Real.sqrt_mul_self h

/-- The hypotheses are met, both by a light that is skipped (too far) and by one that is not. -/
example : Fair (plainCfg 1) (plain 2 ⟨0, 0, 2⟩) ∧ Unit (floorAt ⟨0, 0, 1⟩ 1).plane.normal ∧
    Within (floorAt ⟨0, 0, 1⟩ 1) ∧ InFront (floorAt ⟨0, 0, 1⟩ 1) ∧
    cullLight (plainCfg 1) (plain 2 ⟨0, 0, 2⟩) (floorAt ⟨0, 0, 1⟩ 1) ∧
    ¬ cullLight (plainCfg 1) (plain 3 ⟨0, 0, 2⟩) (floorAt ⟨0, 0, 1⟩ 1) := by
  have hl : len (vsub (⟨0, 0, 2⟩ : Vec ℝ) ⟨0, 0, 0⟩) = 2 := by
    unfold vsub; simp only [sub_zero]; exact len_z 2 (by norm_num)
  refine ⟨⟨by norm_num [plainCfg], by norm_num [plainCfg], by norm_num [plain], ?_, by norm_num [plain],
    by norm_num [plain, plainCfg], by simp [plain], rfl⟩, by simp [Unit, dot, floorAt], ?_, ?_, ?_, ?_⟩
  · simp [plain]
  · intro p hp
    simp only [floorAt, List.mem_singleton] at hp
    subst hp
    refine ⟨by simp [Unit, dot], ?_⟩
    simp only [floorAt, vsub, sub_zero]
    rw [len_z 1 (by norm_num)]
  · intro _ p hp
    simp only [floorAt, List.mem_singleton] at hp
    subst hp
    norm_num [floorAt, Plane.distTo, dot]
  · simp only [cullLight, plain, floorAt, hl, plainCfg, lightValue, plainValue, linearValue, atMost]
    norm_num
  · simp only [cullLight, plain, floorAt, hl, plainCfg, lightValue, plainValue, linearValue, atMost]
    norm_num

/-- A sample that a light shines on straight from the front, with no angle scale, spotlight or dirt. -/
theorem sampleColor_of {cfg : Cfg} {l : Light} {s : Surf} {p : Sample} {d v : ℝ} {dir : Vec ℝ}
    (ht : toLight l p.point = (d, dir)) (hi : cfg.dirtInUse = false) (hs : l.spot = none) (ha : l.anglescale = 0)
    (h0 : 0 ≤ dot dir p.normal) (hv : lightValue cfg.scaledist l d = some v) :
    sampleColor cfg l s p = some (smul (v * (1 / 255)) (colorAt l p.point)) := by
  have hinc : incidence l p.normal dir s.twosided = dot dir p.normal := by
    unfold incidence; simp only; rw [if_neg]; push Not; intro _; exact h0
  unfold sampleColor contrib valueWithAngle dirtFactor
  simp only [ht, hi, hs, ha, hinc, spotScale, hv, Option.map_some]
  rw [if_neg (not_lt.2 h0)]
  simp [smul]

theorem rays_ne_nil {cfg : Cfg} {l : Light} {s : Surf} {p : Sample} {c : Vec ℝ} (hs : s.samples = [p])
    (ho : p.occluded = false) (hc : sampleColor cfg l s p = some c) (hb : cfg.gate < |brightness c|) :
    rays cfg l s ≠ [] := by
  unfold rays pushed
  simp only [hs, List.zipIdx_singleton, List.filterMap_cons, List.filterMap_nil, hc, ho]
  rw [if_neg (by simp), if_neg]
  · simp
  · rw [hc]; exact not_le.2 hb

/-! ### Where the property fails -/

/-- A colour above 255: the face is skipped, although its sample would get more than the gate. -/
theorem bright_color_lost :
    let l := { plain 2 ⟨0, 0, 2⟩ with color := ⟨300, 300, 300⟩ }
    faceRays (plainCfg 1) l (floorAt ⟨0, 0, 1⟩ 1) = [] ∧ rays (plainCfg 1) l (floorAt ⟨0, 0, 1⟩ 1) ≠ [] := by
  have hl : len (vsub (⟨0, 0, 2⟩ : Vec ℝ) ⟨0, 0, 0⟩) = 2 := by
    unfold vsub; simp only [sub_zero]; exact len_z 2 (by norm_num)
  have hl1 : len (vsub (⟨0, 0, 2⟩ : Vec ℝ) ⟨0, 0, 1⟩) = 1 := by
    have : vsub (⟨0, 0, 2⟩ : Vec ℝ) ⟨0, 0, 1⟩ = ⟨0, 0, 1⟩ := by norm_num [vsub]
    rw [this]; exact len_z 1 (by norm_num)
  intro l
  constructor
  · unfold faceRays
    rw [if_neg (by norm_num [l, behind, plain, floorAt, Plane.distTo, dot])]
    rw [if_pos]
    simp only [cullLight, l, plain, floorAt, hl, plainCfg, lightValue, plainValue, linearValue, atMost]
    norm_num
  · have ht : toLight l ⟨0, 0, 1⟩ = (1, ⟨0, 0, 1⟩) := by
      simp only [toLight, l, plain, hl1]
      rw [if_neg (by norm_num)]
      norm_num [smul, vsub]
    have hv : lightValue (plainCfg 1).scaledist l 1 = some 1 := by
      norm_num [lightValue, plainValue, linearValue, l, plain, plainCfg]
    refine rays_ne_nil rfl rfl (sampleColor_of ht rfl rfl rfl (by norm_num [dot]) hv) ?_
    norm_num [plainCfg, brightness, smul, colorAt, l, plain]

/-- A projected texture doubles the colour: the same. -/
theorem projected_lost :
    let l := { plain 2 ⟨0, 0, 2⟩ with proj := some fun _ => some ⟨510, 510, 510⟩ }
    faceRays (plainCfg 1) l (floorAt ⟨0, 0, 1⟩ 1) = [] ∧ rays (plainCfg 1) l (floorAt ⟨0, 0, 1⟩ 1) ≠ [] := by
  have hl : len (vsub (⟨0, 0, 2⟩ : Vec ℝ) ⟨0, 0, 0⟩) = 2 := by
    unfold vsub; simp only [sub_zero]; exact len_z 2 (by norm_num)
  have hl1 : len (vsub (⟨0, 0, 2⟩ : Vec ℝ) ⟨0, 0, 1⟩) = 1 := by
    have : vsub (⟨0, 0, 2⟩ : Vec ℝ) ⟨0, 0, 1⟩ = ⟨0, 0, 1⟩ := by norm_num [vsub]
    rw [this]; exact len_z 1 (by norm_num)
  intro l
  constructor
  · unfold faceRays
    rw [if_neg (by norm_num [l, behind, plain, floorAt, Plane.distTo, dot])]
    rw [if_pos]
    simp only [cullLight, l, plain, floorAt, hl, plainCfg, lightValue, plainValue, linearValue, atMost]
    norm_num
  · have ht : toLight l ⟨0, 0, 1⟩ = (1, ⟨0, 0, 1⟩) := by
      simp only [toLight, l, plain, hl1]
      rw [if_neg (by norm_num)]
      norm_num [smul, vsub]
    have hv : lightValue (plainCfg 1).scaledist l 1 = some 1 := by
      norm_num [lightValue, plainValue, linearValue, l, plain, plainCfg]
    refine rays_ne_nil rfl rfl (sampleColor_of ht rfl rfl rfl (by norm_num [dot]) hv) ?_
    norm_num [plainCfg, brightness, smul, colorAt, l, plain]

/-- The samples are one unit in front of the face, which can be outside its bounding sphere: a face 6 by 8, its corner
sample, and a light beyond that corner at the height of the samples. -/
theorem outside_sphere_lost :
    let l := plain 10 ⟨6, 8, 1⟩
    Fair (plainCfg (124 / 25)) l ∧ InFront (floorAt ⟨3, 4, 1⟩ 5) ∧
      faceRays (plainCfg (124 / 25)) l (floorAt ⟨3, 4, 1⟩ 5) = [] ∧
      rays (plainCfg (124 / 25)) l (floorAt ⟨3, 4, 1⟩ 5) ≠ [] := by
  have hl : (251 : ℝ) / 25 ≤ len (vsub (⟨6, 8, 1⟩ : Vec ℝ) ⟨0, 0, 0⟩) := by
    unfold len
    apply Real.le_sqrt_of_sq_le
    norm_num [dot, vsub]
  have hl2 : len (vsub (⟨6, 8, 1⟩ : Vec ℝ) ⟨0, 0, 0⟩) ≤ 11 := by
    unfold len
    apply Real.sqrt_le_iff.2
    norm_num [dot, vsub]
  have hl1 : len (vsub (⟨6, 8, 1⟩ : Vec ℝ) ⟨3, 4, 1⟩) = 5 := by
    unfold len
    have : dot (vsub (⟨6, 8, 1⟩ : Vec ℝ) ⟨3, 4, 1⟩) (vsub (⟨6, 8, 1⟩ : Vec ℝ) ⟨3, 4, 1⟩) = 5 * 5 := by
      norm_num [dot, vsub]
    rw [this]; exact Real.sqrt_mul_self (by norm_num)
  intro l
  refine ⟨⟨by norm_num [plainCfg], by norm_num [plainCfg], by norm_num [l, plain], by simp [l, plain],
    by norm_num [l, plain], by norm_num [l, plain, plainCfg], by simp [l, plain], rfl⟩, ?_, ?_, ?_⟩
  · intro _ p hp
    simp only [floorAt, List.mem_singleton] at hp
    subst hp
    norm_num [floorAt, Plane.distTo, dot]
  · unfold faceRays
    rw [if_neg (by norm_num [l, behind, plain, floorAt, Plane.distTo, dot])]
    rw [if_pos]
    simp only [cullLight, l, plain, floorAt, plainCfg, lightValue, plainValue, linearValue, atMost]
    generalize len (vsub (⟨6, 8, 1⟩ : Vec ℝ) ⟨0, 0, 0⟩) = d at hl hl2
    refine ⟨by linarith, ?_⟩
    norm_num
    rw [if_pos (by linarith), abs_of_nonneg (by linarith)]
    linarith
  · have ht : toLight l ⟨3, 4, 1⟩ = (5, ⟨3 / 5, 4 / 5, 0⟩) := by
      simp only [toLight, l, plain, hl1]
      rw [if_neg (by norm_num)]
      norm_num [smul, vsub]
    have hv : lightValue (plainCfg (124 / 25)).scaledist l 5 = some 5 := by
      norm_num [lightValue, plainValue, linearValue, l, plain, plainCfg]
    refine rays_ne_nil rfl rfl (sampleColor_of ht rfl rfl rfl (by norm_num [dot]) hv) ?_
    norm_num [plainCfg, brightness, smul, colorAt, l, plain]

end Verif.Illum
