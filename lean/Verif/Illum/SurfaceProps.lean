import Verif.Illum.Surface

/-!
C159: an emissive surface lights what is in front of it, the less the further it is away, and what is left out to save
time is at most the gate.
-/

namespace Verif.Illum

open Verif.Geom

/-- An emitter and settings as the documentation has them: nothing negative, and a normal of length one. -/
structure FairEmitter (c : SurfCfg) (ps : Pass) (e : Emitter) : Prop where
  normal : Unit e.normal
  intensity : 0 ≤ e.intensity
  total : e.points.length * e.intensity ≤ e.total
  color : 0 ≤ e.color.x ∧ 0 ≤ e.color.y ∧ 0 ≤ e.color.z
  scales : 0 ≤ ps.standard ∧ 0 ≤ ps.sky
  hotspot : 0 < ps.hotspot
  skyDist : 0 ≤ c.skyDist

theorem rescaled_le {r : Bool} {x : ℝ} (h1 : -(1 / 100) ≤ x) (h2 : x ≤ 1) :
    -(1 / 100) ≤ rescaled r x ∧ rescaled r x ≤ 1 := by
  unfold rescaled
  split_ifs
  · constructor <;> linarith
  · exact ⟨h1, h2⟩

theorem mul_le_one' {x y : ℝ} (hx : -(1 / 100) ≤ x ∧ x ≤ 1) (hy : -(1 / 100) ≤ y ∧ y ≤ 1) : x * y ≤ 1 := by
  nlinarith [hx.1, hx.2, hy.1, hy.2, mul_nonneg (sub_nonneg.2 hx.2) (sub_nonneg.2 hy.2)]

theorem dot_smul_neg (a b : Vec ℝ) : dot (smul (-1) a) b = -dot a b := by
  unfold dot smul; simp only; ring

theorem angle_range {e : Emitter} {dir normal : Vec ℝ} {u : Bool} (he : Unit e.normal) (hn : Unit normal)
    (hd : len dir ≤ 1) : 0 ≤ angleFactor e dir normal u ∧ angleFactor e dir normal u ≤ 1 := by
  have unit_len : ∀ v : Vec ℝ, Unit v → len v = 1 := fun v hv => by
    unfold len; rw [show dot v v = 1 from hv, Real.sqrt_one]
  have h1 : dot e.normal dir ≤ 1 := by
    have := abs_dot_le e.normal dir
    rw [unit_len _ he, one_mul] at this
    linarith [le_abs_self (dot e.normal dir)]
  have h2 : dot (smul (-1) dir) normal ≤ 1 := by
    have := abs_dot_le dir normal
    rw [unit_len _ hn, mul_one] at this
    rw [dot_smul_neg]
    linarith [neg_abs_le (dot dir normal)]
  have h3 : (if u then dot (smul (-1) dir) normal else 1) ≤ 1 := by
    split_ifs
    · exact h2
    · exact le_refl _
  unfold angleFactor
  simp only
  generalize (if u then dot (smul (-1) dir) normal else 1) = y at h3
  split_ifs with ho ha hb
  · exact ⟨le_max_left _ _, max_le zero_le_one (by linarith)⟩
  · exact ⟨le_refl _, zero_le_one⟩
  · exact ⟨le_refl _, zero_le_one⟩
  · exact ⟨le_max_left _ _, max_le zero_le_one (mul_le_one' (rescaled_le (not_lt.1 ha) h1) (rescaled_le (not_lt.1 hb) h3))⟩

theorem inv_sq_le {a b h : ℝ} (hh : 0 < h) (hab : a ≤ b) :
    1 / (max b h * max b h) ≤ 1 / (max a h * max a h) := by
  have ha : 0 < max a h := lt_max_of_lt_right hh
  have hm : max a h ≤ max b h := max_le_max_right h hab
  exact one_div_le_one_div_of_le (mul_pos ha ha) (mul_le_mul hm hm ha.le (ha.le.trans hm))

theorem dir_le_one (d : Vec ℝ) : len (smul (1 / max (1 / 100) (len d)) d) ≤ 1 := by
  have hm : 0 < max (1 / 100 : ℝ) (len d) := lt_max_of_lt_left (by norm_num)
  have e : dot (smul (1 / max (1 / 100) (len d)) d) (smul (1 / max (1 / 100) (len d)) d) =
      (len d / max (1 / 100) (len d)) * (len d / max (1 / 100) (len d)) := by
    rw [div_mul_div_comm, len_sq]
    unfold dot smul
    simp only
    field_simp
  show Real.sqrt (dot _ _) ≤ 1
  rw [e, Real.sqrt_mul_self (div_nonneg (len_nonneg _) hm.le)]
  exact (div_le_one hm).2 (le_max_right _ _)

/-- C159: nothing arrives where the sample is behind the surface, or the surface behind the sample. `dir` points from the
surface to the sample. -/
theorem surface_behind (c : SurfCfg) (e : Emitter) (ps : Pass) (dir normal : Vec ℝ) (dist : ℝ) (ho : e.omni = false)
    (h : dot e.normal dir < -(1 / 100) ∨ dot dir normal > 1 / 100) :
    surfaceLighting c e ps dir dist normal true = ⟨0, 0, 0⟩ := by
  have hz : angleFactor e dir normal true = 0 := by
    unfold angleFactor
    simp only [ho, Bool.false_eq_true, if_false, if_true]
    rw [dot_smul_neg]
    rcases h with h | h
    · rw [if_pos h]
    · split_ifs with h1 h2
      · rfl
      · rfl
      · exact absurd (by linarith : -dot dir normal < -(1 / 100)) h2
  unfold surfaceLighting
  rw [hz]
  simp [smul]

/-- C159: in the same direction, a sample further away gets no more light. -/
theorem surface_fades (c : SurfCfg) (e : Emitter) (ps : Pass) (dir normal : Vec ℝ) (d1 d2 : ℝ) (u : Bool)
    (hf : FairEmitter c ps e) (hn : Unit normal) (hd : len dir ≤ 1) (h : d1 ≤ d2) :
    (surfaceLighting c e ps dir d2 normal u).x ≤ (surfaceLighting c e ps dir d1 normal u).x ∧
      (surfaceLighting c e ps dir d2 normal u).y ≤ (surfaceLighting c e ps dir d1 normal u).y ∧
      (surfaceLighting c e ps dir d2 normal u).z ≤ (surfaceLighting c e ps dir d1 normal u).z := by
  have ha := (angle_range (u := u) hf.normal hn hd).1
  have hsc : 0 ≤ (if e.omni then ps.sky else ps.standard) := by
    split_ifs
    · exact hf.scales.2
    · exact hf.scales.1
  have hdist : (if e.omni then d1 + c.skyDist else d1) ≤ (if e.omni then d2 + c.skyDist else d2) := by
    split_ifs <;> linarith
  unfold surfaceLighting colorAtDist smul
  simp only
  have hi := inv_sq_le hf.hotspot hdist
  have hk := mul_le_mul_of_nonneg_left hi (mul_nonneg hf.intensity hsc)
  refine ⟨?_, ?_, ?_⟩
  · exact mul_le_mul_of_nonneg_left (mul_le_mul_of_nonneg_right hk hf.color.1) ha
  · exact mul_le_mul_of_nonneg_left (mul_le_mul_of_nonneg_right hk hf.color.2.1) ha
  · exact mul_le_mul_of_nonneg_left (mul_le_mul_of_nonneg_right hk hf.color.2.2) ha

theorem light_le (c : SurfCfg) (e : Emitter) (ps : Pass) (dir normal : Vec ℝ) (dist far : ℝ) (u : Bool)
    (hf : FairEmitter c ps e) (hn : Unit normal) (hd : len dir ≤ 1) (h : far ≤ dist) (col : ℝ) (hc : 0 ≤ col) :
    angleFactor e dir normal u * (e.intensity * (if e.omni then ps.sky else ps.standard) *
      (1 / (max (if e.omni then dist + c.skyDist else dist) ps.hotspot *
        max (if e.omni then dist + c.skyDist else dist) ps.hotspot)) * col) ≤
      e.intensity * ((if e.omni then ps.sky else ps.standard) * (1 / (max far ps.hotspot * max far ps.hotspot)) * col) := by
  obtain ⟨ha0, ha1⟩ := angle_range (e := e) (dir := dir) (normal := normal) (u := u) hf.normal hn hd
  have hsc : 0 ≤ (if e.omni then ps.sky else ps.standard) := by
    split_ifs
    · exact hf.scales.2
    · exact hf.scales.1
  have hdist : far ≤ (if e.omni then dist + c.skyDist else dist) := by
    have := hf.skyDist
    split_ifs <;> linarith
  have hi := inv_sq_le hf.hotspot hdist
  have hnn : 0 ≤ 1 / (max (if e.omni then dist + c.skyDist else dist) ps.hotspot *
        max (if e.omni then dist + c.skyDist else dist) ps.hotspot) :=
    one_div_nonneg.2 (mul_self_nonneg _)
  generalize 1 / (max (if e.omni then dist + c.skyDist else dist) ps.hotspot *
        max (if e.omni then dist + c.skyDist else dist) ps.hotspot) = x at hi hnn
  generalize 1 / (max far ps.hotspot * max far ps.hotspot) = y at hi
  generalize (if e.omni then ps.sky else ps.standard) = sc at hsc
  generalize angleFactor e dir normal u = a at ha0 ha1
  have h1 : e.intensity * sc * x * col ≤ e.intensity * (sc * y * col) := by
    have := mul_le_mul_of_nonneg_left hi (mul_nonneg (mul_nonneg hf.intensity hsc) hc)
    nlinarith [this]
  have h0 : 0 ≤ e.intensity * sc * x * col := mul_nonneg (mul_nonneg (mul_nonneg hf.intensity hsc) hnn) hc
  calc a * (e.intensity * sc * x * col) ≤ 1 * (e.intensity * sc * x * col) := mul_le_mul_of_nonneg_right ha1 h0
    _ ≤ _ := by rw [one_mul]; exact h1

/-- C159: however near the sample is, a point gives at most its strength over the square of the hot spot distance. -/
theorem surface_hotspot (c : SurfCfg) (e : Emitter) (ps : Pass) (s : Surf) (p : Sample) (pos : Vec ℝ)
    (hf : FairEmitter c ps e) (hn : Unit p.normal) :
    (fromPoint c e ps s p pos).x ≤
      e.intensity * ((if e.omni then ps.sky else ps.standard) * (1 / (ps.hotspot * ps.hotspot)) * e.color.x) ∧
    (fromPoint c e ps s p pos).y ≤
      e.intensity * ((if e.omni then ps.sky else ps.standard) * (1 / (ps.hotspot * ps.hotspot)) * e.color.y) ∧
    (fromPoint c e ps s p pos).z ≤
      e.intensity * ((if e.omni then ps.sky else ps.standard) * (1 / (ps.hotspot * ps.hotspot)) * e.color.z) := by
  have := light_le c e ps (smul (1 / max (1 / 100) (len (vsub p.point pos))) (vsub p.point pos)) p.normal
    (max (1 / 100) (len (vsub p.point pos))) 0 (!s.twosided) hf hn (dir_le_one _)
    (le_trans (by norm_num) (le_max_left _ _))
  rw [max_eq_right hf.hotspot.le] at this
  exact ⟨this _ hf.color.1, this _ hf.color.2.1, this _ hf.color.2.2⟩

/-- C159: with `-emissivequality high`, for which the gate is 0, no surface is skipped, and each sample that is lit gets a
ray with the colour it is lit with. -/
theorem high_quality_complete (c : SurfCfg) (e : Emitter) (ps : Pass) (s : Surf) (hm : s.mask &&& 1 ≠ 0) (k : Nat)
    (pos : Vec ℝ) (hk : e.points[k]? = some pos) (i : Nat) (p : Sample) (hi : s.samples[i]? = some p)
    (ho : p.occluded = false)
    (hl : 0 < (fromPoint c e ps s p pos).x ∨ 0 < (fromPoint c e ps s p pos).y ∨ 0 < (fromPoint c e ps s p pos).z) :
    ∃ rs, (surfaceRays c e ps 0 s)[k]? = some rs ∧ (i, fromPoint c e ps s p pos) ∈ rs := by
  unfold surfaceRays
  rw [if_neg hm, if_neg (by unfold sphereCull; simp)]
  refine ⟨pointRays c e ps 0 s pos, by simp [hk], ?_⟩
  unfold pointRays
  rw [List.mem_filterMap]
  refine ⟨(p, i), List.mem_zipIdx_iff_getElem?.2 hi, ?_⟩
  simp only [ho, Bool.false_eq_true, if_false]
  rw [if_neg]
  unfold gated
  rintro ⟨h1, h2, h3⟩
  rcases hl with hl | hl | hl <;> linarith

/-- C159: if the surface is not skipped, what a sample loses from a point is at most the gate: it gets a ray, with the
colour it is lit with, unless no component is above the gate. -/
theorem gate_lossless (c : SurfCfg) (e : Emitter) (ps : Pass) (gate : ℝ) (s : Surf) (pos : Vec ℝ) (i : Nat) (v : Vec ℝ) :
    (i, v) ∈ pointRays c e ps gate s pos ↔
      ∃ p, s.samples[i]? = some p ∧ p.occluded = false ∧ v = fromPoint c e ps s p pos ∧
        (gate < v.x ∨ gate < v.y ∨ gate < v.z) := by
  unfold pointRays
  rw [List.mem_filterMap]
  constructor
  · rintro ⟨⟨p, j⟩, hp, h⟩
    simp only at h
    by_cases ho : p.occluded = true
    · rw [if_pos ho] at h; exact absurd h (by simp)
    rw [if_neg ho] at h
    by_cases hg : gated (fromPoint c e ps s p pos) gate
    · rw [if_pos hg] at h; exact absurd h (by simp)
    rw [if_neg hg] at h
    simp only [Option.some.injEq, Prod.mk.injEq] at h
    obtain ⟨rfl, rfl⟩ := h
    refine ⟨p, List.mem_zipIdx_iff_getElem?.1 hp, by simpa using ho, rfl, ?_⟩
    by_contra hc
    push Not at hc
    exact hg hc
  · rintro ⟨p, hp, ho, rfl, h⟩
    refine ⟨(p, i), List.mem_zipIdx_iff_getElem?.2 hp, ?_⟩
    simp only [ho, Bool.false_eq_true, if_false]
    rw [if_neg]
    unfold gated
    rintro ⟨h1, h2, h3⟩
    rcases h with h | h | h <;> linarith

theorem sum_le_of (l : List (Vec ℝ)) (f : Vec ℝ → ℝ) (b : ℝ) (h : ∀ x ∈ l, f x ≤ b) : (l.map f).sum ≤ l.length * b := by
  induction l with
  | nil => simp
  | cons x l ih =>
    have h1 := h x (by simp)
    have h2 := ih fun y hy => h y (by simp [hy])
    simp only [List.map_cons, List.sum_cons, List.length_cons, Nat.cast_add, Nat.cast_one]
    linarith

/-- C159, partial: for the pass of emissive surfaces, where the whole surface is skipped for a face, the samples that are
at least as far from each of its points as the far side of the bounding sphere of the face is from its middle get at most
the gate from all its points together. Missing: the nearer samples, for which it is false. -/
theorem skipped_far_partial (c : SurfCfg) (e : Emitter) (gate : ℝ) (s : Surf) (p : Sample)
    (hf : FairEmitter c (surfacePass c) e) (hn : Unit p.normal) (hcull : sphereCull c e s gate (surfacePass c).hotspot)
    (hfar : ∀ pos ∈ e.points, len (vsub s.center e.pos) + s.radius ≤ len (vsub p.point pos)) :
    ((e.points.map fun pos => (fromPoint c e (surfacePass c) s p pos).x).sum ≤ gate) ∧
      ((e.points.map fun pos => (fromPoint c e (surfacePass c) s p pos).y).sum ≤ gate) ∧
      ((e.points.map fun pos => (fromPoint c e (surfacePass c) s p pos).z).sum ≤ gate) := by
  obtain ⟨_, hx, hy, hz⟩ := hcull
  unfold colorAtDist smul at hx hy hz
  simp only at hx hy hz
  have key : ∀ (g : Vec ℝ → ℝ) (hg : ∀ k v, g (smul k v) = k * g v) (_ : 0 ≤ g e.color)
      (_ : e.total * (if e.omni then c.skyScale else c.scale) *
        (1 / (max (len (vsub s.center e.pos) + s.radius) (surfacePass c).hotspot *
          max (len (vsub s.center e.pos) + s.radius) (surfacePass c).hotspot)) * g e.color ≤ gate),
      (e.points.map fun pos => g (fromPoint c e (surfacePass c) s p pos)).sum ≤ gate := by
    intro g hg hc hb
    have hsc : 0 ≤ (if e.omni then c.skyScale else c.scale) := by
      have := hf.scales
      unfold surfacePass at this
      split_ifs
      · exact this.2
      · exact this.1
    have hnn : 0 ≤ (if e.omni then c.skyScale else c.scale) *
        (1 / (max (len (vsub s.center e.pos) + s.radius) (surfacePass c).hotspot *
          max (len (vsub s.center e.pos) + s.radius) (surfacePass c).hotspot)) * g e.color :=
      mul_nonneg (mul_nonneg hsc (one_div_nonneg.2 (mul_self_nonneg _))) hc
    have hone : ∀ pos ∈ e.points, g (fromPoint c e (surfacePass c) s p pos) ≤ e.intensity *
        ((if e.omni then c.skyScale else c.scale) *
        (1 / (max (len (vsub s.center e.pos) + s.radius) (surfacePass c).hotspot *
          max (len (vsub s.center e.pos) + s.radius) (surfacePass c).hotspot)) * g e.color) := by
      intro pos hpos
      have := light_le c e (surfacePass c) (smul (1 / max (1 / 100) (len (vsub p.point pos))) (vsub p.point pos))
        p.normal (max (1 / 100) (len (vsub p.point pos))) (len (vsub s.center e.pos) + s.radius) (!s.twosided) hf hn
        (dir_le_one _) ((hfar pos hpos).trans (le_max_right _ _)) (g e.color) hc
      unfold fromPoint surfaceLighting colorAtDist
      simp only [hg]
      exact this
    refine (sum_le_of e.points _ _ hone).trans ?_
    rw [← mul_assoc]
    refine (mul_le_mul_of_nonneg_right hf.total hnn).trans ?_
    refine le_trans (le_of_eq ?_) hb
    ring
  exact ⟨key (·.x) (fun _ _ => rfl) hf.color.1 hx, key (·.y) (fun _ _ => rfl) hf.color.2.1 hy,
    key (·.z) (fun _ _ => rfl) hf.color.2.2 hz⟩

/-- C159: the points of a surface together are as strong as the surface, less the share of those in the void. -/
theorem strength_shared (intensity area : ℝ) (before kept : Nat) (hb : 0 < before) (hk : kept ≤ before)
    (h : 0 ≤ intensity * area) :
    kept * (strength intensity area before).2 ≤ (strength intensity area before).1 ∧
      before * (strength intensity area before).2 = (strength intensity area before).1 := by
  have hb' : (0 : ℝ) < before := by exact_mod_cast hb
  unfold strength
  simp only
  have e : (before : ℝ) * (intensity * area / before) = intensity * area := by field_simp
  refine ⟨?_, e⟩
  refine le_trans (mul_le_mul_of_nonneg_right ?_ (div_nonneg h hb'.le)) (le_of_eq e)
  exact_mod_cast hk

/-! ### What it gets wrong -/

/-- An emissive surface above the origin that faces down, with one point. -/
noncomputable def panel (strength : ℝ) : Emitter :=
  { normal := ⟨0, 0, -1⟩, pos := ⟨0, 0, 32⟩, points := [⟨0, 0, 32⟩], intensity := strength, total := strength
    color := ⟨1, 1, 1⟩, omni := false, rescale := true }

/-- A floor through the origin with a sample in its middle; the bounding sphere is large. -/
noncomputable def wideFloor : Surf :=
  { plane := ⟨⟨0, 0, 1⟩, 0⟩, center := ⟨0, 0, 0⟩, radius := 968, curved := false, twosided := false, nodirt := false
    mask := 1, samples := [⟨⟨0, 0, 0⟩, ⟨0, 0, 1⟩, false, 0⟩] }

noncomputable def defaults : SurfCfg := ⟨1, 1, 0⟩

theorem len_down : len (⟨0, 0, -32⟩ : Vec ℝ) = 32 := by
  unfold len dot
  simp only
  rw [show (0 : ℝ) * 0 + 0 * 0 + -32 * -32 = 32 * 32 by norm_num]
  exact Real.sqrt_mul_self (by norm_num)

theorem floor_light (c : SurfCfg) (w b : ℝ) (ps : Pass) (hp : max 32 ps.hotspot = b) :
    fromPoint c (panel w) ps wideFloor ⟨⟨0, 0, 0⟩, ⟨0, 0, 1⟩, false, 0⟩ ⟨0, 0, 32⟩ =
      ⟨w * ps.standard / (b * b), w * ps.standard / (b * b), w * ps.standard / (b * b)⟩ := by
  have e : vsub (⟨0, 0, 0⟩ : Vec ℝ) ⟨0, 0, 32⟩ = ⟨0, 0, -32⟩ := by unfold vsub; norm_num
  have hm : max (1 / 100 : ℝ) 32 = 32 := max_eq_right (by norm_num)
  have ha : angleFactor (panel w) (smul (1 / 32) ⟨0, 0, -32⟩) ⟨0, 0, 1⟩ true = 1 := by
    unfold angleFactor panel rescaled dot smul
    norm_num
  unfold fromPoint
  simp only [e, len_down, hm, wideFloor, Bool.not_false]
  unfold surfaceLighting
  rw [ha]
  unfold colorAtDist smul
  simp only [panel, Bool.false_eq_true, if_false]
  rw [hp]
  refine Vec.mk.injEq .. |>.mpr ⟨?_, ?_, ?_⟩ <;> ring

theorem len_wide : len (vsub wideFloor.center (⟨0, 0, 32⟩ : Vec ℝ)) = 32 := by
  have e : vsub wideFloor.center (⟨0, 0, 32⟩ : Vec ℝ) = ⟨0, 0, -32⟩ := by unfold vsub wideFloor; norm_num
  rw [e, len_down]

/-- C159: a surface is skipped if the far side of the face gets no more than the gate, whatever the near side gets. Here
the middle of the floor should get 9, over 900 times the gate, and gets no ray. -/
theorem near_sample_lost :
    surfaceRays defaults (panel 9216) (surfacePass defaults) (1 / 100) wideFloor = [] ∧
      fromPoint defaults (panel 9216) (surfacePass defaults) wideFloor ⟨⟨0, 0, 0⟩, ⟨0, 0, 1⟩, false, 0⟩ ⟨0, 0, 32⟩ =
        ⟨9, 9, 9⟩ := by
  constructor
  · unfold surfaceRays
    rw [if_neg (by simp [wideFloor]), if_pos]
    refine ⟨by norm_num, ?_⟩
    have hp : (panel 9216).pos = ⟨0, 0, 32⟩ := rfl
    rw [hp, len_wide]
    have hm : max (32 + wideFloor.radius) (surfacePass defaults).hotspot = 1000 := by
      unfold wideFloor surfacePass
      norm_num
    unfold colorAtDist gated smul
    rw [hm]
    simp only [panel, defaults, Bool.false_eq_true, if_false]
    norm_num
  · rw [floor_light _ 9216 32 _ (by unfold surfacePass; norm_num)]
    unfold surfacePass defaults
    norm_num

/-- C159: whether bounced light is skipped is decided with the scale of emissive surfaces. With `-surflightscale 0` there
is no bounced light at all, although `-bouncescale` is 1 and, without the check, it would be there. -/
theorem surface_scale_stops_bounces (e : Emitter) (s : Surf) :
    surfaceRays ⟨0, 0, 0⟩ e (bouncePass 1) (1 / 100) s = [] ∧
      fromPoint ⟨0, 0, 0⟩ (panel 1048576) (bouncePass 1) wideFloor ⟨⟨0, 0, 0⟩, ⟨0, 0, 1⟩, false, 0⟩ ⟨0, 0, 32⟩ =
        ⟨32, 32, 32⟩ := by
  constructor
  · unfold surfaceRays
    split_ifs with h1 h2
    · rfl
    · rfl
    · exfalso
      apply h2
      refine ⟨by norm_num, ?_⟩
      have e0 : (if e.omni then (0 : ℝ) else 0) = 0 := by split_ifs <;> rfl
      unfold colorAtDist gated smul
      simp only [e0, mul_zero, zero_mul]
      norm_num
  · rw [floor_light _ 1048576 128 _ (by unfold bouncePass; norm_num)]
    unfold bouncePass
    norm_num

/-- C159: a surface with a negative light, which darkens as an entity, never changes anything. -/
theorem negative_surface_ignored (c : SurfCfg) (e : Emitter) (ps : Pass) (s : Surf) (p : Sample) (pos : Vec ℝ) (gate : ℝ)
    (hg : 0 ≤ gate) (he : Unit e.normal) (hn : Unit p.normal) (hi : e.intensity ≤ 0)
    (hc : 0 ≤ e.color.x ∧ 0 ≤ e.color.y ∧ 0 ≤ e.color.z) (hs : 0 ≤ ps.standard ∧ 0 ≤ ps.sky) :
    gated (fromPoint c e ps s p pos) gate := by
  have ha := (angle_range (e := e) (dir := smul (1 / max (1 / 100) (len (vsub p.point pos))) (vsub p.point pos))
    (normal := p.normal) (u := !s.twosided) he hn (dir_le_one _)).1
  have hsc : 0 ≤ (if e.omni then ps.sky else ps.standard) := by
    split_ifs
    · exact hs.2
    · exact hs.1
  have hk : ∀ x, e.intensity * (if e.omni then ps.sky else ps.standard) * (1 / (max x ps.hotspot * max x ps.hotspot)) ≤ 0 :=
    fun x => mul_nonpos_of_nonpos_of_nonneg (mul_nonpos_of_nonpos_of_nonneg hi hsc) (one_div_nonneg.2 (mul_self_nonneg _))
  unfold gated fromPoint surfaceLighting colorAtDist smul
  simp only
  unfold smul at ha
  refine ⟨?_, ?_, ?_⟩
  · exact (mul_nonpos_of_nonneg_of_nonpos ha (mul_nonpos_of_nonpos_of_nonneg (hk _) hc.1)).trans hg
  · exact (mul_nonpos_of_nonneg_of_nonpos ha (mul_nonpos_of_nonpos_of_nonneg (hk _) hc.2.1)).trans hg
  · exact (mul_nonpos_of_nonneg_of_nonpos ha (mul_nonpos_of_nonpos_of_nonneg (hk _) hc.2.2)).trans hg

/-- The panel and the default settings meet the hypotheses. -/
example : FairEmitter defaults (surfacePass defaults) (panel 9216) ∧ Unit (⟨0, 0, 1⟩ : Vec ℝ) := by
  refine ⟨⟨?_, ?_, ?_, ?_, ?_, ?_, ?_⟩, ?_⟩ <;> simp [Unit, panel, defaults, surfacePass, dot]

end Verif.Illum
