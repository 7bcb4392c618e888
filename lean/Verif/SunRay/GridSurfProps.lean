import Verif.SunRay.GridSurf
import Verif.SunRay.Lemmas
import Verif.Illum.SurfaceProps

/-!
C235: surface lights and bounced light in the light grid.
-/

namespace Verif.SunRay

open Verif.Geom Verif.Illum Spec

theorem fromGlow_normed (pos point : Vec ℝ) : Normed (fromGlow pos point) := by
  unfold fromGlow Normed
  simp only
  split_ifs with h
  · simp [dot]
  · have e : len (vsub point pos) ^ 2 = dot (vsub point pos) (vsub point pos) := Real.sq_sqrt (dot_self_nonneg _)
    rw [dot_smul_self, ← e]
    field_simp

theorem normed_ne {v : Vec ℝ} (h : Normed v) : v ≠ ⟨0, 0, 0⟩ := by
  rintro rfl
  simp [Normed, dot] at h

theorem axial_normed {v : Vec ℝ} (h : Normed v) : axial v = max |v.x| (max |v.y| |v.z|) := by
  unfold axial
  rw [normed_len h, div_one]

/-- The factor of the six directions, for a function of the cosine. -/
theorem glow_max (e : Emitter) (dir : Vec ℝ) (f : ℝ → ℝ) (hf : ∀ n, angleFactor e dir n true = f (dot (smul (-1) dir) n))
    (hm : ∀ x y, 0 ≤ y → x ≤ y → f x ≤ f y) (h0 : 0 ≤ f 0) (hd : Normed dir) :
    (cube.map fun n => angleFactor e dir n true).foldl max 0 = f (axial dir) := by
  simp only [hf]
  rw [cube_max f hm h0, axial_normed hd]
  simp [smul]

theorem angleFactor_nonneg (e : Emitter) (dir n : Vec ℝ) (u : Bool) : 0 ≤ angleFactor e dir n u := by
  unfold angleFactor
  simp only
  split_ifs <;> first | exact le_rfl | exact le_max_left _ _

theorem glow_scaled (c : SurfCfg) (ps : Pass) (e : Emitter) (pos point : Vec ℝ) :
    pointGlow c ps e pos point = smul ((cube.map fun n => angleFactor e (fromGlow pos point) n true).foldl max 0)
      (colorAtDist (if e.omni then ps.sky else ps.standard) e.intensity e.color
        (if e.omni then len (vsub point pos) + c.skyDist else len (vsub point pos)) ps.hotspot) := by
  unfold pointGlow surfaceLighting
  have := longest_scaled (colorAtDist (if e.omni then ps.sky else ps.standard) e.intensity e.color
    (if e.omni then len (vsub point pos) + c.skyDist else len (vsub point pos)) ps.hotspot)
    (cube.map fun n => angleFactor e (fromGlow pos point) n true)
    (by intro k hk; obtain ⟨n, _, rfl⟩ := List.mem_map.1 hk; exact angleFactor_nonneg _ _ _ _)
  rw [List.map_map] at this
  exact this

theorem facing_dot {dir : Vec ℝ} (h : Normed dir) : dot (smul (-1) dir) (smul (-1) dir) = 1 := by
  rw [dot_smul_self]
  unfold Normed at h
  rw [h]; norm_num

/-- C235: a sky surface lights a point of the grid as it lights a face there that is turned to it, times a factor from
0.577 to 1 that depends only on the direction. -/
theorem sky_value (c : SurfCfg) (ps : Pass) (e : Emitter) (pos point : Vec ℝ) (ho : e.omni = true) :
    pointGlow c ps e pos point = smul (axial (fromGlow pos point))
      (surfaceLighting c e ps (fromGlow pos point) (len (vsub point pos)) (smul (-1) (fromGlow pos point)) true) ∧
      1 / Real.sqrt 3 ≤ axial (fromGlow pos point) ∧ axial (fromGlow pos point) ≤ 1 := by
  have hd := fromGlow_normed pos point
  refine ⟨?_, axial_range (normed_ne hd)⟩
  have hpos : 0 ≤ axial (fromGlow pos point) := le_trans (by positivity) (axial_range (normed_ne hd)).1
  rw [glow_scaled, glow_max e (fromGlow pos point) (fun x => max 0 (x * (1 / 2)))
    (by intro n; simp [angleFactor, ho])
    (by intro x y _ h; exact max_le_max le_rfl (by linarith)) (by simp) hd]
  unfold surfaceLighting
  rw [smul_smul]
  congr 1
  unfold angleFactor
  simp only [ho, if_true, facing_dot hd]
  rw [max_eq_right (by linarith), max_eq_right (by norm_num)]
  ring

/-- C235: any other surface lights the points in front of it as it lights a face there that is turned to it, times a
factor from 0.577 to 1 that depends only on the direction. -/
theorem front_value (c : SurfCfg) (ps : Pass) (e : Emitter) (pos point : Vec ℝ) (ho : e.omni = false)
    (hf : 0 ≤ dot e.normal (fromGlow pos point)) :
    pointGlow c ps e pos point = smul (rescaled e.rescale (axial (fromGlow pos point)))
      (surfaceLighting c e ps (fromGlow pos point) (len (vsub point pos)) (smul (-1) (fromGlow pos point)) true) ∧
      1 / Real.sqrt 3 ≤ rescaled e.rescale (axial (fromGlow pos point)) ∧
      rescaled e.rescale (axial (fromGlow pos point)) ≤ 1 := by
  have hd := fromGlow_normed pos point
  have ha := axial_range (normed_ne hd)
  have hpos : 0 ≤ axial (fromGlow pos point) := le_trans (by positivity) ha.1
  set a := axial (fromGlow pos point) with hA
  set d := dot e.normal (fromGlow pos point) with hD
  have hr : ∀ x, 0 ≤ x → 0 ≤ rescaled e.rescale x := by
    intro x hx; unfold rescaled; split_ifs <;> linarith
  have hmono : ∀ x y, x ≤ y → rescaled e.rescale x ≤ rescaled e.rescale y := by
    intro x y h; unfold rescaled; split_ifs <;> linarith
  refine ⟨?_, ?_, ?_⟩
  · have hnn : ¬ d < -(1 / 100) := by linarith
    rw [glow_scaled, glow_max e (fromGlow pos point)
      (fun x => if x < -(1 / 100) then 0 else max 0 (rescaled e.rescale d * rescaled e.rescale x))
      (by
        intro n
        unfold angleFactor
        simp only [ho, Bool.false_eq_true, if_false, if_true]
        rw [← hD, if_neg hnn])
      (by
        intro x y hy h
        beta_reduce
        rw [if_neg (by linarith : ¬ y < -(1 / 100))]
        split_ifs
        · exact le_max_left _ _
        · exact max_le_max le_rfl (mul_le_mul_of_nonneg_left (hmono _ _ h) (hr _ hf)))
      (by rw [if_neg (by norm_num)]; exact le_max_left _ _) hd]
    unfold surfaceLighting
    rw [smul_smul]
    congr 1
    unfold angleFactor
    simp only [ho, Bool.false_eq_true, if_false, if_true, facing_dot hd]
    rw [← hD, ← hA, if_neg (by linarith : ¬ a < -(1 / 100)), if_neg hnn, if_neg (by norm_num)]
    have h1 : rescaled e.rescale 1 = 1 := by unfold rescaled; split_ifs <;> norm_num
    rw [h1, mul_one, max_eq_right (hr _ hf), max_eq_right (mul_nonneg (hr _ hf) (hr _ hpos)), mul_comm]
  · unfold rescaled
    split_ifs
    · linarith [ha.1, ha.2]
    · exact ha.1
  · unfold rescaled
    split_ifs
    · linarith [ha.2]
    · exact ha.2

/-- C235: a surface that is not sky does not light what is behind it. -/
theorem behind_dark (c : SurfCfg) (ps : Pass) (e : Emitter) (pos point : Vec ℝ) (ho : e.omni = false)
    (hb : dot e.normal (fromGlow pos point) < -(1 / 100)) : pointGlow c ps e pos point = ⟨0, 0, 0⟩ := by
  rw [glow_scaled]
  have : (cube.map fun n => angleFactor e (fromGlow pos point) n true) = cube.map fun _ => (0 : ℝ) := by
    apply List.map_congr_left
    intro n _
    unfold angleFactor
    simp only [ho, Bool.false_eq_true, if_false]
    rw [if_pos hb]
  rw [this]
  simp [cube, smul]

/-- C235: what is added at a point of the grid: for every surface that is not skipped, every point of it and every style of
the pass, the colour if it is over the gate and the ray is not blocked. -/
theorem surfaces_mem (c : SurfCfg) (ps : Pass) (gate : ℝ) (bounce : Bool)
    (clear : Vec ℝ → Vec ℝ → Option (Vec ℝ → Vec ℝ)) (surfs : List GlowSurf) (point : Vec ℝ) (style : Int) (v : Vec ℝ) :
    (style, v) ∈ pointSurfaces c ps gate bounce clear surfs point ↔
      ∃ s ∈ surfs, s.culled = false ∧ ∃ pos ∈ s.points, ∃ g ∈ s.glows, g.bounced = bounce ∧ g.style = style ∧
        (gate < (pointGlow c ps g.emitter pos point).x ∨ gate < (pointGlow c ps g.emitter pos point).y ∨
          gate < (pointGlow c ps g.emitter pos point).z) ∧
        ∃ tint, clear pos point = some tint ∧ v = tint (pointGlow c ps g.emitter pos point) := by
  have hg : ∀ u : Vec ℝ, ¬ gated u gate ↔ gate < u.x ∨ gate < u.y ∨ gate < u.z := by
    intro u
    unfold gated
    constructor
    · intro h
      by_contra hc
      push Not at hc
      exact h hc
    · rintro h ⟨h1, h2, h3⟩
      rcases h with h | h | h <;> linarith
  unfold pointSurfaces
  simp only [List.mem_flatMap]
  constructor
  · rintro ⟨s, hs, h⟩
    split_ifs at h with hc
    · simp at h
    · simp only [List.mem_flatMap, List.mem_filterMap] at h
      obtain ⟨pos, hp, g, hgm, e⟩ := h
      unfold glowRay at e
      split_ifs at e with h1 h2
      rw [Option.map_eq_some_iff] at e
      obtain ⟨tint, ht, e⟩ := e
      simp only [Prod.mk.injEq] at e
      exact ⟨s, hs, by simpa using hc, pos, hp, g, hgm, by simpa using h1, e.1, (hg _).1 h2, tint, ht, e.2.symm⟩
  · rintro ⟨s, hs, hc, pos, hp, g, hgm, h1, h2, h3, tint, ht, e⟩
    refine ⟨s, hs, ?_⟩
    rw [if_neg (by simp [hc])]
    simp only [List.mem_flatMap, List.mem_filterMap]
    refine ⟨pos, hp, g, hgm, ?_⟩
    unfold glowRay
    rw [if_neg (by simp [h1]), if_neg ((hg _).2 h3), ht]
    simp [h2, e]

/-- C235: each point of a surface is cast once for each of its styles of the pass; with no ray blocked and no gate reached
all of them are there. -/
theorem surfaces_all (c : SurfCfg) (ps : Pass) (gate : ℝ) (bounce : Bool) (surfs : List GlowSurf) (point : Vec ℝ)
    (hl : ∀ s ∈ surfs, ∀ pos ∈ s.points, ∀ g ∈ s.glows, gate < (pointGlow c ps g.emitter pos point).x) :
    (pointSurfaces c ps gate bounce (fun _ _ => some id) surfs point).length
      = ((surfs.filter fun s => !s.culled).map fun s =>
          s.points.length * (s.glows.filter fun g => g.bounced == bounce).length).sum := by
  unfold pointSurfaces
  induction surfs with
  | nil => simp
  | cons s t ih =>
    rw [List.flatMap_cons, List.length_append, ih (fun s' h' => hl s' (List.mem_cons_of_mem _ h'))]
    cases hc : s.culled with
    | true => simp [hc]
    | false =>
      simp only [hc, Bool.false_eq_true, if_false]
      have hone : ∀ pos ∈ s.points, (s.glows.filterMap (glowRay c ps gate bounce (fun _ _ => some id) point pos)).length
            = (s.glows.filter fun g => g.bounced == bounce).length := by
        intro pos hp
        have hl' := hl s List.mem_cons_self pos hp
        generalize s.glows = gs at hl'
        induction gs with
        | nil => rfl
        | cons g gs ihg =>
          have ih' := ihg (fun g' h' => hl' g' (List.mem_cons_of_mem _ h'))
          have hx := hl' g List.mem_cons_self
          by_cases hb : g.bounced = bounce
          · have hng : ¬ gated (pointGlow c ps g.emitter pos point) gate := by
              rintro ⟨h1, _⟩; linarith
            have e : glowRay c ps gate bounce (fun _ _ => some id) point pos g
                = some (g.style, pointGlow c ps g.emitter pos point) := by
              unfold glowRay
              rw [if_neg (by simp [hb]), if_neg hng]
              rfl
            rw [List.filterMap_cons_some e, List.filter_cons_of_pos (by simpa using hb), List.length_cons, List.length_cons, ih']
          · have e : glowRay c ps gate bounce (fun _ _ => some id) point pos g = none := by
              unfold glowRay
              rw [if_pos hb]
            rw [List.filterMap_cons_none e, List.filter_cons_of_neg (by simpa using hb), ih']
      rw [List.length_flatMap, List.map_congr_left hone]
      simp [hc]

/-- A lamp in the ceiling, 64 units above a point. -/
example : ∃ c ps e pos point, e.omni = false ∧ 0 ≤ dot e.normal (fromGlow pos point) ∧
    (pointGlow c ps e pos point).x = 100 / 4096 := by
  refine ⟨⟨1, 1, 0⟩, ⟨1, 1, 16⟩, ⟨⟨0, 0, -1⟩, ⟨0, 0, 64⟩, [], 1, 1, ⟨100, 100, 100⟩, false, false⟩, ⟨0, 0, 64⟩, ⟨0, 0, 0⟩, rfl, ?_⟩
  have hl : len (vsub ⟨0, 0, 0⟩ ⟨0, 0, 64⟩) = 64 := by
    unfold len vsub dot
    rw [show ((0 : ℝ) - 0) * (0 - 0) + (0 - 0) * (0 - 0) + (0 - 64) * (0 - 64) = 64 ^ 2 by norm_num]
    exact Real.sqrt_sq (by norm_num)
  have hf : fromGlow ⟨0, 0, 64⟩ ⟨0, 0, 0⟩ = ⟨0, 0, -1⟩ := by
    unfold fromGlow
    simp only [hl]
    norm_num [smul, vsub]
  have h0 : 0 ≤ dot (⟨0, 0, -1⟩ : Vec ℝ) (fromGlow ⟨0, 0, 64⟩ ⟨0, 0, 0⟩) := by rw [hf]; norm_num [dot]
  refine ⟨h0, ?_⟩
  rw [(front_value _ _ _ _ _ rfl h0).1, hf, hl]
  have ha : axial (⟨0, 0, -1⟩ : Vec ℝ) = 1 := by
    rw [axial_normed (by norm_num [Normed, dot])]
    norm_num
  rw [ha]
  norm_num [rescaled, surfaceLighting, angleFactor, colorAtDist, smul, dot]

end Verif.SunRay
