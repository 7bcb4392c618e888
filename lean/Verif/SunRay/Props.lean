import Verif.SunRay.Lemmas

/-!
C216: sunlight on faces, and suns and lights at points of the light grid.
-/

namespace Verif.SunRay

open Verif.Geom Verif.Illum Spec
open Verif.Cmdlib (Str)

/-- **C216**: what a sun adds to a face: exactly to the samples that are not inside a solid and from which the first thing met in the
direction of the sun is sky, of the texture of the sun if it has one, on a face in channel 1 that is not flat and turned away from the
sun, if it is more than the gate; in the style of the sun, or else of the switchable shadows met; as its colour, changed by glass. -/
theorem faceSky_mem (cfg : Cfg) (find : Str → Bool) (sun : Suns.Sun) (surf : Surf) (see : Vec ℝ → Seen) (i : Nat) (style : Int) (c : Vec ℝ) :
    (i, style, c) ∈ faceSky cfg find sun surf see ↔
      (surf.curved = true ∨ surf.twosided = true ∨ -(1 / 100) ≤ dot (norm sun.vec) surf.plane.normal) ∧ surf.mask &&& 1 ≠ 0 ∧
      ∃ p, surf.samples[i]? = some p ∧ p.occluded = false ∧ cfg.gate < |brightness (sunColor cfg sun surf p)| ∧
      ∃ texture dyn tint, see p.point = .sky texture dyn tint ∧ (∀ t, sunTexture find sun = some t → t = texture) ∧
      style = (if sun.style = 0 then dyn else sun.style) ∧ c = tint (sunColor cfg sun surf p) := by
  unfold faceSky
  by_cases h1 : dot (norm sun.vec) surf.plane.normal < -(1 / 100) ∧ surf.curved = false ∧ surf.twosided = false
  · rw [if_pos h1]
    obtain ⟨a, b, d⟩ := h1
    simp only [List.not_mem_nil, b, d, false_iff]
    rintro ⟨h, _⟩
    rcases h with h | h | h
    · cases h
    · cases h
    · linarith
  · rw [if_neg h1]
    have h1' : surf.curved = true ∨ surf.twosided = true ∨ -(1 / 100) ≤ dot (norm sun.vec) surf.plane.normal := by
      by_contra hno
      push Not at hno
      exact h1 ⟨hno.2.2, by simpa using hno.1, by simpa using hno.2.1⟩
    by_cases h2 : surf.mask &&& 1 = 0
    · rw [if_pos h2]
      simp [h2]
    · rw [if_neg h2, List.mem_filterMap]
      constructor
      · rintro ⟨⟨p, j⟩, hm, he⟩
        rw [List.mem_zipIdx_iff_getElem?] at hm
        simp only at hm he
        rcases hs : sample cfg find sun surf see p with _ | ⟨st, cc⟩
        · rw [hs] at he; cases he
        · rw [hs] at he
          cases he
          refine ⟨h1', h2, p, hm, ?_⟩
          unfold sample at hs
          by_cases ho : p.occluded = true
          · rw [if_pos ho] at hs; cases hs
          rw [if_neg ho] at hs
          by_cases hg : |brightness (sunColor cfg sun surf p)| ≤ cfg.gate
          · rw [if_pos hg] at hs; cases hs
          rw [if_neg hg] at hs
          refine ⟨by simpa using ho, not_le.mp hg, ?_⟩
          rcases hsee : see p.point with _ | _ | ⟨tx, dyn, tint⟩ <;> rw [hsee] at hs
          · cases hs
          · cases hs
          · simp only at hs
            by_cases ht : (sunTexture find sun).any (· ≠ tx) = true
            · rw [if_pos ht] at hs; cases hs
            · rw [if_neg ht] at hs
              simp only [Option.some.injEq, Prod.mk.injEq] at hs
              refine ⟨tx, dyn, tint, rfl, ?_, hs.1.symm, hs.2.symm⟩
              intro t htx
              rw [htx] at ht
              simpa using ht
      · rintro ⟨_, _, p, hp, ho, hg, tx, dyn, tint, hsee, ht, rfl, rfl⟩
        refine ⟨(p, i), List.mem_zipIdx_iff_getElem?.mpr hp, ?_⟩
        unfold sample
        simp only
        rw [if_neg (by simp [ho]), if_neg (not_le.mpr hg), hsee]
        simp only
        rw [if_neg]
        · rfl
        · rcases hx : sunTexture find sun with _ | t
          · simp
          · simp [ht t hx]

/-- **C216**: without dirt, the colour on a face of one side: the share of the angle of incidence. -/
theorem sunColor_value (cfg : Cfg) (sun : Suns.Sun) (surf : Surf) (p : Sample) (hv : sun.vec ≠ ⟨0, 0, 0⟩) (hd : sun.dirt = false)
    (ht : surf.twosided = false) :
    sunColor cfg sun surf p = smul ((1 - sun.anglescale) + sun.anglescale * max 0 (cosine sun.vec p.normal)) (smul (sun.light / 255) sun.color) := by
  unfold sunColor share
  simp only [hd, ht, smul_smul, dot_norm hv]
  simp only [Bool.false_eq_true, false_and, if_false]
  congr 1
  ring

/-- **C216**: on a face of two sides, light from behind counts as from the front. -/
theorem sunColor_twosided (cfg : Cfg) (sun : Suns.Sun) (surf : Surf) (p : Sample) (hv : sun.vec ≠ ⟨0, 0, 0⟩) (hd : sun.dirt = false)
    (ht : surf.twosided = true) :
    sunColor cfg sun surf p = smul ((1 - sun.anglescale) + sun.anglescale * |cosine sun.vec p.normal|) (smul (sun.light / 255) sun.color) := by
  unfold sunColor share
  simp only [hd, ht, smul_smul, dot_norm hv, true_and]
  simp only [Bool.false_eq_true, if_false]
  by_cases h : cosine sun.vec p.normal < 0
  · rw [if_pos h, abs_of_neg h, max_eq_right (by linarith)]
    congr 1
    ring
  · rw [if_neg h, abs_of_nonneg (not_lt.1 h), max_eq_right (not_lt.1 h)]
    congr 1
    ring

/-- **C216**: skipping a flat face that is turned away loses no light, if the angle scale is 1. -/
theorem skip_harmless (cfg : Cfg) (sun : Suns.Sun) (surf : Surf) (p : Sample) (hs : sun.anglescale = 1) (hg : 0 ≤ cfg.gate)
    (hn : p.normal = surf.plane.normal) (ht : surf.twosided = false) (h : dot (norm sun.vec) surf.plane.normal < -(1 / 100)) :
    |brightness (sunColor cfg sun surf p)| ≤ cfg.gate := by
  have : sunColor cfg sun surf p = ⟨0, 0, 0⟩ := by
    unfold sunColor share
    simp only [ht, hn, hs, Bool.false_eq_true, false_and, if_false]
    rw [max_eq_left (by linarith : dot (norm sun.vec) surf.plane.normal ≤ 0)]
    simp [smul]
  rw [this]
  simpa [brightness] using hg

/-- **C216**: the colour of a sun at a point of the light grid is that on a face turned to it, times a factor from `1 / sqrt 3` to 1 that
depends on how far its direction is from an axis, scaled by the angle scale. -/
theorem pointSun_value (sun : Suns.Sun) (hv : sun.vec ≠ ⟨0, 0, 0⟩) (h0 : 0 ≤ sun.anglescale) (h1 : sun.anglescale ≤ 1) :
    pointSun sun = smul ((1 - sun.anglescale) + sun.anglescale * axial sun.vec) (smul (sun.light / 255) sun.color) ∧
      1 / Real.sqrt 3 ≤ axial sun.vec ∧ axial sun.vec ≤ 1 := by
  refine ⟨?_, axial_range hv⟩
  unfold pointSun
  have e : (cube.map fun n => smul (share sun.anglescale (dot (norm sun.vec) n) * sun.light / 255) sun.color) =
      (cube.map fun n => share sun.anglescale (dot (norm sun.vec) n)).map fun k => smul k (smul (sun.light / 255) sun.color) := by
    rw [List.map_map]
    congr 1
    funext n
    simp only [Function.comp, smul_smul]
    congr 1
    ring
  have hpos : ∀ x, 0 ≤ share sun.anglescale x := by
    intro x
    unfold share
    have := le_max_left 0 x
    nlinarith [mul_nonneg h0 this]
  rw [e, longest_scaled _ _ (by
    intro k hk
    obtain ⟨n, _, rfl⟩ := List.mem_map.mp hk
    exact hpos _), cube_max (share sun.anglescale) (by
      intro x y _ hxy
      unfold share
      have := max_le_max (le_refl (0 : ℝ)) hxy
      nlinarith [mul_le_mul_of_nonneg_left this h0]) (hpos 0), axial_norm hv]
  unfold share
  rw [max_eq_right]
  exact le_trans (by positivity) (axial_range hv).1

/-- **C216**: so no face gets more of a sun than `sqrt 3` times the light grid there. -/
theorem grid_at_least (cfg : Cfg) (sun : Suns.Sun) (surf : Surf) (p : Sample) (hv : sun.vec ≠ ⟨0, 0, 0⟩) (h0 : 0 ≤ sun.anglescale)
    (h1 : sun.anglescale ≤ 1) (hd : sun.dirt = false) (ht : surf.twosided = false) (hn : Normed p.normal) (hl : 0 ≤ sun.light)
    (hc : 0 ≤ sun.color.x ∧ 0 ≤ sun.color.y ∧ 0 ≤ sun.color.z) :
    (sunColor cfg sun surf p).x ≤ Real.sqrt 3 * (pointSun sun).x ∧ (sunColor cfg sun surf p).y ≤ Real.sqrt 3 * (pointSun sun).y ∧
      (sunColor cfg sun surf p).z ≤ Real.sqrt 3 * (pointSun sun).z := by
  obtain ⟨e, a0, a1⟩ := pointSun_value sun hv h0 h1
  rw [e, sunColor_value cfg sun surf p hv hd ht]
  have hcos := cosine_le hv hn
  have hm : max 0 (cosine sun.vec p.normal) ≤ 1 := max_le (by norm_num) hcos
  have hm0 : 0 ≤ max 0 (cosine sun.vec p.normal) := le_max_left _ _
  have h3 : 1 ≤ Real.sqrt 3 := by rw [Real.one_le_sqrt]; norm_num
  have hf : 1 ≤ Real.sqrt 3 * ((1 - sun.anglescale) + sun.anglescale * axial sun.vec) := by
    have hax : 1 ≤ Real.sqrt 3 * axial sun.vec := by
      rw [div_le_iff₀ (by positivity)] at a0
      linarith
    nlinarith
  have hk : (1 - sun.anglescale) + sun.anglescale * max 0 (cosine sun.vec p.normal) ≤ 1 := by nlinarith
  have main : ∀ c : ℝ, 0 ≤ c → ((1 - sun.anglescale) + sun.anglescale * max 0 (cosine sun.vec p.normal)) * (sun.light / 255 * c) ≤
      Real.sqrt 3 * (((1 - sun.anglescale) + sun.anglescale * axial sun.vec) * (sun.light / 255 * c)) := by
    intro c hc
    have hb : 0 ≤ sun.light / 255 * c := by positivity
    have t1 := mul_le_mul_of_nonneg_right hk hb
    have t2 := mul_le_mul_of_nonneg_right hf hb
    linarith
  exact ⟨main _ hc.1, main _ hc.2.1, main _ hc.2.2⟩

theorem contribs_map (scaledist : ℝ) (l : Light) (point : Vec ℝ) (f : Vec ℝ → Vec ℝ) (ns : List (Vec ℝ))
    (h : ∀ n ∈ ns, contrib scaledist l ⟨point, n, false, 0⟩ false = some (f n)) : contribs scaledist l point ns = some (ns.map f) := by
  induction ns with
  | nil => rfl
  | cons n t ih =>
    unfold contribs
    rw [h n List.mem_cons_self, ih fun m hm => h m (List.mem_cons_of_mem _ hm)]
    rfl

theorem contribs_none (scaledist : ℝ) (l : Light) (point : Vec ℝ) (ns : List (Vec ℝ))
    (h : ∃ n ∈ ns, contrib scaledist l ⟨point, n, false, 0⟩ false = none) : contribs scaledist l point ns = none := by
  induction ns with
  | nil => obtain ⟨n, hn, _⟩ := h; cases hn
  | cons n t ih =>
    unfold contribs
    obtain ⟨m, hm, he⟩ := h
    rcases List.mem_cons.mp hm with rfl | hm
    · rw [he]; rfl
    · rw [ih ⟨m, hm, he⟩]
      cases contrib scaledist l ⟨point, n, false, 0⟩ false <;> rfl

/-- **C216**: the colour of a light at a point of the light grid is that on a face turned to it, times such a factor. -/
theorem pointLight_value (scaledist : ℝ) (l : Light) (point : Vec ℝ) (h0 : 0 ≤ l.anglescale) (h1 : l.anglescale ≤ 1) :
    pointLight scaledist l point = (contrib scaledist l ⟨point, (toLight l point).2, false, 0⟩ false).map
      (smul ((1 - l.anglescale) + l.anglescale * axial (toLight l point).2)) ∧
      1 / Real.sqrt 3 ≤ axial (toLight l point).2 ∧ axial (toLight l point).2 ≤ 1 := by
  obtain ⟨hn, hne⟩ := toLight_normed l point
  refine ⟨?_, axial_range hne⟩
  have hax0 : 0 ≤ axial (toLight l point).2 := le_trans (by positivity) (axial_range hne).1
  have hmax : max |(toLight l point).2.x| (max |(toLight l point).2.y| |(toLight l point).2.z|) = axial (toLight l point).2 := by
    unfold axial
    rw [normed_len hn, div_one]
  have hface : incidence l (toLight l point).2 (toLight l point).2 false = 1 := by
    unfold incidence
    rw [hn]
    norm_num
  -- the share of each direction
  let k : Vec ℝ → ℝ := fun n => if incidence l n (toLight l point).2 false < 0 then 0 else (1 - l.anglescale) + l.anglescale * incidence l n (toLight l point).2 false
  unfold pointLight contrib
  simp only
  unfold valueWithAngle
  simp only [hface]
  rw [if_neg (by norm_num)]
  rcases hsp : spotScale l.spot (toLight l point).2 with _ | sc
  · rw [contribs_map scaledist l point (fun _ => ⟨0, 0, 0⟩) cube (fun n _ => by
      unfold contrib valueWithAngle
      simp only [hsp]
      split_ifs <;> simp [smul])]
    have : longest (cube.map fun _ => (⟨0, 0, 0⟩ : Vec ℝ)) = ⟨0, 0, 0⟩ := by
      unfold longest cube
      simp
    simp only [Option.map_some, this]
    simp [smul]
  · rcases hlv : lightValue scaledist l (toLight l point).1 with _ | v
    · have hex : ∃ n ∈ cube, 0 ≤ dot (toLight l point).2 n := by
        rcases le_total 0 (toLight l point).2.x with h | h
        · exact ⟨⟨1, 0, 0⟩, by simp [cube], by simpa [dot] using h⟩
        · exact ⟨⟨-1, 0, 0⟩, by simp [cube], by simpa [dot] using h⟩
      obtain ⟨n, hmem, hdot⟩ := hex
      rw [contribs_none scaledist l point cube ⟨n, hmem, by
        unfold contrib valueWithAngle
        have hi : incidence l n (toLight l point).2 false = dot (toLight l point).2 n := by
          unfold incidence
          simp only
          rw [if_neg (fun h => absurd h.2 (not_lt.mpr hdot))]
        simp only [hi, hsp, hlv]
        rw [if_neg (not_lt.mpr hdot)]
        rfl⟩]
      rfl
    · rw [contribs_map scaledist l point (fun n => smul (k n) (smul (v * sc * (1 / 255)) (colorAt l point))) cube (fun n _ => by
        unfold contrib valueWithAngle
        simp only [hsp, hlv, smul_smul]
        by_cases hneg : incidence l n (toLight l point).2 false < 0
        · rw [if_pos hneg]
          simp only [k]
          rw [if_pos hneg]
          simp
        · rw [if_neg hneg]
          simp only [k]
          rw [if_neg hneg]
          simp only [Option.map_some]
          congr 2
          ring)]
      have e : (cube.map fun n => smul (k n) (smul (v * sc * (1 / 255)) (colorAt l point))) =
          (cube.map k).map fun q => smul q (smul (v * sc * (1 / 255)) (colorAt l point)) := by
        rw [List.map_map]
        rfl
      have hk0 : ∀ n, 0 ≤ k n := by
        intro n
        simp only [k]
        split_ifs with h
        · exact le_refl _
        · push Not at h
          nlinarith [mul_nonneg h0 h]
      rw [e, Option.map_some, longest_scaled _ _ (by
        intro q hq
        obtain ⟨n, _, rfl⟩ := List.mem_map.mp hq
        exact hk0 n)]
      -- the largest share
      have hfold : (cube.map k).foldl max 0 = (1 - l.anglescale) + l.anglescale * axial (toLight l point).2 := by
        by_cases hb : l.bleed = true
        · have ek : k = fun n => (fun x => (1 - l.anglescale) + l.anglescale * |x|) (dot (toLight l point).2 n) := by
            funext n
            have hi : incidence l n (toLight l point).2 false = |dot (toLight l point).2 n| := by
              unfold incidence
              simp only [hb, Bool.true_or, true_and]
              split_ifs with h
              · rw [abs_of_neg h]
              · rw [abs_of_nonneg (not_lt.mp h)]
            simp only [k, hi]
            rw [if_neg (not_lt.mpr (abs_nonneg _))]
          have hd := cube_max (fun x => (1 - l.anglescale) + l.anglescale * max 0 x) (by
            intro x y _ hxy
            have := max_le_max (le_refl (0 : ℝ)) hxy
            nlinarith [mul_le_mul_of_nonneg_left this h0]) (by simp; linarith) (toLight l point).2
          rw [hmax, max_eq_right hax0] at hd
          rw [← hd, ek]
          -- the same directions, both signs
          have e1 : ∀ f : ℝ → ℝ, (cube.map fun n => f (dot (toLight l point).2 n)) =
              [f (-(toLight l point).2.x), f (toLight l point).2.x, f (-(toLight l point).2.y), f (toLight l point).2.y, f (-(toLight l point).2.z), f (toLight l point).2.z] := by
            intro f
            unfold cube dot
            simp
          rw [e1 (fun x => (1 - l.anglescale) + l.anglescale * |x|), e1 (fun x => (1 - l.anglescale) + l.anglescale * max 0 x)]
          simp only [List.foldl_cons, List.foldl_nil, abs_neg]
          have p : ∀ x a : ℝ, max (max a ((1 - l.anglescale) + l.anglescale * |x|)) ((1 - l.anglescale) + l.anglescale * |x|) =
              max (max a ((1 - l.anglescale) + l.anglescale * max 0 (-x))) ((1 - l.anglescale) + l.anglescale * max 0 x) := by
            intro x a
            rw [max_assoc, max_self, max_assoc]
            congr 1
            rcases le_total 0 x with h | h
            · rw [abs_of_nonneg h, max_eq_left (by linarith : -x ≤ 0), max_eq_right h, max_eq_right (by nlinarith [mul_nonneg h0 h])]
            · rw [abs_of_nonpos h, max_eq_right (by linarith : 0 ≤ -x), max_eq_left h, max_eq_left (by nlinarith [mul_nonneg h0 (by linarith : 0 ≤ -x)])]
          rw [p, p, p]
        · have hb' : l.bleed = false := by simpa using hb
          have ek : k = fun n => (fun x => if x < 0 then 0 else (1 - l.anglescale) + l.anglescale * x) (dot (toLight l point).2 n) := by
            funext n
            have hi : incidence l n (toLight l point).2 false = dot (toLight l point).2 n := by
              unfold incidence
              simp [hb']
            simp only [k, hi]
          rw [ek, cube_max (fun x => if x < 0 then 0 else (1 - l.anglescale) + l.anglescale * x) (by
            intro x y hy hxy
            rw [if_neg (not_lt.mpr hy)]
            split_ifs with hx
            · nlinarith [mul_nonneg h0 hy]
            · nlinarith [mul_le_mul_of_nonneg_left hxy h0]) (by simp; linarith), hmax]
          rw [if_neg (not_lt.mpr hax0)]
      rw [hfold]
      simp only [Option.map_some, smul_smul]
      congr 2
      ring

/-! ### Against the property -/

/-- A sun straight above. -/
noncomputable def noon : Suns.Sun := ⟨⟨0, 0, 16384⟩, 200, ⟨255, 255, 255⟩, 0, false, 0, [115]⟩

theorem noon_bright : brightness (pointSun noon) = 200 := by
  have := (pointSun_value noon (by simp [noon]) (by simp [noon]) (by simp [noon])).1
  rw [this]
  simp [noon, smul, brightness]
  norm_num

/-- **C216**, against the property: in the light grid a sun shines through sky of any texture, and a switchable shadow does not switch it;
on no face does the former, and there the latter is in its style. -/
theorem grid_ignores : ∃ (sun : Suns.Sun) (find : Str → Bool) (see : Vec ℝ → Seen) (cfg : Cfg) (texture : Str),
    (sunTexture find sun).isSome = true ∧ (∀ p, see p = .sky texture 32 id) ∧ sunTexture find sun ≠ some texture ∧
    (∀ surf, faceSky cfg find sun surf see = []) ∧ (∀ p, (pointSky cfg.gate sun see p).isSome = true) ∧
    (∀ p, (pointSky cfg.gate sun see p).map (·.1) = some 0) ∧
    ∀ surf i style c, (i, style, c) ∈ faceSky cfg (fun _ => false) sun surf see → style = 32 := by
  have hp : ∀ p, pointSky 0 noon (fun _ => .sky [116] 32 id) p = some (0, pointSun noon) := by
    intro p
    unfold pointSky
    rw [noon_bright, if_neg (by norm_num)]
    rfl
  refine ⟨noon, fun _ => true, fun _ => .sky [116] 32 id, ⟨1, 0, false, false, 1, 1⟩, [116], rfl, fun _ => rfl, by simp [sunTexture, noon], ?_, ?_, ?_, ?_⟩
  · intro surf
    rw [List.eq_nil_iff_forall_not_mem]
    rintro ⟨i, style, c⟩ hm
    rw [faceSky_mem] at hm
    obtain ⟨_, _, p, _, _, _, tx, _, _, hsee, ht, _⟩ := hm
    cases hsee
    have := ht [115] rfl
    cases this
  · intro p; rw [hp]; rfl
  · intro p; rw [hp]; rfl
  · intro surf i style c hm
    rw [faceSky_mem] at hm
    obtain ⟨_, _, p, _, _, _, tx, _, _, hsee, _, hst, _⟩ := hm
    cases hsee
    exact hst

/-- **C216**, against the property: a sun with a texture that is not found shines through sky of any texture. -/
theorem unknown_texture (find : Str → Bool) (sun : Suns.Sun) (h : find sun.texture = false) : sunTexture find sun = none := by
  unfold sunTexture
  rw [if_neg (by simp [h])]

/-- **C216**, against the property: a light lights the light grid whatever its channels. -/
theorem grid_channels (cfg : Cfg) (l : Light) (style : Int) (clear : Vec ℝ → Option (Vec ℝ → Vec ℝ)) (point : Vec ℝ) (mask : Nat) :
    pointEntity cfg { l with mask := mask } style clear point = pointEntity cfg l style clear point := by
  unfold pointEntity pointLight
  congr 2

/-- A flat face up, with one sample. -/
def floor : Surf := ⟨⟨⟨0, 0, 1⟩, 0⟩, ⟨0, 0, 0⟩, 16, false, false, false, 1, [⟨⟨0, 0, 1⟩, ⟨0, 0, 1⟩, false, 0⟩]⟩

example : (0, 32, sunColor ⟨1, 0, false, false, 1, 1⟩ noon floor ⟨⟨0, 0, 1⟩, ⟨0, 0, 1⟩, false, 0⟩) ∈
    faceSky ⟨1, 0, false, false, 1, 1⟩ (fun _ => true) noon floor (fun _ => .sky [115] 32 id) := by
  have hv : noon.vec ≠ ⟨0, 0, 0⟩ := by simp [noon]
  have hlen : len noon.vec = 16384 := by
    have := len_sq noon.vec
    have hp := len_pos hv
    simp only [noon] at this hp ⊢
    nlinarith
  rw [faceSky_mem]
  refine ⟨Or.inr (Or.inr ?_), by decide, _, rfl, rfl, ?_, [115], 32, id, rfl, ?_, rfl, rfl⟩
  · rw [dot_norm hv]
    unfold cosine
    rw [hlen]
    simp [noon, floor, dot]
    norm_num
  · rw [sunColor_value _ _ _ _ hv rfl rfl]
    simp [noon, brightness, smul]
    norm_num
  · intro t ht
    have : sunTexture (fun _ => true) noon = some [115] := by simp [sunTexture, noon]
    rw [this] at ht
    cases ht
    rfl

example : ∃ c, pointLight 1 ⟨300, 1, .linear, 0, 1 / 2, false, ⟨0, 0, 100⟩, ⟨255, 255, 255⟩, none, none, 0, 0, 0, none, none, 1⟩ ⟨0, 0, 0⟩ = some c := by
  rw [(pointLight_value 1 _ _ (by norm_num) (by norm_num)).1]
  unfold contrib valueWithAngle lightValue plainValue spotScale
  simp only
  split_ifs <;> exact ⟨_, rfl⟩

/-- **C216**: the sun lights a point of the light grid exactly if what it gives there is over the gate and the ray to it ends at sky; what is
added is its colour, changed by the glass in between, in the sun's own style. -/
theorem pointSky_some (gate : ℝ) (sun : Suns.Sun) (see : Vec ℝ → Seen) (point : Vec ℝ) (style : Int) (c : Vec ℝ) :
    pointSky gate sun see point = some (style, c) ↔
      gate < |brightness (pointSun sun)| ∧ ∃ t s tint, see point = .sky t s tint ∧ style = sun.style ∧ c = tint (pointSun sun) := by
  unfold pointSky
  by_cases hb : |brightness (pointSun sun)| ≤ gate
  · rw [if_pos hb]
    constructor
    · intro h; cases h
    · rintro ⟨h, -⟩; exact absurd h (not_lt.2 hb)
  · rw [if_neg hb]
    cases hs : see point with
    | nothing =>
      constructor
      · intro h; cases h
      · rintro ⟨-, _, _, _, h, -⟩; cases h
    | solid =>
      constructor
      · intro h; cases h
      · rintro ⟨-, _, _, _, h, -⟩; cases h
    | sky t s tint =>
      constructor
      · intro h
        have h := Option.some.inj h
        exact ⟨not_le.1 hb, t, s, tint, rfl, (congrArg Prod.fst h).symm, (congrArg Prod.snd h).symm⟩
      · rintro ⟨-, t', s', tint', h, rfl, rfl⟩
        cases h
        rfl

/-- **C216**: and a light does exactly if what it gives is defined and over the gate and nothing blocks the ray to it. -/
theorem pointEntity_some (cfg : Cfg) (l : Light) (style : Int) (clear : Vec ℝ → Option (Vec ℝ → Vec ℝ)) (point : Vec ℝ) (style' : Int) (c : Vec ℝ) :
    pointEntity cfg l style clear point = some (some (style', c)) ↔
      ∃ d tint, pointLight cfg.scaledist l point = some d ∧ cfg.gate < |brightness d| ∧ clear point = some tint ∧ style' = style ∧ c = tint d := by
  unfold pointEntity
  cases hp : pointLight cfg.scaledist l point with
  | none =>
    constructor
    · intro h; cases h
    · rintro ⟨_, _, h, -⟩; cases h
  | some d =>
    rw [Option.map_some]
    by_cases hb : |brightness d| ≤ cfg.gate
    · rw [if_pos hb]
      constructor
      · intro h; cases h
      · rintro ⟨d', _, h, h2, -⟩
        cases h
        exact absurd h2 (not_lt.2 hb)
    · rw [if_neg hb]
      cases hc : clear point with
      | none =>
        constructor
        · intro h; cases h
        · rintro ⟨_, _, _, _, h, -⟩; cases h
      | some tint =>
        constructor
        · intro h
          have h := Option.some.inj (Option.some.inj h)
          exact ⟨d, tint, rfl, not_le.1 hb, rfl, (congrArg Prod.fst h).symm, (congrArg Prod.snd h).symm⟩
        · rintro ⟨d', t', h, -, h2, rfl, rfl⟩
          cases h; cases h2
          rfl

end Verif.SunRay
