import Verif.Phong.SpecLemmas

/-!
Property C173: which faces are smoothed with each other.
-/

namespace Verif.Phong

open Verif.Geom

/-- C173, for angles up to 180 degrees: a face is smoothed with exactly the other faces that touch it at a vertex, when
both ask for it, they are in the same group, agree on the surface flags that matter, and the angle between their
normals is at most the angle of either. Missing: angles over 180 degrees, see `wide_angle`. -/
theorem smoothed_iff_partial (b : Bsp ℝ) (tex : Nat → Tex ℝ) (i j : Nat) (f g : Face ℝ)
    (hg : b.faces[j]? = some g) (hij : j ≠ i) (hf1 : IsUnit f.norm) (hg1 : IsUnit g.norm)
    (hlim : ∀ a, LimitAt b f g (tex f.tex) a ∨ LimitAt b f g (tex g.tex) a → 0 ≤ a ∧ a ≤ 180) :
    j ∈ smoothFaces realOps b tex i f ↔ ToSmooth b tex f g := by
  have h1 := hlim _ (Or.inl ((limitAt_iff b f g (tex f.tex) _).2 rfl))
  have h2 := hlim _ (Or.inr ((limitAt_iff b f g (tex g.tex) _).2 rfl))
  rw [mem_smoothFaces]
  unfold ToSmooth
  rw [asks_iff, asks_iff]
  simp only [inGroup_iff, limitAt_iff]
  constructor
  · rintro ⟨hw, hn, _, g', hg', ht, hs⟩
    rw [hg] at hg'
    cases hg'
    obtain ⟨sw, sn, sm, sg, sd⟩ := (smoothWith_iff _ _ _ _ _).1 hs
    refine ⟨ht, ⟨hn, hw⟩, ⟨sn, sw⟩, ⟨_, rfl, sg⟩, (mask_iff _ _ _).1 sm, ?_⟩
    have := (degrees_le f.norm g.norm hf1 hg1 _ (le_min h1.1 h2.1) (min_le_of_left_le h1.2)).2 sd
    rintro a (rfl | rfl)
    · exact this.trans (min_le_left _ _)
    · exact this.trans (min_le_right _ _)
  · rintro ⟨ht, ⟨hn, hw⟩, ⟨sn, sw⟩, ⟨n, hn1, hn2⟩, hm, hd⟩
    refine ⟨hw, hn, hij, g, hg, ht, (smoothWith_iff _ _ _ _ _).2 ⟨sw, sn, (mask_iff _ _ _).2 hm, hn1 ▸ hn2, ?_⟩⟩
    exact (degrees_le f.norm g.norm hf1 hg1 _ (le_min h1.1 h2.1) (min_le_of_left_le h1.2)).1
      (le_min (hd _ (Or.inl rfl)) (hd _ (Or.inr rfl)))

/-- C173: a face is smoothed with other faces of the file only, and with each once. -/
theorem smoothed_faces (b : Bsp ℝ) (tex : Nat → Tex ℝ) (i : Nat) (f : Face ℝ) :
    (smoothFaces realOps b tex i f).Nodup ∧ i ∉ smoothFaces realOps b tex i f ∧
      ∀ j ∈ smoothFaces realOps b tex i f, j < b.faces.length := by
  refine ⟨(smoothFaces_sorted _ _ _ _ _).imp (fun h => ne_of_lt h), ?_, ?_⟩
  · intro h
    exact ((mem_smoothFaces _ _ _ _ _ _).1 h).2.2.1 rfl
  · intro j hj
    obtain ⟨_, _, _, g, hg, _⟩ := (mem_smoothFaces _ _ _ _ _ _).1 hj
    exact (List.getElem?_eq_some_iff.1 hg).1

/-- The middle of a triangle that is not flat. -/
theorem centroid_triangle (p q r : Vec ℝ) (h : triArea realOps p q r ≠ 0) :
    polyCentroid realOps [p, q, r] = ⟨(p.x + q.x + r.x) / 3, (p.y + q.y + r.y) / 3, (p.z + q.z + r.z) / 3⟩ := by
  have h1 : polyArea realOps [p, q, r] = triArea realOps p q r := by simp [polyArea, fan]
  unfold polyCentroid
  rw [h1]
  simp only [fan, List.tail_cons, List.zip_cons_cons, List.zip_nil_right, List.map_cons, List.map_nil, List.foldl_cons,
    List.foldl_nil, smul, add]
  congr 1 <;> field_simp <;> ring

theorem area_ne (p q r : Vec ℝ) (h : 0 < dot (cross (sub r p) (sub q p)) (cross (sub r p) (sub q p))) :
    triArea realOps p q r ≠ 0 := by
  have := Real.sqrt_pos.2 h
  unfold triArea realOps
  simp only
  linarith

/-- A corner at the origin, two triangles that touch there, the first in the plane `z = 0` and the second standing. -/
noncomputable def twoFaces : Bsp ℝ where
  faces := [⟨0, [0, 1, 2], ⟨0, 0, 1⟩, 0, 0, false⟩, ⟨1, [0, 3, 4], ⟨4 / 5, 0, 3 / 5⟩, 0, 1, false⟩]
  pos := fun v => if v = 0 then ⟨0, 0, 0⟩ else if v = 1 then ⟨-10, 5, 0⟩ else if v = 2 then ⟨-10, 10, 0⟩
    else if v = 3 then ⟨-30, -20, 40⟩ else ⟨-30, -40, 40⟩
  mask := maskQ1

theorem twoFaces_first : concave realOps twoFaces ⟨0, [0, 1, 2], ⟨0, 0, 1⟩, 0, 0, false⟩
    ⟨1, [0, 3, 4], ⟨4 / 5, 0, 3 / 5⟩, 0, 1, false⟩ = true := by
  have : Face.points twoFaces ⟨1, [0, 3, 4], ⟨4 / 5, 0, 3 / 5⟩, 0, 1, false⟩
      = [⟨0, 0, 0⟩, ⟨-30, -20, 40⟩, ⟨-30, -40, 40⟩] := by
    simp [Face.points, twoFaces]
  unfold concave
  rw [this, centroid_triangle _ _ _ (area_ne _ _ _ (by norm_num [cross, sub, dot]))]
  norm_num [dot]

theorem twoFaces_second : concave realOps twoFaces ⟨1, [0, 3, 4], ⟨4 / 5, 0, 3 / 5⟩, 0, 1, false⟩
    ⟨0, [0, 1, 2], ⟨0, 0, 1⟩, 0, 0, false⟩ = false := by
  have : Face.points twoFaces ⟨0, [0, 1, 2], ⟨0, 0, 1⟩, 0, 0, false⟩
      = [⟨0, 0, 0⟩, ⟨-10, 5, 0⟩, ⟨-10, 10, 0⟩] := by
    simp [Face.points, twoFaces]
  unfold concave
  rw [this, centroid_triangle _ _ _ (area_ne _ _ _ (by norm_num [cross, sub, dot]))]
  norm_num [dot]

/-- C173: whether two faces are smoothed is not a property of the pair: with an angle of its own for concave joints, one
of two faces can be smoothed with the other but not the other way round, because the joint counts as concave as seen
from one of them only. -/
theorem smoothed_one_way : ∃ (b : Bsp ℝ) (tex : Nat → Tex ℝ) (f g : Face ℝ),
    b.faces[0]? = some f ∧ b.faces[1]? = some g ∧ IsUnit f.norm ∧ IsUnit g.norm ∧
      0 ∈ smoothFaces realOps b tex 1 g ∧ 1 ∉ smoothFaces realOps b tex 0 f := by
  refine ⟨twoFaces, fun _ => ⟨false, 90, 45, 0, 0, 0⟩, ⟨0, [0, 1, 2], ⟨0, 0, 1⟩, 0, 0, false⟩,
    ⟨1, [0, 3, 4], ⟨4 / 5, 0, 3 / 5⟩, 0, 1, false⟩, rfl, rfl, by norm_num [IsUnit, dot], by norm_num [IsUnit, dot],
    ?_, ?_⟩
  · rw [mem_smoothFaces]
    refine ⟨by norm_num [wantsPhong, phongAngle, concaveAngle], rfl, by norm_num, _, rfl, ⟨0, by simp, by simp⟩,
      (smoothWith_iff _ _ _ _ _).2 ⟨by norm_num [wantsPhong, phongAngle, concaveAngle], rfl, rfl, rfl, ?_⟩⟩
    rw [twoFaces_second]
    have : Real.cos (90 * Real.pi / 180) = 0 := by
      rw [show (90 : ℝ) * Real.pi / 180 = Real.pi / 2 by ring, Real.cos_pi_div_two]
    norm_num [phongAngle, realOps, this, dot]
  · intro h
    obtain ⟨_, _, _, g, hg, _, hs⟩ := (mem_smoothFaces _ _ _ _ _ _).1 h
    cases hg
    obtain ⟨_, _, _, _, hd⟩ := (smoothWith_iff _ _ _ _ _).1 hs
    rw [twoFaces_first] at hd
    have h45 : Real.cos (45 * Real.pi / 180) = Real.sqrt 2 / 2 := by
      rw [show (45 : ℝ) * Real.pi / 180 = Real.pi / 4 by ring, Real.cos_pi_div_four]
    norm_num [concaveAngle, realOps, h45, dot] at hd
    have h2 : (1.2 : ℝ) < Real.sqrt 2 := by
      rw [Real.lt_sqrt (by norm_num)]; norm_num
    linarith

/-- C173, when neither surface has an angle of its own for concave joints, or both faces see the same kind of joint:
one is smoothed with the other exactly when the other is with it. Missing: see `smoothed_one_way`. -/
theorem smoothed_both_ways_partial (b : Bsp ℝ) (tex : Nat → Tex ℝ) (i j : Nat) (f g : Face ℝ)
    (hf : b.faces[i]? = some f) (hg : b.faces[j]? = some g)
    (h : ((tex f.tex).concave = 0 ∧ (tex g.tex).concave = 0) ∨ (InFront b f g ↔ InFront b g f)) :
    j ∈ smoothFaces realOps b tex i f ↔ i ∈ smoothFaces realOps b tex j g := by
  have key : ∀ (i j : Nat) (f g : Face ℝ), b.faces[i]? = some f → b.faces[j]? = some g →
      (((tex f.tex).concave = 0 ∧ (tex g.tex).concave = 0) ∨ (InFront b f g ↔ InFront b g f)) →
      j ∈ smoothFaces realOps b tex i f → i ∈ smoothFaces realOps b tex j g := by
    intro i j f g hf hg h hs
    obtain ⟨hw, hn, hij, g', hg', ⟨v, hv, hv'⟩, hs⟩ := (mem_smoothFaces _ _ _ _ _ _).1 hs
    rw [hg] at hg'
    cases hg'
    obtain ⟨sw, sn, sm, sg, sd⟩ := (smoothWith_iff _ _ _ _ _).1 hs
    refine (mem_smoothFaces _ _ _ _ _ _).2 ⟨sw, sn, hij.symm, f, hf, ⟨v, hv', hv⟩,
      (smoothWith_iff _ _ _ _ _).2 ⟨hw, hn, sm.symm, sg.symm, ?_⟩⟩
    have hdot : dot g.norm f.norm = dot f.norm g.norm := by unfold dot; ring
    rw [hdot, min_comm]
    rcases h with ⟨h1, h2⟩ | h
    · have e1 : concaveAngle (tex f.tex) = phongAngle (tex f.tex) := by simp [concaveAngle, h1]
      have e2 : concaveAngle (tex g.tex) = phongAngle (tex g.tex) := by simp [concaveAngle, h2]
      rw [e1, e2, ite_self, ite_self] at sd ⊢
      exact sd
    · rw [inFront_iff, inFront_iff] at h
      have : concave realOps b f g = concave realOps b g f := by
        cases h1 : concave realOps b f g <;> cases h2 : concave realOps b g f <;> simp_all
      rw [← this]
      exact sd
  exact ⟨key i j f g hf hg h, key j i g f hg hf (h.imp And.symm Iff.symm)⟩

/-- C173: an angle over 180 degrees does not smooth more: with 360 degrees, which the compiler lets through, faces that
stand less than 90 degrees apart are not smoothed. -/
theorem wide_angle : ∃ (b : Bsp ℝ) (tex : Nat → Tex ℝ) (f g : Face ℝ),
    b.faces[0]? = some f ∧ b.faces[1]? = some g ∧ IsUnit f.norm ∧ IsUnit g.norm ∧ ToSmooth b tex f g ∧
      (∀ a, LimitAt b f g (tex f.tex) a ∨ LimitAt b f g (tex g.tex) a → a = 360) ∧
      1 ∉ smoothFaces realOps b tex 0 f := by
  have hu1 : IsUnit (⟨0, 0, 1⟩ : Vec ℝ) := by norm_num [IsUnit, dot]
  have hu2 : IsUnit (⟨4 / 5, 0, 3 / 5⟩ : Vec ℝ) := by norm_num [IsUnit, dot]
  have hl : ∀ (f g : Face ℝ) (t : Tex ℝ), t = ⟨false, 360, 0, 0, 0, 0⟩ → ∀ a, LimitAt twoFaces f g t a → a = 360 := by
    intro f g t ht a h
    rw [limitAt_iff] at h
    rw [h, ht]
    norm_num [concaveAngle, phongAngle]
  refine ⟨twoFaces, fun _ => ⟨false, 360, 0, 0, 0, 0⟩, ⟨0, [0, 1, 2], ⟨0, 0, 1⟩, 0, 0, false⟩,
    ⟨1, [0, 3, 4], ⟨4 / 5, 0, 3 / 5⟩, 0, 1, false⟩, rfl, rfl, hu1, hu2, ?_, ?_, ?_⟩
  · refine ⟨⟨0, by simp, by simp⟩, (asks_iff _).2 ⟨rfl, by norm_num [wantsPhong, phongAngle]⟩,
      (asks_iff _).2 ⟨rfl, by norm_num [wantsPhong, phongAngle]⟩,
      ⟨0, (inGroup_iff _ _).2 (by norm_num [phongValue]), (inGroup_iff _ _).2 (by norm_num [phongValue])⟩,
      fun _ _ => rfl, ?_⟩
    rintro a (h | h)
    all_goals
      rw [hl _ _ _ rfl a h]
      unfold degrees
      rw [div_le_iff₀ Real.pi_pos]
      nlinarith [Real.arccos_le_pi (dot (⟨0, 0, 1⟩ : Vec ℝ) ⟨4 / 5, 0, 3 / 5⟩), Real.pi_pos]
  · rintro a (h | h) <;> exact hl _ _ _ rfl a h
  · intro h
    obtain ⟨_, _, _, g, hg, _, hs⟩ := (mem_smoothFaces _ _ _ _ _ _).1 h
    cases hg
    obtain ⟨_, _, _, _, hd⟩ := (smoothWith_iff _ _ _ _ _).1 hs
    rw [twoFaces_first] at hd
    have h360 : Real.cos (360 * Real.pi / 180) = 1 := by
      rw [show (360 : ℝ) * Real.pi / 180 = 2 * Real.pi by ring, Real.cos_two_pi]
    norm_num [concaveAngle, phongAngle, realOps, h360, dot] at hd

/-- The hypotheses of `smoothed_iff_partial` can be met: both sides of the two faces, with 90 and 45 degrees. -/
example : ∃ g, twoFaces.faces[1]? = some g ∧ (1 : Nat) ≠ 0 ∧ IsUnit (⟨0, 0, 1⟩ : Vec ℝ) ∧ IsUnit g.norm ∧
    ∀ a, LimitAt twoFaces ⟨0, [0, 1, 2], ⟨0, 0, 1⟩, 0, 0, false⟩ g ⟨false, 90, 45, 0, 0, 0⟩ a ∨
      LimitAt twoFaces ⟨0, [0, 1, 2], ⟨0, 0, 1⟩, 0, 0, false⟩ g ⟨false, 90, 45, 0, 0, 0⟩ a → 0 ≤ a ∧ a ≤ 180 := by
  refine ⟨_, rfl, by norm_num, by norm_num [IsUnit, dot], by norm_num [IsUnit, dot], ?_⟩
  intro a h
  rw [or_self, limitAt_iff] at h
  rw [h]
  split <;> norm_num [concaveAngle, phongAngle]

/-- The hypotheses of `smoothed_both_ways_partial` can be met by faces that are smoothed. -/
example : ∃ (tex : Nat → Tex ℝ) (f g : Face ℝ), twoFaces.faces[0]? = some f ∧ twoFaces.faces[1]? = some g ∧
    (tex f.tex).concave = 0 ∧ (tex g.tex).concave = 0 ∧ 1 ∈ smoothFaces realOps twoFaces tex 0 f := by
  refine ⟨fun _ => ⟨false, 90, 0, 0, 0, 0⟩, _, _, rfl, rfl, rfl, rfl, ?_⟩
  rw [mem_smoothFaces]
  refine ⟨by norm_num [wantsPhong, phongAngle, concaveAngle], rfl, by norm_num, _, rfl, ⟨0, by simp, by simp⟩,
    (smoothWith_iff _ _ _ _ _).2 ⟨by norm_num [wantsPhong, phongAngle, concaveAngle], rfl, rfl, rfl, ?_⟩⟩
  have : Real.cos (90 * Real.pi / 180) = 0 := by
    rw [show (90 : ℝ) * Real.pi / 180 = Real.pi / 2 by ring, Real.cos_pi_div_two]
  norm_num [phongAngle, concaveAngle, realOps, this, dot]

/-- The flags that matter in Quake: only `TEX_SPECIAL`, bit 0. -/
theorem flags_that_matter_quake (x y : Nat) : x &&& maskQ1 = y &&& maskQ1 ↔ x.testBit 0 = y.testBit 0 := by
  rw [mask_iff]
  constructor
  · intro h
    exact h 0 (by decide)
  · intro h bit hb
    match bit with
    | 0 => exact h
    | n + 1 =>
      have : maskQ1.testBit (n + 1) = false := by
        unfold maskQ1
        exact Nat.testBit_lt_two_pow (lt_of_lt_of_le (by decide : 1 < 2 ^ 1) (Nat.pow_le_pow_right (by decide) (by omega)))
      rw [this] at hb
      cases hb

/-- The flags that matter in Quake II: sky, warp, the two translucent ones, flowing and nodraw, bits 2 to 7. -/
theorem flags_that_matter_quake2 (x y : Nat) :
    x &&& maskQ2 = y &&& maskQ2 ↔ ∀ bit, 2 ≤ bit → bit ≤ 7 → x.testBit bit = y.testBit bit := by
  rw [mask_iff]
  have key : ∀ bit, maskQ2.testBit bit = true ↔ 2 ≤ bit ∧ bit ≤ 7 := by
    intro bit
    by_cases hb : bit < 8
    · have : ∀ b : Fin 8, maskQ2.testBit b.val = true ↔ 2 ≤ b.val ∧ b.val ≤ 7 := by decide
      exact this ⟨bit, hb⟩
    · have : maskQ2.testBit bit = false :=
        Nat.testBit_lt_two_pow (lt_of_lt_of_le (by decide : maskQ2 < 2 ^ 8) (Nat.pow_le_pow_right (by decide) (by omega)))
      rw [this]
      constructor
      · intro h
        cases h
      · omega
  constructor
  · intro h bit h1 h2
    exact h bit ((key bit).2 ⟨h1, h2⟩)
  · intro h bit hb
    obtain ⟨h1, h2⟩ := (key bit).1 hb
    exact h bit h1 h2

end Verif.Phong
