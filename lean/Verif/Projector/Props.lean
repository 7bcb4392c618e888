import Verif.Projector.Lemmas
import Verif.Textures.SampleProps
import Verif.Illum.SpotProps

/-!
C234: a light with a projected texture is a projector.
-/

namespace Verif.Projector

open Verif.Geom

/-- C234: the directions of a projector are at right angles; without roll its right side is level and its upper side is
not below it, and it points where a spotlight with the same `mangle` does. -/
theorem directions (yaw pitch roll : ℝ) :
    Frame (ahead yaw pitch) (right yaw pitch roll) (up yaw pitch roll) ∧
      (right yaw pitch 0).z = 0 ∧ (-90 ≤ pitch ∧ pitch ≤ 90 → 0 ≤ (up yaw pitch 0).z) ∧
      ∀ m : Vec ℝ, Suns.vecFromMangle m = ahead m.x m.y := by
  refine ⟨frame_of _ _ _, by simp [right, mix, level, upright, rad], ?_, ahead_eq⟩
  intro h
  have hp := Real.pi_pos
  have : 0 ≤ Real.cos (rad pitch) := by
    apply Real.cos_nonneg_of_neg_pi_div_two_le_of_le
    · unfold rad
      nlinarith [h.1]
    · unfold rad
      nlinarith [h.2]
  simpa [up, mix, level, upright, rad] using this

/-- C234: the picture. For every image with pixels and every `project_fov` from 1 to 179 the light gets a matrix. The
longer side of the picture spans `project_fov`, and its pixels are square. A point is in the picture exactly if it is at
least 16 units ahead and within both angles; the picture then shows at it the place of the image that is as far from its
middle, to the right and upwards, as a projector would. -/
theorem picture {angles o : Vec ℝ} {fov : ℝ} {w h : Nat} (hw : 0 < w) (hh : 0 < h) (hf : 1 ≤ fov ∧ fov ≤ 179) :
    ∃ m, matrixFor angles o fov w h = .ok m ∧
      ∀ p : Vec ℝ, ∀ a b c, a = dot (ahead angles.x angles.y) (fromTo o p) →
        b = dot (right angles.x angles.y angles.z) (fromTo o p) → c = dot (up angles.x angles.y angles.z) (fromTo o p) →
        (((project m p).1 = true ∧ 0 < (project m p).2.1 ∧ (project m p).2.1 < 1 ∧ 0 < (project m p).2.2 ∧
            (project m p).2.2 < 1) ↔ 16 ≤ a ∧ |b| < a * sideTan fov w h ∧ |c| < a * sideTan fov h w) ∧
        (16 ≤ a → (project m p).2.1 = 1 / 2 + b / (2 * (a * sideTan fov w h)) ∧
          (project m p).2.2 = 1 / 2 + c / (2 * (a * sideTan fov h w))) := by
  have hw' : (0 : ℝ) < w := by exact_mod_cast hw
  have hh' : (0 : ℝ) < h := by exact_mod_cast hh
  have key : ∃ m fx fy, matrixFor angles o fov w h = .ok m ∧ m = modelViewProj angles o fx fy ∧ 0 < fx ∧ fx < 180 ∧ 0 < fy ∧
      fy < 180 ∧ halfTan fx = sideTan fov w h ∧ halfTan fy = sideTan fov h w := by
    unfold matrixFor sideTan
    by_cases c : w > h
    · have c' : h ≤ w := c.le
      obtain ⟨g, hg⟩ : ∃ g, calcFov fov w h = .ok g := by
        unfold calcFov; rw [if_neg (by push Not; exact hf)]; exact ⟨_, rfl⟩
      obtain ⟨_, _, g0, g1, ht⟩ := calcFov_tan hw' hh' hg
      refine ⟨_, fov, g, by rw [if_pos c, hg]; rfl, rfl, by linarith [hf.1], by linarith [hf.2], g0, g1, ?_, ?_⟩
      · rw [max_eq_left c', div_self hw'.ne', mul_one]
      · rw [max_eq_right c', ht, mul_comm]
    · have c' : w ≤ h := not_lt.1 c
      obtain ⟨g, hg⟩ : ∃ g, calcFov fov h w = .ok g := by
        unfold calcFov; rw [if_neg (by push Not; exact hf)]; exact ⟨_, rfl⟩
      obtain ⟨_, _, g0, g1, ht⟩ := calcFov_tan hh' hw' hg
      refine ⟨_, g, fov, by rw [if_neg c, hg]; rfl, rfl, g0, g1, by linarith [hf.1], by linarith [hf.2], ?_, ?_⟩
      · rw [max_eq_right c', ht, mul_comm]
      · rw [max_eq_left c', div_self hh'.ne', mul_one]
  obtain ⟨m, fx, fy, hm, e, x0, x1, y0, y1, ex, ey⟩ := key
  refine ⟨m, hm, ?_⟩
  intro p a b c ha hb hc
  have tx := halfTan_pos x0 x1
  have ty := halfTan_pos y0 y1
  have place : ∀ t s : ℝ, 0 < t → 16 ≤ a → (1 + s / t / a) / 2 = 1 / 2 + s / (2 * (a * t)) := by
    intro t s ht h16
    have : a ≠ 0 := by linarith
    field_simp
  have range : ∀ t s : ℝ, 0 < t → 16 ≤ a →
      ((0 < 1 / 2 + s / (2 * (a * t)) ∧ 1 / 2 + s / (2 * (a * t)) < 1) ↔ |s| < a * t) := by
    intro t s ht h16
    have hat : 0 < a * t := by apply mul_pos _ ht; linarith
    have e1 : s / (2 * (a * t)) = s / (a * t) / 2 := by rw [div_div, mul_comm 2]
    have e2 : (-(a * t) < s) ↔ (-1 < s / (a * t)) := by rw [lt_div_iff₀ hat, neg_one_mul]
    rw [e1, abs_lt, e2, ← div_lt_one hat]
    constructor
    · rintro ⟨q1, q2⟩; exact ⟨by linarith, by linarith⟩
    · rintro ⟨q1, q2⟩; exact ⟨by linarith, by linarith⟩
  rw [e, project_eq tx ty, ← ha, ← hb, ← hc, ← ex, ← ey]
  simp only [decide_eq_true_eq]
  constructor
  · constructor
    · rintro ⟨h16, q⟩
      rw [place _ _ tx h16, place _ _ ty h16] at q
      exact ⟨h16, (range _ _ tx h16).1 ⟨q.1, q.2.1⟩, (range _ _ ty h16).1 ⟨q.2.2.1, q.2.2.2⟩⟩
    · rintro ⟨h16, q1, q2⟩
      rw [place _ _ tx h16, place _ _ ty h16]
      exact ⟨h16, ((range _ _ tx h16).2 q1).1, ((range _ _ tx h16).2 q1).2, (range _ _ ty h16).2 q2⟩
  · intro h16
    exact ⟨place _ _ tx h16, place _ _ ty h16⟩

/-- C234: a `project_fov` that is not from 1 to 179 ends the program with an error. -/
theorem bad_fov (angles o : Vec ℝ) {fov : ℝ} (w h : Nat) (hf : ¬ (1 ≤ fov ∧ fov ≤ 179)) :
    matrixFor angles o fov w h = .error := by
  have : fov < 1 ∨ fov > 179 := by
    by_contra hc; push Not at hc; exact hf hc
  unfold matrixFor calcFov
  simp only [if_pos this]
  split <;> rfl

/-- C234: what is outside of the picture gets no light: not what is behind or to the side, nor what is less than 16 units
ahead. Nothing of the image is read there. -/
theorem outside {angles o : Vec ℝ} {fov : ℝ} {w h : Nat} {m : Mat} (hw : 0 < w) (hh : 0 < h)
    (hm : matrixFor angles o fov w h = .ok m) (t : Textures.Texture) (p : Vec ℝ)
    (hp : dot (ahead angles.x angles.y) (fromTo o p) < 16 ∨
      dot (ahead angles.x angles.y) (fromTo o p) * sideTan fov w h
        ≤ |dot (right angles.x angles.y angles.z) (fromTo o p)| ∨
      dot (ahead angles.x angles.y) (fromTo o p) * sideTan fov h w
        ≤ |dot (up angles.x angles.y angles.z) (fromTo o p)|) :
    sample t m p = .ok none := by
  have hf : 1 ≤ fov ∧ fov ≤ 179 := by
    by_contra hc
    rw [bad_fov angles o w h hc] at hm
    cases hm
  obtain ⟨m', hm', hq⟩ := picture (angles := angles) (o := o) hw hh hf
  rw [hm] at hm'
  cases hm'
  have := (hq p _ _ _ rfl rfl rfl).1
  unfold sample
  apply Textures.projected_outside
  by_contra hcon
  push Not at hcon
  have hin := this.1 ⟨by simpa using hcon.1, hcon.2⟩
  rcases hp with hp | hp | hp
  · linarith [hin.1]
  · linarith [hin.2.1]
  · linarith [hin.2.2]

/-- C234: where the light points: a light that is aimed with `project_mangle`, or with `mangle`, throws its picture there;
aimed with `mangle` alone, the middle of the picture is the axis of its cone. -/
theorem aim_partial (k : Keys) :
    (∀ v, k.projMangle = some v → projAngles k = v) ∧
    (∀ v, k.projMangle = none → k.mangle = some v → projAngles k = v) ∧
    (∀ v, k.projMangle = none → k.mangle = some v → k.target = none →
      spotVec k = some (ahead (projAngles k).x (projAngles k).y)) ∧
    (k.projMangle = none → k.mangle = none →
      projAngles k = ⟨k.angles.y, -k.angles.x, k.angles.z⟩) := by
  refine ⟨?_, ?_, ?_, ?_⟩
  · intro v h; simp [projAngles, h]
  · intro v h h'; simp [projAngles, h, h']
  · intro v h h' ht; simp [projAngles, spotVec, h, h', ht, ahead_eq]
  · intro h h'; simp [projAngles, h, h']

/-- C234 is false for a light that is aimed with `angles`: it counts as a spotlight without a direction, so that nothing is
in its cone, and it casts no light at all, in any direction and on any surface. -/
theorem angles_dark {k : Keys} {base soft : ℝ} (hm : k.mangle = none) (hp : k.projMangle = none) (ht : k.target = none)
    (hb : 0 < base ∧ base < 180) (l : Illum.Light) (hl : l.spot = spot k base soft) (scale dist : ℝ) (n dir : Vec ℝ)
    (two : Bool) : Illum.valueWithAngle scale l n dir dist two = some 0 := by
  have hs : Illum.spotScale l.spot dir = none := by
    have hpi := Real.pi_pos
    have hc : 0 < Real.cos (base / 2 * Real.pi / 180) := by
      apply Real.cos_pos_of_mem_Ioo
      constructor
      · have : 0 < base / 2 * Real.pi / 180 := by have := hb.1; positivity
        linarith
      · nlinarith [hb.2]
    rw [hl]
    simp only [spot, spotVec, hm, hp, ht, Option.isNone_none, if_true, Option.map_some, Illum.spotScale, Illum.setupSpot, dot,
      zero_mul, add_zero]
    rw [if_pos (by linarith)]
  unfold Illum.valueWithAngle
  simp only [hs]
  split <;> rfl

/-- A light at the origin with the default keys: straight ahead, at a distance of 64, is the middle of the image; 32 units
to the left of it is a quarter of the width of a square image. -/
example : ∃ m, matrixFor ⟨0, 0, 0⟩ ⟨0, 0, 0⟩ 90 64 64 = .ok m ∧ project m ⟨64, 0, 0⟩ = (true, 1 / 2, 1 / 2) ∧
    project m ⟨64, 32, 0⟩ = (true, 1 / 4, 1 / 2) := by
  obtain ⟨m, hm, hq⟩ :=
    picture (angles := ⟨0, 0, 0⟩) (o := ⟨0, 0, 0⟩) (fov := 90) (w := 64) (h := 64) (by norm_num) (by norm_num) (by norm_num)
  have t1 : sideTan 90 64 64 = 1 := by
    unfold sideTan halfTan rad
    rw [show (90 : ℝ) / 2 * (Real.pi / 180) = Real.pi / 4 by ring, Real.tan_pi_div_four]
    norm_num
  refine ⟨m, hm, ?_, ?_⟩
  · have := hq ⟨64, 0, 0⟩ 64 0 0 (by simp [dot, ahead, fromTo, rad]) (by simp [dot, right, mix, level, upright, fromTo, rad])
      (by simp [dot, up, mix, level, upright, fromTo, rad])
    rw [t1] at this
    have h1 := this.2 (by norm_num)
    have h2 := (this.1.2 (by norm_num)).1
    exact Prod.ext h2 (Prod.ext (by rw [h1.1]; norm_num) (by rw [h1.2]; norm_num))
  · have := hq ⟨64, 32, 0⟩ 64 (-32) 0 (by simp [dot, ahead, fromTo, rad])
      (by simp [dot, right, mix, level, upright, fromTo, rad]) (by simp [dot, up, mix, level, upright, fromTo, rad])
    rw [t1] at this
    have h1 := this.2 (by norm_num)
    have h2 := (this.1.2 (by norm_num)).1
    exact Prod.ext h2 (Prod.ext (by rw [h1.1]; norm_num) (by rw [h1.2]; norm_num))

/-- A light that is aimed with `angles` alone. -/
example : projAngles ⟨none, none, ⟨45, 90, 0⟩, ⟨0, 0, 0⟩, none⟩ = ⟨90, -45, 0⟩ ∧
    (spot ⟨none, none, ⟨45, 90, 0⟩, ⟨0, 0, 0⟩, none⟩ 40 0).isSome := by
  constructor
  · simp [projAngles]
  · simp [spot, spotVec]

end Verif.Projector
