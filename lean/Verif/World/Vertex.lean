import Verif.World.Spec
import Verif.BrushBsp.Hull
import Mathlib.Tactic.LinearCombination
import Mathlib.Tactic.Linarith
import Mathlib.Tactic.FieldSimp

/-!
In a bounded body, no point is farther in a direction than some corner, in which three planes meet.
-/

namespace Verif.World

open Geom BrushBsp World.Spec

variable {K : Type} [Field K] [LinearOrder K] [IsStrictOrderedRing K]

theorem dot_self_nonneg (u : Vec K) : 0 ≤ dot u u := by
  simp only [dot]
  have := mul_self_nonneg u.x; have := mul_self_nonneg u.y; have := mul_self_nonneg u.z
  linarith

/-- The first plane on the way from a point of a bounded body that has the way going through it. -/
theorem leave {fs : List (Plane K)} (hb : Bounded fs) {p u : Vec K} (hp : In fs p) (hu : 0 < dot u u) :
    ∃ t, 0 ≤ t ∧ In fs (go p u t) ∧ ∃ f ∈ fs, f.distTo (go p u t) = 0 ∧ 0 < dot u f.normal := by
  obtain ⟨r, hr⟩ := hb
  have key : ∀ (l : List (Plane K)), (∀ s ∈ l, s.distTo p ≤ 0) →
      (∀ s ∈ l, dot u s.normal ≤ 0) ∨
      ∃ t, 0 ≤ t ∧ (∀ s ∈ l, s.distTo (go p u t) ≤ 0) ∧ ∃ s ∈ l, s.distTo (go p u t) = 0 ∧ 0 < dot u s.normal := by
    intro l
    induction l with
    | nil => intro _; left; simp
    | cons a l ih =>
      intro hl
      have ha := hl a List.mem_cons_self
      have hl' := fun s hs => hl s (List.mem_cons_of_mem _ hs)
      rcases lt_or_ge 0 (dot u a.normal) with hpos | hneg
      · set ta := -a.distTo p / dot u a.normal with hta
        have ta0 : 0 ≤ ta := div_nonneg (by linarith) (le_of_lt hpos)
        have hmul : ta * dot u a.normal = -a.distTo p := div_mul_cancel₀ _ (ne_of_gt hpos)
        rcases ih hl' with hall | ⟨t, ht, hall, s, hs, e, hsp⟩
        · right
          refine ⟨ta, ta0, ?_, a, by simp, by rw [dist_go]; linarith, hpos⟩
          intro s hs
          rcases List.mem_cons.1 hs with rfl | hs
          · rw [dist_go]; linarith
          · rw [dist_go]
            have := mul_nonpos_of_nonneg_of_nonpos ta0 (hall s hs)
            linarith [hl' s hs]
        · right
          rcases le_total t ta with hle | hle
          · refine ⟨t, ht, ?_, s, by simp [hs], e, hsp⟩
            intro s' hs'
            rcases List.mem_cons.1 hs' with rfl | hs'
            · rw [dist_go]
              have := mul_le_mul_of_nonneg_right hle (le_of_lt hpos)
              linarith
            · exact hall s' hs'
          · refine ⟨ta, ta0, ?_, a, by simp, by rw [dist_go]; linarith, hpos⟩
            intro s' hs'
            rcases List.mem_cons.1 hs' with rfl | hs'
            · rw [dist_go]; linarith
            · have h1 := hall s' hs'
              rw [dist_go] at h1 ⊢
              rcases le_total 0 (dot u s'.normal) with h2 | h2
              · have := mul_le_mul_of_nonneg_right hle h2
                linarith
              · have := mul_nonpos_of_nonneg_of_nonpos ta0 h2
                linarith [hl' s' hs']
      · rcases ih hl' with hall | ⟨t, ht, hall, s, hs, e, hsp⟩
        · left
          intro s hs
          rcases List.mem_cons.1 hs with rfl | hs
          · exact hneg
          · exact hall s hs
        · right
          refine ⟨t, ht, ?_, s, by simp [hs], e, hsp⟩
          intro s' hs'
          rcases List.mem_cons.1 hs' with rfl | hs'
          · rw [dist_go]
            have := mul_nonpos_of_nonneg_of_nonpos ht hneg
            linarith
          · exact hall s' hs'
  rcases key fs hp with hall | h
  · exfalso
    have hin : ∀ t, 0 ≤ t → In fs (go p u t) := by
      intro t ht f hf
      rw [dist_go]
      have := mul_nonpos_of_nonneg_of_nonpos ht (hall f hf)
      linarith [hp f hf]
    have h0 := dot_self_nonneg p
    have hr0 : 0 ≤ r := le_trans h0 (hr p hp)
    set c := |dot p u| with hc
    have hc0 : 0 ≤ c := abs_nonneg _
    have hcp : -c ≤ dot p u := neg_abs_le _
    set t := (r + 2 * c + 1) / dot u u + 1 with ht
    have ht1 : 1 ≤ t := by
      have : 0 ≤ (r + 2 * c + 1) / dot u u := div_nonneg (by linarith) (le_of_lt hu)
      linarith
    have hb := hr _ (hin t (by linarith))
    have e : dot (go p u t) (go p u t) = dot p p + 2 * t * dot p u + t * t * dot u u := by
      simp only [dot, go]; ring
    have hm : t * dot u u = r + 2 * c + 1 + dot u u := by
      rw [ht]; field_simp
    have h3 : t * (t * dot u u + 2 * dot p u) ≤ r := by
      rw [e] at hb; linarith [hb, h0]
    have h4 : r + 1 ≤ t * dot u u + 2 * dot p u := by rw [hm]; linarith
    have h5 : r + 1 ≤ t * (t * dot u u + 2 * dot p u) := by
      have := mul_le_mul ht1 h4 (by linarith) (by linarith)
      linarith
    linarith
  · exact h

/-- A direction that does not go back, along given planes. -/
theorem leave_along {fs : List (Plane K)} (hb : Bounded fs) {p u : Vec K} (g : Vec K) (hp : In fs p) (hu : 0 < dot u u) :
    ∃ q t, q = go p u t ∧ In fs q ∧ dot g p ≤ dot g q ∧ ∃ f ∈ fs, f.distTo q = 0 ∧ dot u f.normal ≠ 0 := by
  rcases le_total 0 (dot g u) with h | h
  · obtain ⟨t, ht, h1, f, hf, h2, h3⟩ := leave hb hp hu
    refine ⟨_, t, rfl, h1, ?_, f, hf, h2, ne_of_gt h3⟩
    rw [dot_go]
    have := mul_nonneg ht h
    linarith
  · have hu' : 0 < dot (⟨-u.x, -u.y, -u.z⟩ : Vec K) ⟨-u.x, -u.y, -u.z⟩ := by
      have : dot (⟨-u.x, -u.y, -u.z⟩ : Vec K) ⟨-u.x, -u.y, -u.z⟩ = dot u u := by simp only [dot]; ring
      rwa [this]
    obtain ⟨t, ht, h1, f, hf, h2, h3⟩ := leave hb hp hu'
    have e : go p ⟨-u.x, -u.y, -u.z⟩ t = go p u (-t) := by simp only [go, Vec.mk.injEq]; refine ⟨?_, ?_, ?_⟩ <;> ring
    rw [e] at h1 h2
    refine ⟨_, -t, rfl, h1, ?_, f, hf, h2, ?_⟩
    · rw [dot_go]
      have := mul_nonneg_of_nonpos_of_nonpos (show -t ≤ 0 by linarith) h
      linarith
    · intro h0
      simp only [dot] at h3 h0
      linarith

theorem pos_of_ne {a b : Vec K} (h : dot a b ≠ 0) : 0 < dot b b := by
  rcases lt_or_eq_of_le (dot_self_nonneg b) with h1 | h1
  · exact h1
  · exfalso
    apply h
    simp only [dot] at h1 ⊢
    have hx := mul_self_nonneg b.x; have hy := mul_self_nonneg b.y; have hz := mul_self_nonneg b.z
    have ex : b.x = 0 := mul_self_eq_zero.1 (by linarith)
    have ey : b.y = 0 := mul_self_eq_zero.1 (by linarith)
    have ez : b.z = 0 := mul_self_eq_zero.1 (by linarith)
    rw [ex, ey, ez]; ring

/-- A vector at a right angle. -/
theorem perp (a : Vec K) : ∃ u, dot u a = 0 ∧ 0 < dot u u := by
  by_cases hx : a.x = 0 ∧ a.y = 0
  · refine ⟨⟨1, 0, 0⟩, by simp [dot, hx.1], by simp [dot]⟩
  · refine ⟨⟨-a.y, a.x, 0⟩, by simp only [dot]; ring, ?_⟩
    simp only [dot]
    rcases lt_or_eq_of_le (show 0 ≤ -a.y * -a.y + a.x * a.x + 0 * 0 by nlinarith [mul_self_nonneg a.x, mul_self_nonneg a.y])
      with h1 | h1
    · exact h1
    · exfalso
      apply hx
      have h1' : a.y * a.y + a.x * a.x = 0 := by linarith
      have := mul_self_nonneg a.x; have := mul_self_nonneg a.y
      exact ⟨mul_self_eq_zero.1 (by linarith), mul_self_eq_zero.1 (by linarith)⟩

theorem cross_pos {a b u : Vec K} (h1 : 0 < dot a a) (h2 : dot u a = 0) (h3 : dot u b ≠ 0) :
    0 < dot (cross a b) (cross a b) := by
  rcases lt_or_eq_of_le (dot_self_nonneg (cross a b)) with h | h
  · exact h
  · exfalso
    have hx := mul_self_nonneg (cross a b).x; have hy := mul_self_nonneg (cross a b).y
    have hz := mul_self_nonneg (cross a b).z
    unfold dot at h
    have ex : (cross a b).x = 0 := mul_self_eq_zero.1 (by linarith)
    have ey : (cross a b).y = 0 := mul_self_eq_zero.1 (by linarith)
    have ez : (cross a b).z = 0 := mul_self_eq_zero.1 (by linarith)
    simp only [cross] at ex ey ez
    have : dot a a * dot u b = 0 := by
      simp only [dot] at h2 ⊢
      linear_combination (a.x * b.x + a.y * b.y + a.z * b.z) * h2 + (a.y * u.z - a.z * u.y) * ex +
        (a.z * u.x - a.x * u.z) * ey + (a.x * u.y - a.y * u.x) * ez
    rcases mul_eq_zero.1 this with h | h
    · linarith
    · exact h3 h

/-- The corner. -/
theorem vertex {fs : List (Plane K)} (hb : Bounded fs) {p : Vec K} (hp : In fs p) (g : Vec K) :
    ∃ v, In fs v ∧ dot g p ≤ dot g v ∧ ∃ a ∈ fs, ∃ b ∈ fs, ∃ c ∈ fs, a.distTo v = 0 ∧ b.distTo v = 0 ∧ c.distTo v = 0 ∧
      dot a.normal (cross b.normal c.normal) ≠ 0 := by
  obtain ⟨p1, t1, -, i1, g1, a, ha, a1, na⟩ := leave_along hb (u := ⟨1, 0, 0⟩) g hp (by simp [dot])
  obtain ⟨u, hu, hu0⟩ := perp a.normal
  obtain ⟨p2, t2, e2, i2, g2, b, hbm, b2, nb⟩ := leave_along hb g i1 hu0
  have a2 : a.distTo p2 = 0 := by rw [e2, dist_go, a1, hu]; ring
  obtain ⟨v, t3, e3, i3, g3, c, hc, c3, nc⟩ := leave_along hb g i2 (cross_pos (pos_of_ne na) hu nb)
  refine ⟨v, i3, by linarith, a, ha, b, hbm, c, hc, ?_, ?_, c3, ?_⟩
  · rw [e3, dist_go, a2]
    simp only [dot, cross]; ring
  · rw [e3, dist_go, b2]
    simp only [dot, cross]; ring
  · intro h
    apply nc
    simp only [dot, cross] at h ⊢
    linear_combination h

/-- The point that three planes have in common is found. -/
theorem intersection_eq {a b c : Plane K} {v : Vec K} (ha : a.distTo v = 0) (hb : b.distTo v = 0) (hc : c.distTo v = 0)
    (h : dot a.normal (cross b.normal c.normal) ≠ 0) : intersection a b c = some v := by
  unfold intersection
  simp only [if_neg h]
  simp only [Plane.distTo, dot] at ha hb hc
  obtain ⟨x, y, z⟩ := v
  simp only [Option.some.injEq, Vec.mk.injEq]
  simp only at ha hb hc
  refine ⟨?_, ?_, ?_⟩ <;> rw [div_eq_iff h] <;> simp only [dot, cross]
  · linear_combination (-(b.normal.y * c.normal.z - b.normal.z * c.normal.y)) * ha -
      (c.normal.y * a.normal.z - c.normal.z * a.normal.y) * hb - (a.normal.y * b.normal.z - a.normal.z * b.normal.y) * hc
  · linear_combination (-(b.normal.z * c.normal.x - b.normal.x * c.normal.z)) * ha -
      (c.normal.z * a.normal.x - c.normal.x * a.normal.z) * hb - (a.normal.z * b.normal.x - a.normal.x * b.normal.z) * hc
  · linear_combination (-(b.normal.x * c.normal.y - b.normal.y * c.normal.x)) * ha -
      (c.normal.x * a.normal.y - c.normal.y * a.normal.x) * hb - (a.normal.x * b.normal.y - a.normal.y * b.normal.x) * hc

end Verif.World
