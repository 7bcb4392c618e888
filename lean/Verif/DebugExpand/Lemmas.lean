import Verif.DebugExpand.Spec
import Verif.NodePortal.Lemmas

/-! Lemmas about planes that are moved by a box. -/

namespace Verif.DebugExpand

open Verif.Geom Verif.Geom.Spec Verif.NodePortal Spec

set_option linter.unusedSectionVars false

variable {K Tex : Type} [Field K] [LinearOrder K] [IsStrictOrderedRing K]

theorem up_perp {n : Vec K} (hu : dot n n = 1) :
    let v := plus (upAxis n) (times n (-(dot (upAxis n) n)))
    0 < dot v v := by
  have h1 : n.x * n.x + n.y * n.y + n.z * n.z = 1 := hu
  have hx := mul_self_nonneg n.x
  have hy := mul_self_nonneg n.y
  have hz := mul_self_nonneg n.z
  by_cases hc : |n.z| > (if |n.y| > |n.x| then |n.y| else |n.x|)
  · have hv : upAxis n = ⟨1, 0, 0⟩ := if_pos hc
    have hlt : n.x * n.x < n.z * n.z := by
      apply abs_lt_iff_mul_self_lt.mp
      split at hc
      · rename_i h; exact lt_trans h hc
      · exact hc
    rw [hv]
    simp only [dot, plus, times]
    nlinarith
  · have hv : upAxis n = ⟨0, 0, 1⟩ := if_neg hc
    have hle : n.z * n.z ≤ n.x * n.x + n.y * n.y := by
      have hc := not_lt.mp hc
      split at hc
      · have := abs_le_iff_mul_self_le.mp hc; linarith
      · have := abs_le_iff_mul_self_le.mp hc; linarith
    rw [hv]
    simp only [dot, plus, times]
    nlinarith

/-- The plane through the first three points of the square of a plane is that plane, facing the same way. -/
theorem square_normal {inv : Vec K → K} (hi : LikeInverseLength inv) {pl : Plane K} (hu : UnitNormal pl) {extent : K} (he : 0 < extent) :
    ∃ w0 w1 w2 w3 k, fromPlane inv pl extent = [w0, w1, w2, w3] ∧ 0 < k ∧ pl.distTo w1 = 0 ∧
      cross (minus w0 w1) (minus w2 w1) = times pl.normal k := by
  have hp := up_perp hu
  have hpos := hi _ hp
  have hon := fromPlane_on inv hu extent
  obtain ⟨n, d⟩ := pl
  have h1 : n.x * n.x + n.y * n.y + n.z * n.z = 1 := hu
  simp only at hp hpos
  generalize hv : plus (upAxis n) (times n (-(dot (upAxis n) n))) = v at hp hpos
  have hperp : v.x * n.x + v.y * n.y + v.z * n.z = 0 := by
    rw [← hv]
    simp only [plus, times, dot]
    linear_combination (-((upAxis n).x * n.x + (upAxis n).y * n.y + (upAxis n).z * n.z)) * h1
  refine ⟨_, _, _, _, 4 * extent * extent * inv v * inv v * dot v v, rfl, ?_, hon _ (by simp [fromPlane]), ?_⟩
  · have := mul_pos (mul_pos he he) (mul_pos (mul_pos hpos hpos) hp)
    linarith
  · simp only [hv]
    simp only [cross, minus, plus, times, dot, Vec.mk.injEq]
    generalize inv v = c
    refine ⟨?_, ?_, ?_⟩
    · linear_combination (-4 * extent * extent * c * c * v.x) * hperp
    · linear_combination (-4 * extent * extent * c * c * v.y) * hperp
    · linear_combination (-4 * extent * extent * c * c * v.z) * hperp

theorem cornerPart_max {n lo hi v : K} (h1 : lo ≤ v) (h2 : v ≤ hi) : v * n ≤ cornerPart n lo hi * n := by
  unfold cornerPart
  split
  · rename_i h; exact mul_le_mul_of_nonneg_right h2 h.le
  · split
    · rename_i h; exact mul_le_mul_of_nonpos_right h1 h.le
    · have : n = 0 := by linarith
      simp [this]

theorem cornerPart_in {n lo hi : K} (h : lo ≤ hi) : ∃ v, (lo ≤ v ∧ v ≤ hi) ∧ v * n = cornerPart n lo hi * n := by
  unfold cornerPart
  split
  · exact ⟨hi, ⟨h, le_refl _⟩, rfl⟩
  · split
    · exact ⟨lo, ⟨le_refl _, h⟩, rfl⟩
    · have : n = 0 := by linarith
      exact ⟨lo, ⟨le_refl _, h⟩, by simp [this]⟩

/-- What is behind the moved plane is what is behind the plane, moved by the vectors of the hull. -/
theorem grown_iff {pl : Plane K} {h : Hull K} (hh : ∃ v, InHullBox h v) (q : Vec K) :
    Behind (grown pl h) q ↔ ∃ p v, Behind pl p ∧ InHullBox h v ∧ q = plus p v := by
  obtain ⟨u, ⟨ux, ux'⟩, ⟨uy, uy'⟩, uz, uz'⟩ := hh
  constructor
  · intro hq
    obtain ⟨x, hx, ex⟩ := cornerPart_in (n := pl.normal.x) (le_trans ux ux')
    obtain ⟨y, hy, ey⟩ := cornerPart_in (n := pl.normal.y) (le_trans uy uy')
    obtain ⟨z, hz, ez⟩ := cornerPart_in (n := pl.normal.z) (le_trans uz uz')
    refine ⟨minus q ⟨x, y, z⟩, ⟨x, y, z⟩, ?_, ⟨hx, hy, hz⟩, by simp [plus, minus]⟩
    simp only [Behind, grown, dot, corner, minus] at hq ⊢
    rw [← ex, ← ey, ← ez] at hq
    linarith
  · rintro ⟨p, v, hp, ⟨⟨x1, x2⟩, ⟨y1, y2⟩, z1, z2⟩, rfl⟩
    have ex := cornerPart_max (n := pl.normal.x) x1 x2
    have ey := cornerPart_max (n := pl.normal.y) y1 y2
    have ez := cornerPart_max (n := pl.normal.z) z1 z2
    simp only [Behind, grown, dot, corner, plus] at hp ⊢
    linarith

theorem behindFace_iff {pl : Plane K} {f : Face K Tex} {k : K} (hk : 0 < k) (h1 : pl.distTo f.p1 = 0)
    (h : cross (minus f.p0 f.p1) (minus f.p2 f.p1) = times pl.normal k) (q : Vec K) : BehindFace f q ↔ Behind pl q := by
  unfold BehindFace
  rw [h]
  have e : dot (minus q f.p1) (times pl.normal k) = k * (dot q pl.normal - pl.dist) := by
    simp only [Plane.distTo, dot] at h1
    simp only [dot, minus, times]
    linear_combination (-k) * h1
  rw [e]
  constructor
  · intro hq
    by_contra hn
    have := mul_pos hk (sub_pos.mpr (not_le.mp hn))
    linarith
  · intro hq
    exact mul_nonpos_of_nonneg_of_nonpos hk.le (sub_nonpos.mpr hq)

theorem writeFace_ok {inv : Vec K → K} (hi : LikeInverseLength inv) {extent : K} (he : 0 < extent) {h : Hull K} {f : Plane K × Tex}
    (hu : UnitNormal f.1) : ∃ o, writeFace inv extent h f = .ok o ∧ o.tex = f.2 ∧ Spans o ∧ ∀ q, BehindFace o q ↔ Behind (grown f.1 h) q := by
  obtain ⟨w0, w1, w2, w3, k, e, hk, h1, hc⟩ := square_normal hi (pl := grown f.1 h) hu he
  refine ⟨⟨w0, w1, w2, f.2⟩, by simp [writeFace, e], rfl, ?_, behindFace_iff hk h1 hc⟩
  simp only [Spans, hc]
  have hn : dot (grown f.1 h).normal (grown f.1 h).normal = 1 := hu
  have : dot (times (grown f.1 h).normal k) (times (grown f.1 h).normal k) = k * k := by
    simp only [dot, times] at hn ⊢
    linear_combination (k * k) * hn
  rw [this]
  exact mul_pos hk hk

end Verif.DebugExpand
