import Verif.BrushBsp.Windings
import Verif.BrushBsp.LeafLemmas

/-! Base polygons and the polygons of a brush. -/

namespace Verif.BrushBsp

open Geom Geom.Spec Spec

set_option linter.unusedSectionVars false

variable {K C : Type} [Field K] [LinearOrder K] [IsStrictOrderedRing K]

/-- A square in a plane, around the foot of the origin. -/
def square (pl : Plane K) (up : Vec K) (w : K) : List (Vec K) :=
  let r := cross up pl.normal
  let org : Vec K := ⟨pl.normal.x * pl.dist, pl.normal.y * pl.dist, pl.normal.z * pl.dist⟩
  let at_ (a b : K) : Vec K := ⟨org.x + a * (r.x * w) + b * (up.x * w), org.y + a * (r.y * w) + b * (up.y * w),
    org.z + a * (r.z * w) + b * (up.z * w)⟩
  [at_ (-1) 1, at_ 1 1, at_ 1 (-1), at_ (-1) (-1)]

theorem square_on {pl : Plane K} (hu : UnitNormal pl) {up : Vec K} (ho : dot up pl.normal = 0) {w : K} :
    ∀ v ∈ square pl up w, pl.distTo v = 0 := by
  have hu' : pl.normal.x * pl.normal.x + pl.normal.y * pl.normal.y + pl.normal.z * pl.normal.z = 1 := hu
  have ho' : up.x * pl.normal.x + up.y * pl.normal.y + up.z * pl.normal.z = 0 := ho
  intro v hv
  simp only [square, List.mem_cons, List.not_mem_nil, or_false] at hv
  rcases hv with rfl | rfl | rfl | rfl <;> simp only [Plane.distTo, dot, cross] <;>
    [linear_combination pl.dist * hu' + w * ho'; linear_combination pl.dist * hu' + w * ho';
     linear_combination pl.dist * hu' - w * ho'; linear_combination pl.dist * hu' - w * ho']

/-- How a point of the plane is made of the two directions. -/
theorem frame {n up : Vec K} (hn : dot n n = 1) (hup : dot up up = 1) (ho : dot up n = 0) (g y : Vec K)
    (hy : dot y n = 0) : dot g y = dot y (cross up n) * dot g (cross up n) + dot y up * dot g up := by
  -- `y` is the sum of its parts along the frame
  have h1 : n.x * n.x + n.y * n.y + n.z * n.z = 1 := hn
  have h2 : up.x * up.x + up.y * up.y + up.z * up.z = 1 := hup
  have h3 : up.x * n.x + up.y * n.y + up.z * n.z = 0 := ho
  have h4 : y.x * n.x + y.y * n.y + y.z * n.z = 0 := hy
  set r := cross up n with hr
  have rx : r.x = up.y * n.z - up.z * n.y := rfl
  have ry : r.y = up.z * n.x - up.x * n.z := rfl
  have rz : r.z = up.x * n.y - up.y * n.x := rfl
  -- cross product of `r` with `n` and with `up`
  have ux : r.z * n.y - r.y * n.z = up.x * 1 - n.x * 0 := by
    rw [ry, rz, ← h1, ← h3]; ring
  have uy : r.x * n.z - r.z * n.x = up.y * 1 - n.y * 0 := by
    rw [rx, rz, ← h1, ← h3]; ring
  have uz : r.y * n.x - r.x * n.y = up.z * 1 - n.z * 0 := by
    rw [rx, ry, ← h1, ← h3]; ring
  have nx : r.y * up.z - r.z * up.y = n.x * 1 - up.x * 0 := by
    rw [ry, rz, ← h2, ← h3]; ring
  have ny : r.z * up.x - r.x * up.z = n.y * 1 - up.y * 0 := by
    rw [rx, rz, ← h2, ← h3]; ring
  have nz : r.x * up.y - r.y * up.x = n.z * 1 - up.z * 0 := by
    rw [rx, ry, ← h2, ← h3]; ring
  have yr : dot y r = y.x * r.x + y.y * r.y + y.z * r.z := rfl
  have yu : dot y up = y.x * up.x + y.y * up.y + y.z * up.z := rfl
  have rr : r.x * r.x + r.y * r.y + r.z * r.z = 1 := by
    have : r.x * r.x + r.y * r.y + r.z * r.z = (up.x * up.x + up.y * up.y + up.z * up.z) *
        (n.x * n.x + n.y * n.y + n.z * n.z) - (up.x * n.x + up.y * n.y + up.z * n.z) * (up.x * n.x + up.y * n.y + up.z * n.z) := by
      rw [rx, ry, rz]; ring
    rw [this, h1, h2, h3]; ring
  have ru : r.x * up.x + r.y * up.y + r.z * up.z = 0 := by rw [rx, ry, rz]; ring
  have rn : r.x * n.x + r.y * n.y + r.z * n.z = 0 := by rw [rx, ry, rz]; ring
  -- the rest is orthogonal to all three
  set zx := y.x - dot y r * r.x - dot y up * up.x with hzx
  set zy := y.y - dot y r * r.y - dot y up * up.y with hzy
  set zz := y.z - dot y r * r.z - dot y up * up.z with hzz
  have z1 : zx * n.x + zy * n.y + zz * n.z = 0 := by
    rw [hzx, hzy, hzz]; linear_combination h4 - dot y r * rn - dot y up * h3
  have z2 : zx * r.x + zy * r.y + zz * r.z = 0 := by
    rw [hzx, hzy, hzz]; linear_combination -yr - dot y r * rr - dot y up * ru
  have z3 : zx * up.x + zy * up.y + zz * up.z = 0 := by
    rw [hzx, hzy, hzz]; linear_combination -yu - dot y r * ru - dot y up * h2
  have det : n.x * (r.y * up.z - r.z * up.y) + n.y * (r.z * up.x - r.x * up.z) + n.z * (r.x * up.y - r.y * up.x) = 1 := by
    rw [nx, ny, nz]; linear_combination h1
  have hx : zx = 0 := by
    linear_combination (r.y * up.z - r.z * up.y) * z1 + (up.y * n.z - up.z * n.y) * z2 + (n.y * r.z - n.z * r.y) * z3 - zx * det
  have hy' : zy = 0 := by
    linear_combination (r.z * up.x - r.x * up.z) * z1 + (up.z * n.x - up.x * n.z) * z2 + (n.z * r.x - n.x * r.z) * z3 - zy * det
  have hz : zz = 0 := by
    linear_combination (r.x * up.y - r.y * up.x) * z1 + (up.x * n.y - up.y * n.x) * z2 + (n.x * r.y - n.y * r.x) * z3 - zz * det
  have ex : y.x = dot y r * r.x + dot y up * up.x := by linarith
  have ey : y.y = dot y r * r.y + dot y up * up.y := by linarith
  have ez : y.z = dot y r * r.z + dot y up * up.z := by linarith
  have gy : dot g y = g.x * y.x + g.y * y.y + g.z * y.z := rfl
  have gr : dot g r = g.x * r.x + g.y * r.y + g.z * r.z := rfl
  have gu : dot g up = g.x * up.x + g.y * up.y + g.z * up.z := rfl
  rw [gr, gu]
  linear_combination gy + g.x * ex + g.y * ey + g.z * ez

theorem square_spans {pl : Plane K} (hu : UnitNormal pl) {up : Vec K} (hup : dot up up = 1) (ho : dot up pl.normal = 0)
    {w : K} (hw : 0 ≤ w) {q : Vec K} (hq : pl.distTo q = 0) (hb : dot q q ≤ w * w) : InHull (square pl up w) q := by
  set r := cross up pl.normal with hr
  set org : Vec K := ⟨pl.normal.x * pl.dist, pl.normal.y * pl.dist, pl.normal.z * pl.dist⟩ with horg
  set y : Vec K := ⟨q.x - org.x, q.y - org.y, q.z - org.z⟩ with hy
  have hu' : pl.normal.x * pl.normal.x + pl.normal.y * pl.normal.y + pl.normal.z * pl.normal.z = 1 := hu
  have hq' : q.x * pl.normal.x + q.y * pl.normal.y + q.z * pl.normal.z - pl.dist = 0 := hq
  have yn : dot y pl.normal = 0 := by
    simp only [hy, horg, dot]; linear_combination hq' - pl.dist * hu'
  have fr := fun g => frame hu hup ho g y yn
  have yy := fr y
  have qq : dot q q = pl.dist * pl.dist + dot y y := by
    simp only [hy, horg, dot]
    linear_combination 2 * pl.dist * hq' - pl.dist * pl.dist * hu'
  have sq : ∀ a : K, a * a ≤ w * w → -w ≤ a ∧ a ≤ w := fun a h => abs_le.1 (abs_le_of_sq_le_sq (by simpa [sq] using h) hw)
  have d0 := mul_self_nonneg pl.dist
  have r0 := mul_self_nonneg (dot y r)
  have u0 := mul_self_nonneg (dot y up)
  obtain ⟨r1, r2⟩ := sq (dot y r) (by rw [← hr] at yy; linarith)
  obtain ⟨u1, u2⟩ := sq (dot y up) (by rw [← hr] at yy; linarith)
  intro g
  have gq : dot g q = dot g org + dot g y := by simp only [hy, dot]; ring
  have hv : ∀ a b : K, dot g ⟨org.x + a * (r.x * w) + b * (up.x * w), org.y + a * (r.y * w) + b * (up.y * w),
    org.z + a * (r.z * w) + b * (up.z * w)⟩ = dot g org + a * (w * dot g r) + b * (w * dot g up) := by
    intro a b; simp only [dot]; ring
  have fg := fr g
  rw [← hr] at fg
  have bound : ∀ a c : K, -w ≤ a → a ≤ w → (0 ≤ c → a * c ≤ 1 * (w * c)) ∧ (c ≤ 0 → a * c ≤ (-1) * (w * c)) := by
    intro a c h1 h2
    refine ⟨fun hc => ?_, fun hc => ?_⟩
    · have := mul_le_mul_of_nonneg_right h2 hc; linarith
    · have := mul_le_mul_of_nonpos_right h1 hc; linarith
  obtain ⟨br1, br2⟩ := bound (dot y r) (dot g r) r1 r2
  obtain ⟨bu1, bu2⟩ := bound (dot y up) (dot g up) u1 u2
  rcases le_total 0 (dot g r) with hgr | hgr <;> rcases le_total 0 (dot g up) with hgu | hgu
  · refine ⟨_, List.mem_cons_of_mem _ List.mem_cons_self, ?_⟩
    rw [hv 1 1, gq, fg]; linarith [br1 hgr, bu1 hgu]
  · refine ⟨_, List.mem_cons_of_mem _ (List.mem_cons_of_mem _ List.mem_cons_self), ?_⟩
    rw [hv 1 (-1), gq, fg]; linarith [br1 hgr, bu2 hgu]
  · refine ⟨_, List.mem_cons_self, ?_⟩
    rw [hv (-1) 1, gq, fg]; linarith [br2 hgr, bu1 hgu]
  · refine ⟨_, List.mem_cons_of_mem _ (List.mem_cons_of_mem _ (List.mem_cons_of_mem _ List.mem_cons_self)), ?_⟩
    rw [hv (-1) (-1), gq, fg]; linarith [br2 hgr, bu2 hgu]

theorem square_convex {pl : Plane K} (hu : UnitNormal pl) {up : Vec K} (hup : dot up up = 1) (ho : dot up pl.normal = 0)
    {w : K} : ConvexPoly (square pl up w) := by
  set r := cross up pl.normal with hr
  have hu' : pl.normal.x * pl.normal.x + pl.normal.y * pl.normal.y + pl.normal.z * pl.normal.z = 1 := hu
  have h2 : up.x * up.x + up.y * up.y + up.z * up.z = 1 := hup
  have h3 : up.x * pl.normal.x + up.y * pl.normal.y + up.z * pl.normal.z = 0 := ho
  have rx : r.x = up.y * pl.normal.z - up.z * pl.normal.y := rfl
  have ry : r.y = up.z * pl.normal.x - up.x * pl.normal.z := rfl
  have rz : r.z = up.x * pl.normal.y - up.y * pl.normal.x := rfl
  have nx : r.y * up.z - r.z * up.y = pl.normal.x := by
    have : r.y * up.z - r.z * up.y = pl.normal.x * 1 - up.x * 0 := by rw [ry, rz, ← h2, ← h3]; ring
    linarith
  have ny : r.z * up.x - r.x * up.z = pl.normal.y := by
    have : r.z * up.x - r.x * up.z = pl.normal.y * 1 - up.y * 0 := by rw [rx, rz, ← h2, ← h3]; ring
    linarith
  have nz : r.x * up.y - r.y * up.x = pl.normal.z := by
    have : r.x * up.y - r.y * up.x = pl.normal.z * 1 - up.z * 0 := by rw [rx, ry, ← h2, ← h3]; ring
    linarith
  refine ⟨⟨-pl.normal.x, -pl.normal.y, -pl.normal.z⟩, -pl.dist, ?_, ?_, ?_⟩
  · simp only [dot]; linarith
  · intro v hv
    have := square_on hu ho v hv
    simp only [Plane.distTo, dot] at *; linarith
  · -- the turn at three corners is a multiple of the area
    set org : Vec K := ⟨pl.normal.x * pl.dist, pl.normal.y * pl.dist, pl.normal.z * pl.dist⟩ with horg
    have key : ∀ a b c d e f : K,
        turnOf ⟨-pl.normal.x, -pl.normal.y, -pl.normal.z⟩
          ⟨org.x + a * (r.x * w) + b * (up.x * w), org.y + a * (r.y * w) + b * (up.y * w), org.z + a * (r.z * w) + b * (up.z * w)⟩
          ⟨org.x + c * (r.x * w) + d * (up.x * w), org.y + c * (r.y * w) + d * (up.y * w), org.z + c * (r.z * w) + d * (up.z * w)⟩
          ⟨org.x + e * (r.x * w) + f * (up.x * w), org.y + e * (r.y * w) + f * (up.y * w), org.z + e * (r.z * w) + f * (up.z * w)⟩ =
        -(((c - a) * (f - b) - (d - b) * (e - a)) * (w * w)) := by
      intro a b c d e f
      have e1 : turnOf ⟨-pl.normal.x, -pl.normal.y, -pl.normal.z⟩
          ⟨org.x + a * (r.x * w) + b * (up.x * w), org.y + a * (r.y * w) + b * (up.y * w), org.z + a * (r.z * w) + b * (up.z * w)⟩
          ⟨org.x + c * (r.x * w) + d * (up.x * w), org.y + c * (r.y * w) + d * (up.y * w), org.z + c * (r.z * w) + d * (up.z * w)⟩
          ⟨org.x + e * (r.x * w) + f * (up.x * w), org.y + e * (r.y * w) + f * (up.y * w), org.z + e * (r.z * w) + f * (up.z * w)⟩ =
          -(((c - a) * (f - b) - (d - b) * (e - a)) * (w * w)) * (pl.normal.x * (r.y * up.z - r.z * up.y) +
            pl.normal.y * (r.z * up.x - r.x * up.z) + pl.normal.z * (r.x * up.y - r.y * up.x)) := by
        simp only [turnOf]; ring
      rw [e1, nx, ny, nz, hu']; ring
    have w2 := mul_self_nonneg w
    intro e he c hc
    have hc' : ∃ a b : K, (a = 1 ∨ a = -1) ∧ (b = 1 ∨ b = -1) ∧
        c = ⟨org.x + a * (r.x * w) + b * (up.x * w), org.y + a * (r.y * w) + b * (up.y * w), org.z + a * (r.z * w) + b * (up.z * w)⟩ := by
      simp only [square, List.mem_cons, List.not_mem_nil, or_false] at hc
      rcases hc with rfl | rfl | rfl | rfl
      · exact ⟨-1, 1, Or.inr rfl, Or.inl rfl, rfl⟩
      · exact ⟨1, 1, Or.inl rfl, Or.inl rfl, rfl⟩
      · exact ⟨1, -1, Or.inl rfl, Or.inr rfl, rfl⟩
      · exact ⟨-1, -1, Or.inr rfl, Or.inr rfl, rfl⟩
    obtain ⟨a, b, ha, hb, rfl⟩ := hc'
    simp only [square, edges, pairs, List.cons_append, List.nil_append, List.mem_cons, List.not_mem_nil, or_false] at he
    rcases he with rfl | rfl | rfl | rfl
    · have := key (-1) 1 1 1 a b
      rcases ha with rfl | rfl <;> rcases hb with rfl | rfl <;> (refine le_of_le_of_eq ?_ this.symm; linarith)
    · have := key 1 1 1 (-1) a b
      rcases ha with rfl | rfl <;> rcases hb with rfl | rfl <;> (refine le_of_le_of_eq ?_ this.symm; linarith)
    · have := key 1 (-1) (-1) (-1) a b
      rcases ha with rfl | rfl <;> rcases hb with rfl | rfl <;> (refine le_of_le_of_eq ?_ this.symm; linarith)
    · have := key (-1) (-1) (-1) 1 a b
      rcases ha with rfl | rfl <;> rcases hb with rfl | rfl <;> (refine le_of_le_of_eq ?_ this.symm; linarith)

end Verif.BrushBsp
