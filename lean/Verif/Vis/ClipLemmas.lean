import Verif.Vis.SightSpec
import Verif.BrushBsp.Hull
import Mathlib.Algebra.Order.Field.Basic
import Mathlib.Tactic.Positivity

/-! Lemmas about clipping windings of vis without a tolerance. -/

namespace Verif.Vis

open Verif.Geom Verif.Geom.Spec

set_option linter.unusedSectionVars false

variable {K : Type} [Field K] [LinearOrder K] [IsStrictOrderedRing K]

theorem dot_comm (a b : Vec K) : dot a b = dot b a := by simp only [dot]; ring

theorem negPlane_eq (pl : Plane K) : negPlane pl = pl.neg := rfl

/-- The sphere of a winding reaches as far as its vertices in all directions. -/
def Reach0 (w : SWind K) : Prop :=
  ∀ N : Vec K, dot N N = 1 → ∀ v ∈ w.pts, dot N v ≤ dot N w.origin + w.radius

/-- A convex winding in a plane with a sphere around it. -/
structure WOk (pl : Plane K) (w : SWind K) : Prop where
  convex : ConvexIn pl.normal pl.dist w.pts
  sphere : Reach0 w

/-- The sphere given by squares reaches far enough. -/
theorem reach_of_sphere {w : SWind K} (hr : 0 ≤ w.radius)
    (h : ∀ v ∈ w.pts, (v.x - w.origin.x) ^ 2 + (v.y - w.origin.y) ^ 2 + (v.z - w.origin.z) ^ 2 ≤ w.radius ^ 2) :
    Reach0 w := by
  intro N hN v hv
  have hs := h v hv
  have key : (dot N v - dot N w.origin) ^ 2 ≤ w.radius ^ 2 := by
    refine le_trans ?_ hs
    have e : (dot N v - dot N w.origin) ^ 2 =
        dot N N * ((v.x - w.origin.x) ^ 2 + (v.y - w.origin.y) ^ 2 + (v.z - w.origin.z) ^ 2) -
        ((N.x * (v.y - w.origin.y) - N.y * (v.x - w.origin.x)) ^ 2 +
         (N.y * (v.z - w.origin.z) - N.z * (v.y - w.origin.y)) ^ 2 +
         (N.z * (v.x - w.origin.x) - N.x * (v.z - w.origin.z)) ^ 2) := by
      simp only [dot]; ring
    rw [e, hN]
    have h1 := sq_nonneg (N.x * (v.y - w.origin.y) - N.y * (v.x - w.origin.x))
    have h2 := sq_nonneg (N.y * (v.z - w.origin.z) - N.z * (v.y - w.origin.y))
    have h3 := sq_nonneg (N.z * (v.x - w.origin.x) - N.x * (v.z - w.origin.z))
    linarith
  have := (abs_le.1 (abs_le_of_sq_le_sq key hr)).2
  linarith

theorem inside_hull {pl : Plane K} {w : List (Vec K)} {x : Vec K} (h : Inside pl w x) : InHull w x := by
  obtain ⟨h0, r, hr, h⟩ := h
  exact h x h0 (by simpa using hr.le) (by simpa using hr.le) (by simpa using hr.le)

theorem distTo_diff (pl : Plane K) (x y : Vec K) : pl.distTo y =
    pl.distTo x + (pl.normal.x * (y.x - x.x) + pl.normal.y * (y.y - x.y) + pl.normal.z * (y.z - x.z)) := by
  simp only [Plane.distTo, dot]; ring

theorem mul_ge_of_abs {a b r : K} (h : |b| ≤ r) : -(|a| * r) ≤ a * b := by
  have h1 : |a * b| ≤ |a| * r := by rw [abs_mul]; exact mul_le_mul_of_nonneg_left h (abs_nonneg a)
  exact (abs_le.1 h1).1

/-- An inner point in front of a plane is an inner point of the part in front of the plane. -/
theorem inside_part {pl cut : Plane K} {w f : List (Vec K)} {x : Vec K} (hu : UnitNormal cut)
    (hw : ConvexIn pl.normal pl.dist w) (hp : Part cut 0 w f) (h : Inside pl w x) (hd : 0 < cut.distTo x) :
    Inside pl f x := by
  obtain ⟨h0, r, hr, h⟩ := h
  set s := |cut.normal.x| + |cut.normal.y| + |cut.normal.z| + 1 with hs
  have hspos : 0 < s := by have := abs_nonneg cut.normal.x; have := abs_nonneg cut.normal.y; have := abs_nonneg cut.normal.z; linarith
  refine ⟨h0, min r (cut.distTo x / s), lt_min hr (div_pos hd hspos), ?_⟩
  intro y hy hx1 hy1 hz1
  have hm := min_le_left r (cut.distTo x / s)
  refine part_hull hu hw hp (h y hy (hx1.trans hm) (hy1.trans hm) (hz1.trans hm)) ?_
  set q := min r (cut.distTo x / s) with hq
  have hq0 : 0 ≤ q := le_trans (abs_nonneg _) hx1
  have hqs : q * s ≤ cut.distTo x := by
    rw [← le_div_iff₀ hspos]; exact min_le_right _ _
  have e1 := mul_ge_of_abs (a := cut.normal.x) hx1
  have e2 := mul_ge_of_abs (a := cut.normal.y) hy1
  have e3 := mul_ge_of_abs (a := cut.normal.z) hz1
  rw [distTo_diff cut x y]
  have : q * s = |cut.normal.x| * q + |cut.normal.y| * q + |cut.normal.z| * q + q := by rw [hs]; ring
  linarith

/-- What clipping leaves: the whole winding, or the part in front of the plane. -/
theorem clipStack_part {w w' : SWind K} {cut : Plane K} (h : clipStack 0 w cut = some w') :
    w' = w ∨ (Part cut 0 w.pts w'.pts ∧ w'.origin = w.origin ∧ w'.radius = w.radius) := by
  unfold clipStack at h
  split at h
  · simp at h
  split at h
  · left; simpa using h.symm
  split at h
  · left; simpa using h.symm
  split at h
  · simp at h
  split at h
  · left; simpa using h.symm
  split at h
  · left; simpa using h.symm
  · rename_i first rest he
    simp only at h
    split at h
    · right
      simp only [Option.some.injEq] at h
      subst h
      refine ⟨Or.inr ⟨first, rest, calcSides cut 0 w.pts, he, ?_, rfl⟩, rfl, rfl⟩
      rw [he]; exact infos_calcSides cut 0 first rest
    · left; simpa using h.symm

theorem clipStack_ok {pl cut : Plane K} {w w' : SWind K} (hu : UnitNormal cut) (hw : WOk pl w)
    (h : clipStack 0 w cut = some w') : WOk pl w' := by
  rcases clipStack_part h with rfl | ⟨hp, ho, hr⟩
  · exact hw
  · refine ⟨part_convex hu hw.convex hp, ?_⟩
    intro N hN v hv
    obtain ⟨a, ha, b, hb, t, t0, t1, rfl⟩ := part_onSeg (le_refl 0) hu hp v hv
    rw [ho, hr, dot_along]
    have h1 := mul_le_mul_of_nonneg_left (hw.sphere N hN a ha) (by linarith : 0 ≤ 1 - t)
    have h2 := mul_le_mul_of_nonneg_left (hw.sphere N hN b hb) t0
    nlinarith

/-- Clipping keeps the inner points in front of the plane. -/
theorem clipStack_inside {pl cut : Plane K} {w : SWind K} {x : Vec K} (hu : UnitNormal cut) (hw : WOk pl w)
    (hx : Inside pl w.pts x) (hd : 0 < cut.distTo x) :
    ∃ w', clipStack 0 w cut = some w' ∧ Inside pl w'.pts x := by
  have hh := inside_hull hx
  obtain ⟨v, hv, hvx⟩ := hh cut.normal
  have hdv : 0 < cut.distTo v := by
    simp only [Plane.distTo] at hd ⊢
    rw [dot_comm] at hd ⊢; linarith
  have hsome : clipStack 0 w cut ≠ none := by
    unfold clipStack
    have hs := hw.sphere cut.normal hu v hv
    split
    · rename_i hlt
      simp only [Plane.distTo] at hlt hdv
      rw [dot_comm] at hlt hdv
      linarith
    split
    · simp
    split
    · simp
    split
    · rename_i hc
      exact absurd (by simp [sideOf, hdv]) (countSide_zero.1 hc v hv)
    split
    · simp
    split
    · simp
    · simp only; split <;> simp
  obtain ⟨w', hw'⟩ := Option.ne_none_iff_exists'.1 hsome
  refine ⟨w', hw', ?_⟩
  rcases clipStack_part hw' with rfl | ⟨hp, _, _⟩
  · exact hx
  · exact inside_part hu hw.convex hp hx hd

theorem clipAll_ok {pl : Plane K} {pls : List (Plane K)} (hu : ∀ p ∈ pls, UnitNormal p) {w w' : SWind K}
    (hw : WOk pl w) (h : clipAll 0 pls w = some w') : WOk pl w' := by
  induction pls generalizing w with
  | nil => simp only [clipAll, Option.some.injEq] at h; exact h ▸ hw
  | cons p pls ih =>
    simp only [clipAll] at h
    split at h
    · simp at h
    · rename_i t ht
      exact ih (fun q hq => hu q (List.mem_cons_of_mem _ hq)) (clipStack_ok (hu p List.mem_cons_self) hw ht) h

theorem clipAll_inside {pl : Plane K} {pls : List (Plane K)} (hu : ∀ p ∈ pls, UnitNormal p) {w : SWind K}
    {x : Vec K} (hw : WOk pl w) (hx : Inside pl w.pts x) (hd : ∀ p ∈ pls, 0 < p.distTo x) :
    ∃ w', clipAll 0 pls w = some w' ∧ Inside pl w'.pts x := by
  induction pls generalizing w with
  | nil => exact ⟨w, rfl, hx⟩
  | cons p pls ih =>
    obtain ⟨t, ht, hxt⟩ := clipStack_inside (hu p List.mem_cons_self) hw hx (hd p List.mem_cons_self)
    simp only [clipAll, ht]
    exact ih (fun q hq => hu q (List.mem_cons_of_mem _ hq)) (clipStack_ok (hu p List.mem_cons_self) hw ht) hxt
      (fun q hq => hd q (List.mem_cons_of_mem _ hq))

/-! ### Separating planes -/

theorem ring_edges (w : List (Vec K)) : ring w = edges w := by
  cases w with
  | nil => rfl
  | cons a w =>
    have key : ∀ (b : Vec K) (l : List (Vec K)), (b :: l).zip (l ++ [a]) = pairs (b :: (l ++ [a])) := by
      intro b l
      induction l generalizing b with
      | nil => simp [pairs]
      | cons c l ih => simp only [List.cons_append, List.zip_cons_cons, pairs, ih]
    simpa [ring, edges] using key a w

/-- What an attempt that succeeds has found. -/
theorem trySep_spec {cfg : Cfg K} (hc : CfgOk cfg) {srcPl : Plane K} {a b : Vec K} {pass : List (Vec K)} {j : Nat}
    {sep : Plane K} (h : trySep cfg srcPl a b pass j = some sep) :
    ∃ p ∈ pass, ∃ s : K, sep.normal = ⟨s * (crossAt a b p).x, s * (crossAt a b p).y, s * (crossAt a b p).z⟩ ∧
      sep.dist = dot p sep.normal ∧ UnitNormal sep ∧ 0 < s * srcPl.distTo p ∧ (∀ q ∈ pass, 0 ≤ sep.distTo q) := by
  unfold trySep at h
  split at h
  · simp at h
  rename_i p hp
  simp only [hc.on, neg_zero] at h
  split at h
  · simp at h
  rename_i hd
  split at h
  · simp at h
  rename_i hl
  generalize hS : (if srcPl.distTo p < 0 then
    negPlane { normal := cfg.unit (crossAt a b p), dist := dot p (cfg.unit (crossAt a b p)) } else
    { normal := cfg.unit (crossAt a b p), dist := dot p (cfg.unit (crossAt a b p)) }) = S at h
  split at h
  · simp at h
  rename_i hall
  split at h
  · simp at h
  simp only [Option.some.injEq] at h
  subst h
  rename_i hsome
  have h := hS
  obtain ⟨c, hc0, hcu, hc1⟩ := hc.unit (crossAt a b p) (not_lt.1 hl)
  have hmem : p ∈ pass := List.mem_of_getElem? hp
  have hothers : ∀ q ∈ pass, q = p ∨ q ∈ pass.eraseIdx j := by
    intro q hq
    obtain ⟨hj, hjp⟩ := List.getElem?_eq_some_iff.1 hp
    obtain ⟨i, hi, rfl⟩ := List.getElem_of_mem hq
    by_cases e : i = j
    · left; subst e; exact hjp
    · right
      exact List.mem_eraseIdx_iff_getElem.2 ⟨i, hi, e, rfl⟩
  have self : ∀ n : Vec K, (⟨n, dot p n⟩ : Plane K).distTo p = 0 := by intro n; simp [Plane.distTo]
  have front : ∀ q ∈ pass, 0 ≤ S.distTo q := by
    intro q hq
    rcases hothers q hq with rfl | hq'
    · rw [← h]
      split
      · rw [negPlane_eq, neg_distTo, self, neg_zero]
      · rw [self]
    · by_contra hlt
      push Not at hlt
      apply hall
      rw [List.any_eq_true]
      refine ⟨q, hq', ?_⟩
      simpa using hlt
  have hu0 : UnitNormal (⟨cfg.unit (crossAt a b p), dot p (cfg.unit (crossAt a b p))⟩ : Plane K) := hc1
  by_cases hneg : srcPl.distTo p < 0
  · rw [if_pos hneg] at h
    refine ⟨p, hmem, -c, ?_, ?_, ?_, mul_pos_of_neg_of_neg (by linarith) hneg, front⟩
    · rw [← h, hcu]; simp [negPlane]
    · rw [← h]; simp only [negPlane, dot]; ring
    · rw [← h]; exact neg_unit hu0
  · rw [if_neg hneg] at h
    have hpos : 0 < srcPl.distTo p := by
      by_contra hcon
      exact hd ⟨hneg, by simpa using not_lt.1 hcon⟩
    refine ⟨p, hmem, c, ?_, ?_, ?_, mul_pos hc0 hpos, front⟩
    · rw [← h, hcu]
    · rw [← h]
    · rw [← h]; exact hu0

/-- The plane is behind the source and in front of the pass winding: an inner point of the source is behind it. -/
theorem trySep_behind {cfg : Cfg K} (hc : CfgOk cfg) {srcPl : Plane K} {src : List (Vec K)} {e : Vec K × Vec K}
    (hsrc : ConvexIn srcPl.normal srcPl.dist src) (he : e ∈ edges src) {pass : List (Vec K)} {j : Nat}
    {sep : Plane K} (h : trySep cfg srcPl e.1 e.2 pass j = some sep) {x : Vec K} (hx : Inside srcPl src x) :
    sep.distTo x < 0 := by
  obtain ⟨p, hp, s, hn, hdist, hu, hs, hfront⟩ := trySep_spec hc h
  obtain ⟨m1, m2⟩ := mem_edges he
  have f1 := hsrc.flat _ m1
  have f2 := hsrc.flat _ m2
  have hne := hsrc.ne
  set n := srcPl.normal with hnn
  set D := srcPl.dist with hD
  -- all vertices of the source are behind the plane
  have vert : ∀ v ∈ src, sep.distTo v ≤ 0 := by
    intro v hv
    have ht := hsrc.turns e he v hv
    have fv := hsrc.flat v hv
    -- the distance is a multiple of the turn
    have e1 : dot n n * sep.distTo v = -(s * srcPl.distTo p) * turnOf n e.1 e.2 v := by
      simp only [Plane.distTo, hdist, hn, dot, turnOf, crossAt, ← hnn, ← hD] at f1 f2 fv ⊢
      linear_combination
        (-s * ((n.y * (v.z - e.1.z) - n.z * (v.y - e.1.y)) * (p.x - e.1.x) +
          (n.z * (v.x - e.1.x) - n.x * (v.z - e.1.z)) * (p.y - e.1.y) +
          (n.x * (v.y - e.1.y) - n.y * (v.x - e.1.x)) * (p.z - e.1.z))) * (f2 - f1) +
        (s * ((n.y * (e.2.z - e.1.z) - n.z * (e.2.y - e.1.y)) * (p.x - e.1.x) +
          (n.z * (e.2.x - e.1.x) - n.x * (e.2.z - e.1.z)) * (p.y - e.1.y) +
          (n.x * (e.2.y - e.1.y) - n.y * (e.2.x - e.1.x)) * (p.z - e.1.z))) * (fv - f1) +
        (s * (n.x * ((e.2.y - e.1.y) * (v.z - e.1.z) - (e.2.z - e.1.z) * (v.y - e.1.y)) +
          n.y * ((e.2.z - e.1.z) * (v.x - e.1.x) - (e.2.x - e.1.x) * (v.z - e.1.z)) +
          n.z * ((e.2.x - e.1.x) * (v.y - e.1.y) - (e.2.y - e.1.y) * (v.x - e.1.x)))) * f1
    have := mul_nonneg hs.le ht
    by_contra hcon
    push Not at hcon
    have := mul_pos hne hcon
    linarith
  -- a direction in the plane of the source that leads to the front
  obtain ⟨hx0, r, hr, hx⟩ := hx
  set g : Vec K := ⟨-(n.y * (e.2.z - e.1.z) - n.z * (e.2.y - e.1.y)), -(n.z * (e.2.x - e.1.x) - n.x * (e.2.z - e.1.z)),
    -(n.x * (e.2.y - e.1.y) - n.y * (e.2.x - e.1.x))⟩ with hg
  set q := (e.2.x - e.1.x) ^ 2 + (e.2.y - e.1.y) ^ 2 + (e.2.z - e.1.z) ^ 2 with hq
  have hq0 : 0 < q := by
    rcases lt_or_eq_of_le (by positivity : 0 ≤ q) with h0 | h0
    · exact h0
    · exfalso
      have hx1 := sq_nonneg (e.2.x - e.1.x); have hy1 := sq_nonneg (e.2.y - e.1.y); have hz1 := sq_nonneg (e.2.z - e.1.z)
      have z1 : e.2.x - e.1.x = 0 := pow_eq_zero_iff (two_ne_zero) |>.1 (by linarith)
      have z2 : e.2.y - e.1.y = 0 := pow_eq_zero_iff (two_ne_zero) |>.1 (by linarith)
      have z3 : e.2.z - e.1.z = 0 := pow_eq_zero_iff (two_ne_zero) |>.1 (by linarith)
      have : dot sep.normal sep.normal = 0 := by rw [hn]; simp only [crossAt, z1, z2, z3, dot]; ring
      rw [show dot sep.normal sep.normal = 1 from hu] at this
      exact one_ne_zero this
  have hNg : dot sep.normal g = s * srcPl.distTo p * q := by
    rw [hn, hg, hq]
    simp only [Plane.distTo, dot, crossAt, ← hnn, ← hD] at f1 f2 ⊢
    linear_combination
      (-s * ((e.2.x - e.1.x) * (p.x - e.1.x) + (e.2.y - e.1.y) * (p.y - e.1.y) + (e.2.z - e.1.z) * (p.z - e.1.z))) * (f2 - f1) -
      s * ((e.2.x - e.1.x) ^ 2 + (e.2.y - e.1.y) ^ 2 + (e.2.z - e.1.z) ^ 2) * f1
  have hNg0 : 0 < dot sep.normal g := by rw [hNg]; exact mul_pos hs hq0
  set m := |g.x| + |g.y| + |g.z| + 1 with hm
  have a1 := abs_nonneg g.x; have a2 := abs_nonneg g.y; have a3 := abs_nonneg g.z
  have hmpos : 0 < m := by linarith
  have ht : 0 < r / m := div_pos hr hmpos
  have bound : ∀ z, |z| ≤ m → |r / m * z| ≤ r := by
    intro z hz
    rw [abs_mul, abs_of_pos ht]
    calc r / m * |z| ≤ r / m * m := mul_le_mul_of_nonneg_left hz ht.le
      _ = r := by field_simp
  have hy := hx ⟨x.x + r / m * g.x, x.y + r / m * g.y, x.z + r / m * g.z⟩
    (by
      have : srcPl.distTo ⟨x.x + r / m * g.x, x.y + r / m * g.y, x.z + r / m * g.z⟩ = srcPl.distTo x := by
        simp only [Plane.distTo, dot, hg, ← hnn]; ring
      rw [this]; exact hx0)
    (by simpa using bound g.x (by linarith)) (by simpa using bound g.y (by linarith))
    (by simpa using bound g.z (by linarith))
  have hle := inHull_le (pl := sep) (c := 0) hy vert
  have e2 : sep.distTo ⟨x.x + r / m * g.x, x.y + r / m * g.y, x.z + r / m * g.z⟩ =
      sep.distTo x + r / m * dot sep.normal g := by
    simp only [Plane.distTo, dot]; ring
  rw [e2] at hle
  have := mul_pos ht hNg0
  linarith

theorem trySep_front {cfg : Cfg K} (hc : CfgOk cfg) {srcPl : Plane K} {a b : Vec K} {pass : List (Vec K)} {j : Nat}
    {sep : Plane K} (h : trySep cfg srcPl a b pass j = some sep) {x : Vec K} (hx : InHull pass x) :
    0 ≤ sep.distTo x := by
  obtain ⟨_, _, _, _, _, _, _, hf⟩ := trySep_spec hc h
  exact inHull_ge hx hf

/-- A plane that `ClipToSeparators` finds. -/
def Found (cfg : Cfg K) (srcPl : Plane K) (src pass : List (Vec K)) (sep : Plane K) : Prop :=
  ∃ e ∈ edges src, ∃ j, trySep cfg srcPl e.1 e.2 pass j = some sep

/-- The plane that is used in a test. -/
def turned (flip : Bool) (pl : Plane K) : Plane K := if flip then negPlane pl else pl

theorem findSep_found {cfg : Cfg K} {srcPl : Plane K} {e : Vec K × Vec K} {src pass : List (Vec K)} {sep : Plane K}
    (he : e ∈ edges src) (h : findSep cfg srcPl e pass = some sep) : Found cfg srcPl src pass sep := by
  unfold findSep at h
  obtain ⟨j, _, hj⟩ := List.exists_of_findSome?_eq_some h
  exact ⟨e, he, j, hj⟩

theorem found_unit {cfg : Cfg K} (hc : CfgOk cfg) {srcPl : Plane K} {src pass : List (Vec K)} {sep : Plane K}
    (flip : Bool) (h : Found cfg srcPl src pass sep) : UnitNormal (turned flip sep) := by
  obtain ⟨e, _, j, hj⟩ := h
  obtain ⟨_, _, _, _, _, hu, _⟩ := trySep_spec hc hj
  unfold turned
  split
  · exact neg_unit hu
  · exact hu

theorem clipToSeps_found {cfg : Cfg K} {srcPl : Plane K} {src pass : List (Vec K)} {flip : Bool}
    {es : List (Vec K × Vec K)} (hes : ∀ e ∈ es, e ∈ edges src) (t : SWind K) :
    ∀ pl ∈ (clipToSeps cfg srcPl pass flip es t).1, ∃ sep, Found cfg srcPl src pass sep ∧ pl = turned flip sep := by
  induction es generalizing t with
  | nil => simp [clipToSeps]
  | cons e es ih =>
    have hes' := fun x hx => hes x (List.mem_cons_of_mem e hx)
    intro pl hpl
    simp only [clipToSeps] at hpl
    split at hpl
    · exact ih hes' _ pl hpl
    · rename_i sep hsep
      have hf := findSep_found (hes e List.mem_cons_self) hsep
      split at hpl
      · simp only [List.mem_singleton] at hpl
        exact ⟨sep, hf, hpl⟩
      · rcases List.mem_cons.1 hpl with h | h
        · exact ⟨sep, hf, h⟩
        · exact ih hes' _ pl h

theorem clipToSeps_ok {cfg : Cfg K} (hc : CfgOk cfg) {pl srcPl : Plane K} {src pass : List (Vec K)} {flip : Bool}
    {es : List (Vec K × Vec K)} (hes : ∀ e ∈ es, e ∈ edges src) {t t' : SWind K} (ht : WOk pl t)
    (h : (clipToSeps cfg srcPl pass flip es t).2 = some t') : WOk pl t' := by
  induction es generalizing t with
  | nil => simp only [clipToSeps, Option.some.injEq] at h; exact h ▸ ht
  | cons e es ih =>
    have hes' := fun x hx => hes x (List.mem_cons_of_mem e hx)
    simp only [clipToSeps] at h
    split at h
    · exact ih hes' ht h
    · rename_i sep hsep
      have hf := findSep_found (hes e List.mem_cons_self) hsep
      split at h
      · simp at h
      · rename_i t1 ht1
        rw [hc.on] at ht1
        exact ih hes' (clipStack_ok (found_unit hc flip hf) ht ht1) h

theorem clipToSeps_inside {cfg : Cfg K} (hc : CfgOk cfg) {pl srcPl : Plane K} {src pass : List (Vec K)} {flip : Bool}
    {es : List (Vec K × Vec K)} (hes : ∀ e ∈ es, e ∈ edges src) {t : SWind K} (ht : WOk pl t) {x : Vec K}
    (hx : Inside pl t.pts x) (hd : ∀ sep, Found cfg srcPl src pass sep → 0 < (turned flip sep).distTo x) :
    ∃ t', (clipToSeps cfg srcPl pass flip es t).2 = some t' ∧ Inside pl t'.pts x := by
  induction es generalizing t with
  | nil => exact ⟨t, rfl, hx⟩
  | cons e es ih =>
    have hes' := fun x hx => hes x (List.mem_cons_of_mem e hx)
    simp only [clipToSeps]
    split
    · exact ih hes' ht hx
    · rename_i sep hsep
      have hf := findSep_found (hes e List.mem_cons_self) hsep
      have hu := found_unit hc flip hf
      obtain ⟨t1, h1, hx1⟩ := clipStack_inside hu ht hx (hd sep hf)
      have e1 : clipStack cfg.on t (if flip = true then negPlane sep else sep) = some t1 := by
        rw [hc.on]; exact h1
      rw [e1]
      exact ih hes' (clipStack_ok hu ht h1) hx1

end Verif.Vis
