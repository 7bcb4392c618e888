import Verif.BrushBsp.Hull
import Verif.BrushBsp.LeafSpec
import Verif.BrushBsp.TermLemmas
import Verif.Geom.ClipProps

/-! Fragments of brushes: a set of points that the polygons of the sides enclose, and what cutting does with it. -/

namespace Verif.BrushBsp

open Geom Geom.Spec Spec

set_option linter.unusedSectionVars false

variable {K C : Type} [Field K] [LinearOrder K] [IsStrictOrderedRing K]

/-- The sides enclose the convex set. -/
structure Solid (env : Env K C) (T : Vec K → Prop) (sides : List (Side K)) : Prop where
  conv : ∀ x y, T x → T y → ∀ t, 0 ≤ t → t ≤ 1 → T (along x y t)
  inside : ∀ s ∈ sides, ∀ q, T q → (env.planes s.planenum).distTo q ≤ 0
  cover : ∀ r, T r → ∀ u : Vec K, 0 < dot u u → ∃ t, 0 ≤ t ∧ ∃ s ∈ sides, T (go r u t) ∧ InHull s.w (go r u t)
  poly : ∀ s ∈ sides, ConvexPoly s.w
  own : ∀ s ∈ sides, ∀ v ∈ s.w, (env.planes s.planenum).distTo v = 0
  verts : ∀ s ∈ sides, ∀ v ∈ s.w, T v
  core : ∃ c, T c ∧ ∀ s ∈ sides, (env.planes s.planenum).distTo c < 0
  world : ∀ q, T q → dot q q ≤ env.worldextent * env.worldextent

theorem sq_pos {u : Vec K} (h : u ≠ ⟨0, 0, 0⟩) : 0 < dot u u := by
  have h1 := mul_self_nonneg u.x
  have h2 := mul_self_nonneg u.y
  have h3 := mul_self_nonneg u.z
  rcases lt_or_eq_of_le (show 0 ≤ dot u u by simp only [dot]; linarith) with h0 | h0
  · exact h0
  · exfalso
    apply h
    simp only [dot] at h0
    have e1 : u.x = 0 := mul_self_eq_zero.1 (by linarith)
    have e2 : u.y = 0 := mul_self_eq_zero.1 (by linarith)
    have e3 : u.z = 0 := mul_self_eq_zero.1 (by linarith)
    cases u
    simp only at e1 e2 e3
    rw [e1, e2, e3]

/-- A direction in a plane that does not lead backwards. -/
theorem in_plane (n g : Vec K) : ∃ u : Vec K, 0 < dot u u ∧ dot u n = 0 ∧ 0 ≤ dot g u := by
  have key : ∃ u : Vec K, 0 < dot u u ∧ dot u n = 0 := by
    by_cases h : n.x = 0 ∧ n.y = 0
    · exact ⟨⟨1, 0, 0⟩, by simp [dot], by simp [dot, h.1]⟩
    · refine ⟨⟨n.y, -n.x, 0⟩, sq_pos ?_, by simp only [dot]; ring⟩
      intro e
      simp only [Vec.mk.injEq] at e
      exact h ⟨by linarith [e.2.1], e.1⟩
  obtain ⟨u, h1, h2⟩ := key
  rcases le_total 0 (dot g u) with h | h
  · exact ⟨u, h1, h2, h⟩
  · refine ⟨⟨-u.x, -u.y, -u.z⟩, ?_, ?_, ?_⟩ <;> simp only [dot] at * <;> linarith

theorem mem_points {sides : List (Side K)} {v : Vec K} : v ∈ points sides ↔ ∃ s ∈ sides, v ∈ s.w := by
  simp [points]

/-- A point of the set is spanned by the polygons, and so in every plane. -/
theorem solid_hull {env : Env K C} {T : Vec K → Prop} {sides : List (Side K)} (h : Solid env T sides) (pl : Plane K)
    {p : Vec K} (hp : T p) (g : Vec K) :
    ∃ q, T q ∧ pl.distTo q = pl.distTo p ∧ dot g p ≤ dot g q ∧ ∃ s ∈ sides, InHull s.w q := by
  obtain ⟨u, h1, h2, h3⟩ := in_plane pl.normal g
  obtain ⟨t, ht, s, hs, hT, hh⟩ := h.cover p hp u h1
  refine ⟨_, hT, by rw [dist_go, h2]; ring, ?_, s, hs, hh⟩
  rw [dot_go]
  have := mul_nonneg ht h3
  linarith

/-- What is behind all polygons belongs to the set. -/
theorem solid_region {env : Env K C} {T : Vec K → Prop} {sides : List (Side K)} (h : Solid env T sides) {q : Vec K}
    (hq : ∀ s ∈ sides, s.w ≠ [] → (env.planes s.planenum).distTo q ≤ 0) : T q := by
  obtain ⟨c, hc, hcs⟩ := h.core
  by_cases he : (⟨q.x - c.x, q.y - c.y, q.z - c.z⟩ : Vec K) = ⟨0, 0, 0⟩
  · simp only [Vec.mk.injEq] at he
    have : q = c := by
      cases q; cases c
      simp only [Vec.mk.injEq] at he ⊢
      exact ⟨by linarith, by linarith, by linarith⟩
    rw [this]; exact hc
  · obtain ⟨t, ht, s, hs, hT, hh⟩ := h.cover c hc _ (sq_pos he)
    have hne : s.w ≠ [] := by
      intro e
      obtain ⟨v, hv, _⟩ := hh ⟨0, 0, 0⟩
      rw [e] at hv; cases hv
    have d0 : (env.planes s.planenum).distTo (go c ⟨q.x - c.x, q.y - c.y, q.z - c.z⟩ t) = 0 :=
      le_antisymm (inHull_le hh (fun v hv => le_of_eq (h.own s hs v hv)))
        (inHull_ge hh (fun v hv => le_of_eq (h.own s hs v hv).symm))
    have dc := hcs s hs
    have dq := hq s hs hne
    have e1 : (env.planes s.planenum).distTo (go c ⟨q.x - c.x, q.y - c.y, q.z - c.z⟩ t) =
        (1 - t) * (env.planes s.planenum).distTo c + t * (env.planes s.planenum).distTo q := by
      simp only [go, Plane.distTo, dot]; ring
    have t1 : 1 ≤ t := by
      by_contra hcon
      have h1 : (1 - t) * (env.planes s.planenum).distTo c < 0 := mul_neg_of_pos_of_neg (by linarith) dc
      have h2 := mul_nonpos_of_nonneg_of_nonpos ht dq
      linarith
    have tp : 0 < t := by linarith
    have := h.conv _ _ hc hT (1 / t) (by positivity) ((div_le_one tp).2 t1)
    have e2 : along c (go c ⟨q.x - c.x, q.y - c.y, q.z - c.z⟩ t) (1 / t) = q := by
      cases q; cases c
      simp only [along, go, Vec.mk.injEq]
      refine ⟨?_, ?_, ?_⟩ <;> field_simp <;> ring
    rw [e2] at this
    exact this

/-- The polygon of the side is the part of an old one, or it is a cut in the plane. -/
def HalfSide (env : Env K C) (pl : Plane K) (T : Vec K → Prop) (sides : List (Side K)) (s' : Side K) : Prop :=
  (∃ s ∈ sides, s'.planenum = s.planenum ∧ Part pl 0 s.w s'.w) ∨
  ((∀ q, (env.planes s'.planenum).distTo q = -pl.distTo q) ∧ ConvexPoly s'.w ∧ ∀ v ∈ s'.w, pl.distTo v = 0 ∧ T v)

/-- Half of a solid. -/
theorem half_solid {env : Env K C} {pl : Plane K} (hu : UnitNormal pl) {T : Vec K → Prop} {sides sides' : List (Side K)}
    (h : Solid env T sides) (hs : ∀ s' ∈ sides', HalfSide env pl T sides s')
    (keep : ∀ s ∈ sides, (∃ v ∈ s.w, 0 < pl.distTo v) → ∃ s' ∈ sides', s'.planenum = s.planenum ∧ Part pl 0 s.w s'.w)
    (mid : ∃ s' ∈ sides', ∀ q, T q → pl.distTo q = 0 → InHull s'.w q)
    (hv : ∃ v, T v ∧ 0 < pl.distTo v) : Solid env (fun q => T q ∧ 0 ≤ pl.distTo q) sides' where
  conv := by
    rintro x y ⟨hx, dx⟩ ⟨hy, dy⟩ t h0 h1
    refine ⟨h.conv x y hx hy t h0 h1, ?_⟩
    rw [distTo_along]
    have : 0 ≤ 1 - t := by linarith
    have h2 := mul_nonneg this dx
    have h3 := mul_nonneg h0 dy
    linarith
  inside := by
    rintro s' hs' q ⟨hq, dq⟩
    rcases hs s' hs' with ⟨s, hs, e, _⟩ | ⟨e, _⟩
    · rw [e]; exact h.inside s hs q hq
    · rw [e]; linarith
  cover := by
    rintro r ⟨hr, dr⟩ u hu0
    obtain ⟨t, ht, s, hss, hT, hh⟩ := h.cover r hr u hu0
    rcases lt_trichotomy (pl.distTo (go r u t)) 0 with hd | hd | hd
    · -- the way out crosses the plane
      have hne : pl.distTo r - pl.distTo (go r u t) > 0 := by linarith
      have hne' : pl.distTo r - pl.distTo (go r u t) ≠ 0 := ne_of_gt hne
      set a := pl.distTo r / (pl.distTo r - pl.distTo (go r u t)) with ha
      have a0 : 0 ≤ a := div_nonneg dr (le_of_lt hne)
      have a1 : a ≤ 1 := (div_le_one hne).2 (by linarith)
      have e : go r u (a * t) = along r (go r u t) a := by
        simp only [go, along, Vec.mk.injEq]
        refine ⟨?_, ?_, ?_⟩ <;> ring
      have d0 : pl.distTo (go r u (a * t)) = 0 := by
        have hmul : a * (pl.distTo r - pl.distTo (go r u t)) = pl.distTo r := div_mul_cancel₀ _ hne'
        rw [e, distTo_along]; linarith
      have hT' : T (go r u (a * t)) := by rw [e]; exact h.conv _ _ hr hT a a0 a1
      obtain ⟨s', hs', hm⟩ := mid
      exact ⟨a * t, mul_nonneg a0 ht, s', hs', ⟨hT', le_of_eq d0.symm⟩, hm _ hT' d0⟩
    · obtain ⟨s', hs', hm⟩ := mid
      exact ⟨t, ht, s', hs', ⟨hT, le_of_eq hd.symm⟩, hm _ hT hd⟩
    · have hvx : ∃ v ∈ s.w, 0 < pl.distTo v := by
        by_contra hcon
        push Not at hcon
        have := inHull_le hh hcon
        linarith
      obtain ⟨s', hs', _, hp⟩ := keep s hss hvx
      obtain ⟨n, k, hc⟩ := h.poly s hss
      exact ⟨t, ht, s', hs', ⟨hT, le_of_lt hd⟩, part_hull hu hc hp hh (le_of_lt hd)⟩
  poly := by
    intro s' hs'
    rcases hs s' hs' with ⟨s, hss, _, hp⟩ | ⟨_, hc, _⟩
    · obtain ⟨n, k, hc⟩ := h.poly s hss
      exact ⟨n, k, part_convex hu hc hp⟩
    · exact hc
  own := by
    intro s' hs' v hv'
    rcases hs s' hs' with ⟨s, hss, e, hp⟩ | ⟨e, _, hm⟩
    · obtain ⟨a, ha, b, hb, t, _, _, rfl⟩ := part_onSeg (le_refl 0) hu hp v hv'
      rw [e, distTo_along, h.own s hss a ha, h.own s hss b hb]; ring
    · rw [e, (hm v hv').1]; ring
  verts := by
    intro s' hs' v hv'
    rcases hs s' hs' with ⟨s, hss, e, hp⟩ | ⟨e, _, hm⟩
    · obtain ⟨a, ha, b, hb, t, h0, h1, rfl⟩ := part_onSeg (le_refl 0) hu hp v hv'
      refine ⟨h.conv _ _ (h.verts s hss a ha) (h.verts s hss b hb) t h0 h1, ?_⟩
      have := (part_vertices (le_refl 0) hu hp _ hv').1
      linarith
    · exact ⟨(hm v hv').2, le_of_eq (hm v hv').1.symm⟩
  core := by
    obtain ⟨c, hc, hcs⟩ := h.core
    obtain ⟨v, hT, hd⟩ := hv
    -- a point between the far point and the inner point
    obtain ⟨a, a0, a1, ad⟩ : ∃ a, 0 < a ∧ a ≤ 1 ∧ 0 < (1 - a) * pl.distTo v + a * pl.distTo c := by
      rcases lt_or_ge 0 (pl.distTo c) with h' | h'
      · exact ⟨1, one_pos, le_refl _, by linarith⟩
      · have hpos : 0 < pl.distTo v - pl.distTo c := by linarith
        have hq : 0 < pl.distTo v / (pl.distTo v - pl.distTo c) := div_pos hd hpos
        have hm : pl.distTo v / (pl.distTo v - pl.distTo c) * (pl.distTo v - pl.distTo c) = pl.distTo v :=
          div_mul_cancel₀ _ (ne_of_gt hpos)
        have hle : pl.distTo v / (pl.distTo v - pl.distTo c) ≤ 1 := (div_le_one hpos).2 (by linarith)
        exact ⟨pl.distTo v / (pl.distTo v - pl.distTo c) / 2, by linarith, by linarith, by linarith⟩
    refine ⟨along v c a, ⟨h.conv _ _ hT hc a (le_of_lt a0) a1, by rw [distTo_along]; linarith⟩, ?_⟩
    intro s' hs'
    rcases hs s' hs' with ⟨s, hss, e, _⟩ | ⟨e, _⟩
    · rw [e, distTo_along]
      have h1 := h.inside s hss v hT
      have h2 := hcs s hss
      have h3 := mul_nonpos_of_nonneg_of_nonpos (show 0 ≤ 1 - a by linarith) h1
      have h4 := mul_neg_of_pos_of_neg a0 h2
      linarith
    · rw [e, distTo_along]; linarith
  world := fun q hq => h.world q hq.1

/-- A point before the plane is spanned by the parts of the polygons, without the cut. -/
theorem half_hull {env : Env K C} {pl : Plane K} (hu : UnitNormal pl) {T : Vec K → Prop} {sides sides' : List (Side K)}
    (h : Solid env T sides)
    (keep : ∀ s ∈ sides, (∃ v ∈ s.w, 0 < pl.distTo v) → ∃ s' ∈ sides', s'.planenum = s.planenum ∧ Part pl 0 s.w s'.w)
    {p : Vec K} (hp : T p) (dp : 0 < pl.distTo p) : InHull (points sides') p := by
  intro g
  obtain ⟨q, hq, dq, gq, s, hs, hh⟩ := solid_hull h pl hp g
  have hvx : ∃ v ∈ s.w, 0 < pl.distTo v := by
    by_contra hcon
    push Not at hcon
    have := inHull_le hh hcon
    linarith
  obtain ⟨s', hs', _, hpart⟩ := keep s hs hvx
  obtain ⟨n, k, hc⟩ := h.poly s hs
  obtain ⟨v, hv, e⟩ := part_hull hu hc hpart hh (by linarith) g
  exact ⟨v, mem_points.2 ⟨s', hs', hv⟩, le_trans gq e⟩

/-! Polygons backwards -/

theorem pairs_iff {α : Type} {l : List α} {e : α × α} : e ∈ pairs l ↔ ∃ l1 l2, l = l1 ++ e.1 :: e.2 :: l2 := by
  induction l with
  | nil => simp [pairs]
  | cons a l ih =>
    cases l with
    | nil =>
      simp only [pairs, List.not_mem_nil, false_iff, not_exists]
      intro l1 l2 hh
      have := congrArg List.length hh
      simp at this
      omega
    | cons b l =>
      rw [pairs_cons_mem, ih]
      constructor
      · rintro (rfl | ⟨l1, l2, e⟩)
        · exact ⟨[], l, rfl⟩
        · exact ⟨a :: l1, l2, by rw [e]; rfl⟩
      · rintro ⟨l1, l2, e'⟩
        cases l1 with
        | nil =>
          simp only [List.nil_append, List.cons.injEq] at e'
          left
          exact Prod.ext e'.1.symm e'.2.1.symm
        | cons x l1 =>
          simp only [List.cons_append, List.cons.injEq] at e'
          exact Or.inr ⟨l1, l2, e'.2⟩

theorem pairs_reverse {α : Type} {l : List α} {e : α × α} (h : e ∈ pairs l.reverse) : (e.2, e.1) ∈ pairs l := by
  obtain ⟨l1, l2, e'⟩ := pairs_iff.1 h
  refine pairs_iff.2 ⟨l2.reverse, l1.reverse, ?_⟩
  have := congrArg List.reverse e'
  simpa using this

theorem edges_reverse {α : Type} {w : List α} {e : α × α} (h : e ∈ edges w.reverse) : (e.2, e.1) ∈ edges w := by
  cases hw : w.reverse with
  | nil => rw [hw] at h; simp [edges] at h
  | cons a l =>
    rw [hw] at h
    simp only [edges] at h
    have hw' : w = l.reverse ++ [a] := by
      have := congrArg List.reverse hw
      simpa using this
    have h1 : (e.2, e.1) ∈ pairs (a :: w) := by
      apply pairs_reverse
      rw [hw']
      simpa using h
    cases hl : l.reverse with
    | nil =>
      rw [hl, List.nil_append] at hw'
      rw [hw'] at h1 ⊢
      simpa [edges] using h1
    | cons f m =>
      rw [hl] at hw'
      rw [hw'] at h1 ⊢
      simp only [edges]
      simp only [List.cons_append] at h1
      rw [pairs_cons_mem] at h1
      rcases h1 with h1 | h1
      · rw [h1]
        exact pairs_iff.2 ⟨f :: m, [], by simp⟩
      · obtain ⟨l1, l2, e'⟩ := pairs_iff.1 h1
        refine pairs_iff.2 ⟨l1, l2 ++ [f], ?_⟩
        simp only [List.cons_append] at *
        have := congrArg (· ++ [f]) e'
        simpa using this

theorem convex_flip {w : List (Vec K)} (h : ConvexPoly w) : ConvexPoly (Geom.flip w) := by
  obtain ⟨n, k, h⟩ := h
  refine ⟨⟨-n.x, -n.y, -n.z⟩, -k, ?_, ?_, ?_⟩
  · have := h.ne; simp only [dot] at *; linarith
  · intro v hv
    have := h.flat v (by simpa [Geom.flip] using hv)
    simp only [dot] at *; linarith
  · intro e he c hc
    have := h.turns _ (edges_reverse he) c (by simpa [Geom.flip] using hc)
    simp only [turnOf] at *
    linarith

theorem hull_flip {w : List (Vec K)} {q : Vec K} (h : InHull w q) : InHull (Geom.flip w) q :=
  inHull_mono (fun v hv => by simpa [Geom.flip] using hv) h

end Verif.BrushBsp
