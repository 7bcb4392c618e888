import Verif.Vis.LookLemmas
import Verif.Vis.Props

/-! Lines through the portals of a map behave as the theorems about the flow assume, and the winding tests of
vis never reject what a line sees. -/

namespace Verif.Vis

open Verif.Geom Verif.Geom.Spec

set_option linter.unusedSectionVars false

variable {Leaf Portal K : Type} [Field K] [LinearOrder K] [IsStrictOrderedRing K]
variable {G : Graph Leaf Portal} {geo : Geo Portal K} {cfg : Cfg K} {flat gap : K}

theorem neg_line (pl : Plane K) (a u : Vec K) (t : K) :
    (⟨⟨-pl.normal.x, -pl.normal.y, -pl.normal.z⟩, -pl.dist⟩ : Plane K).distTo
      (lineAt a ⟨-u.x, -u.y, -u.z⟩ (-t)) = -pl.distTo (lineAt a u t) := by
  simp only [Plane.distTo, lineAt, dot]; ring

theorem line_neg (a u : Vec K) (t : K) : lineAt a ⟨-u.x, -u.y, -u.z⟩ (-t) = lineAt a u t := by
  simp [lineAt]

theorem hull_reverse {w : List (Vec K)} {x : Vec K} (h : InHull w x) : InHull w.reverse x :=
  inHull_mono (fun _ hv => List.mem_reverse.2 hv) h

theorem crosses_rev (hm : MapOk G geo) {a u : Vec K} {p : Portal} {t : K} (h : Crosses geo flat a u p t) :
    Crosses geo flat a ⟨-u.x, -u.y, -u.z⟩ (G.rev p) (-t) := by
  obtain ⟨h1, h2, r, hr, h3⟩ := h
  have hneg : ∀ y, (geo.plane (G.rev p)).distTo y = -(geo.plane p).distTo y := by
    intro y; rw [hm.rev_plane]; exact neg_distTo _ y
  refine ⟨?_, ?_⟩
  · rw [hm.rev_plane]
    simp only [abs_neg]
    have : dot (⟨-(geo.plane p).normal.x, -(geo.plane p).normal.y, -(geo.plane p).normal.z⟩ : Vec K) ⟨-u.x, -u.y, -u.z⟩ =
        dot (geo.plane p).normal u := by simp only [dot]; ring
    rw [this]; exact h1
  · rw [line_neg]
    refine ⟨by rw [hneg, h2, neg_zero], r, hr, ?_⟩
    intro y hy h4 h5 h6
    rw [hneg, neg_eq_zero] at hy
    rw [hm.rev_wind]
    exact hull_reverse (h3 y hy h4 h5 h6)

theorem passes_rev (hm : MapOk G geo) {a u : Vec K} {l : List (Portal × K)} (h : Passes geo flat gap a u l) :
    Passes geo flat gap a ⟨-u.x, -u.y, -u.z⟩ (l.reverse.map fun x => (G.rev x.1, -x.2)) := by
  refine ⟨?_, ?_⟩
  · intro x hx
    obtain ⟨y, hy, rfl⟩ := List.mem_map.1 hx
    exact crosses_rev hm (h.crosses y (List.mem_reverse.1 hy))
  · rw [List.pairwise_map, List.pairwise_reverse]
    refine h.order.imp ?_
    rintro x y ⟨h1, h2, h3⟩
    refine ⟨by simpa using h1, ?_, ?_⟩
    · rw [hm.rev_plane, neg_line]; linarith
    · rw [hm.rev_plane, neg_line]; linarith

/-- Positions in a walk that a line passes through. -/
theorem chain_next {c : List Portal} (hc : IsChain G c) {i : Nat} (hi : i + 1 < c.length) :
    G.owner c[i + 1] = G.dest c[i] := by
  induction c generalizing i with
  | nil => simp at hi
  | cons p c ih =>
    cases c with
    | nil => simp at hi
    | cons q c =>
      cases i with
      | zero => exact hc.1
      | succ i => exact ih hc.2 (by simpa using hi)

theorem line_nodup (hm : MapOk G geo) (hg : 0 ≤ gap) {a u : Vec K} {l : List (Portal × K)} (h : Passes geo flat gap a u l)
    (hc : IsChain G (l.map Prod.fst)) : ((l.map Prod.fst).map G.dest).Nodup := by
  rw [List.Nodup, List.pairwise_iff_getElem]
  intro i j hi hj hij
  simp only [List.length_map] at hi hj
  simp only [List.getElem_map]
  intro heq
  have hnext := chain_next hc (i := i) (by simp; omega)
  simp only [List.getElem_map] at hnext
  by_cases e : i + 1 = j
  · subst e
    exact hm.no_loop _ (hnext.trans heq)
  · have hlt : i + 1 < j := by omega
    have hp := List.pairwise_iff_getElem.1 h.order (i + 1) j (by omega) hj hlt
    have hcr := (h.crosses l[j] (List.getElem_mem hj)).2
    have := inHull_le (pl := geo.plane (l[i + 1]).1) (c := 0) (inside_hull hcr)
      (fun v hv => hm.leaf_convex _ _ (hnext.trans heq) v hv)
    linarith [hp.2.1]

/-- The lines through the portals of a map. -/
def geoSight (hm : MapOk G geo) (flat : K) {gap : K} (hg : 0 ≤ gap) : Sight G where
  Stab := Stabbed geo flat gap
  prefix_closed := by
    rintro c m ⟨a, u, l, e, h⟩
    obtain ⟨l1, l2, rfl, h1, _⟩ := List.map_eq_append_iff.1 e
    exact ⟨a, u, l1, h1, (passes_append h).1⟩
  suffix_closed := by
    rintro c m ⟨a, u, l, e, h⟩
    obtain ⟨l1, l2, rfl, _, h2⟩ := List.map_eq_append_iff.1 e
    exact ⟨a, u, l2, h2, (passes_append h).2⟩
  reversed := by
    rintro c ⟨a, u, l, rfl, h⟩
    refine ⟨a, _, _, ?_, passes_rev hm h⟩
    simp [Function.comp_def, List.map_reverse]
  no_reentry := by
    rintro c hc ⟨a, u, l, rfl, h⟩
    exact line_nodup hm hg h hc

theorem winOk_start (hm : MapOk G geo) (p : Portal) : WinOk geo flat gap [p] ⟨geo.wind p, none⟩ := by
  refine ⟨by simp, ?_, by simp, by simp, ?_⟩
  · intro h hh
    simp only [List.head?_cons, Option.mem_some_iff] at hh
    subst hh
    exact map_wok hm p
  · intro a u l hmap hpass
    obtain ⟨⟨q, t⟩, rfl, h⟩ := List.map_eq_singleton_iff.1 hmap
    simp only at h
    subst h
    refine ⟨?_, by simp⟩
    intro x hx
    simp only [List.head?_cons, Option.mem_some_iff] at hx
    subst hx
    exact (hpass.crosses (q, t) (by simp)).2

theorem geoTests_sound (hm : MapOk G geo) (hg : 0 ≤ gap) (hc : CfgOk cfg) (he : cfg.eq ≤ flat) :
    Sound (geoSight hm flat hg) (geoTests cfg geo) (WinOk geo flat gap) (fun c _ k => SepsOk geo flat gap c k) where
  start p := winOk_start hm p
  fresh c d _ := by
    rintro sep (h | h) <;> simp [geoTests] at h
  step_kept c d k q ho hk := look_seps hc ho hk
  step_ok c d k q d' ho hk h := look_ok hc he hg hm ho hk h
  step_stab c d k q ho hk hch := by
    rintro ⟨a, u, l, e, h⟩
    obtain ⟨l1, l2, rfl, h1, h2⟩ := List.map_eq_append_iff.1 e
    obtain ⟨⟨q', t⟩, rfl, h3⟩ := List.map_eq_singleton_iff.1 h2
    simp only at h3
    subst h3
    by_cases hne : l1 = []
    · subst hne; exact absurd h1.symm ho.ne
    · obtain ⟨d', e, _⟩ := look_line hc he hg hm ho hk (lm := []) h1 hne (by simpa using h)
      show (lookThrough cfg geo c d k q').2 ≠ none
      rw [e]; simp
  target_kept c d k q ho hk := look_seps hc ho hk
  target_stab c m q d k hlen ho hk hch := by
    rintro ⟨a, u, l, e, h⟩
    obtain ⟨l12, l3, rfl, h12, h3⟩ := List.map_eq_append_iff.1 e
    obtain ⟨l1, l2, rfl, h1, h2⟩ := List.map_eq_append_iff.1 h12
    obtain ⟨⟨q', t⟩, rfl, h4⟩ := List.map_eq_singleton_iff.1 h3
    simp only at h4
    subst h4
    have hne : l1 ≠ [] := by rintro rfl; simp at h1; subst h1; simp at hlen
    obtain ⟨d', e, _⟩ := look_line hc he hg hm ho hk h1 hne h
    show (lookThrough cfg geo c d k q').2.isSome = true
    rw [e]; rfl

/-- A portal some of whose points are in front of a plane. -/
theorem some_front {pl : Plane K} {w : List (Vec K)} {x : Vec K} {c : K} (h : InHull w x) (hx : c < pl.distTo x) :
    ∃ v ∈ w, c < pl.distTo v := by
  by_contra hcon
  push Not at hcon
  have := inHull_le h hcon
  linarith

theorem some_behind {pl : Plane K} {w : List (Vec K)} {x : Vec K} {c : K} (h : InHull w x) (hx : pl.distTo x < c) :
    ∃ v ∈ w, pl.distTo v < c := by
  by_contra hcon
  push Not at hcon
  have := inHull_ge h hcon
  linarith

theorem distFrom_le (w : SWind K) (pl : Plane K) (big d : K) (h : ∃ v ∈ w.pts, |pl.distTo v| ≤ d) :
    distFrom w pl big ≤ d := by
  have mono : ∀ (l : List (Vec K)) (m : K), l.foldl (fun m v => min m |pl.distTo v|) m ≤ m := by
    intro l
    induction l with
    | nil => intro m; exact le_refl m
    | cons a l ih => intro m; exact (ih _).trans (min_le_left _ _)
  unfold distFrom
  generalize w.pts = l at h
  induction l generalizing big with
  | nil => simp at h
  | cons a l ih =>
    obtain ⟨v, hv, hd⟩ := h
    rcases List.mem_cons.1 hv with rfl | hv
    · exact (mono l _).trans ((min_le_right _ _).trans hd)
    · exact ih _ ⟨v, hv, hd⟩

/-- The tests between two portals let pass what a line sees. -/
theorem baseFront_line (hm : MapOk G geo) (h0 : 0 ≤ cfg.on) (hg : cfg.on ≤ gap) {p q : Portal} {a u : Vec K} {tp tq : K}
    (hp : Crosses geo flat a u p tp) (hq : Crosses geo flat a u q tq)
    (h1 : gap < (geo.plane p).distTo (lineAt a u tq)) (h2 : (geo.plane q).distTo (lineAt a u tp) < -gap)
    (hv : cfg.visdist ≤ 0 ∨ ((∃ v ∈ (geo.wind q).pts, |(geo.plane p).distTo v| ≤ cfg.visdist) ∧
      ∃ v ∈ (geo.wind p).pts, |(geo.plane q).distTo v| ≤ cfg.visdist)) :
    baseFront cfg geo p q = true := by
  obtain ⟨v1, m1, d1⟩ := some_front (inside_hull hq.2) (lt_of_le_of_lt hg h1)
  obtain ⟨v2, m2, d2⟩ := some_behind (inside_hull hp.2) (lt_of_lt_of_le h2 (neg_le_neg hg))
  have s1 : ¬ (geo.plane p).distTo (geo.wind q).origin < -(geo.wind q).radius := by
    intro hlt
    have := (map_wok hm q).sphere (geo.plane p).normal (hm.unit p) v1 m1
    simp only [Plane.distTo] at hlt d1
    rw [dot_comm] at hlt d1
    linarith
  have s2 : ¬ (geo.plane q).distTo (geo.wind p).origin > (geo.wind p).radius := by
    intro hlt
    have := (map_wok hm p).sphere ((geo.plane q).neg).normal (neg_unit (hm.unit q)) v2 m2
    simp only [Plane.distTo, dot, Plane.neg] at hlt d2 this
    linarith
  have e1 : ((geo.wind q).pts.any fun v => decide ((geo.plane p).distTo v > cfg.on)) = true :=
    List.any_eq_true.2 ⟨v1, m1, by simpa using d1⟩
  have e2 : ((geo.wind p).pts.any fun v => decide ((geo.plane q).distTo v < -cfg.on)) = true :=
    List.any_eq_true.2 ⟨v2, m2, by simpa using d2⟩
  unfold baseFront
  simp only [if_neg s1, if_neg s2, e1, e2]
  have hvis : ¬ (cfg.visdist > 0 ∧ (distFrom (geo.wind q) (geo.plane p) (10 ^ 20) > cfg.visdist ∨
      distFrom (geo.wind p) (geo.plane q) (10 ^ 20) > cfg.visdist)) := by
    rintro ⟨hpos, hd⟩
    rcases hv with hv | ⟨ha, hb⟩
    · linarith
    · have := distFrom_le _ _ (10 ^ 20) _ ha
      have := distFrom_le _ _ (10 ^ 20) _ hb
      rcases hd with hd | hd <;> linarith
  simp [hvis]

theorem stab_ends {p q : Portal} {m : List Portal} (h : Stabbed geo flat gap (p :: m ++ [q])) :
    ∃ a u tp tq, Crosses geo flat a u p tp ∧ Crosses geo flat a u q tq ∧ tp < tq ∧
      gap < (geo.plane p).distTo (lineAt a u tq) ∧ (geo.plane q).distTo (lineAt a u tp) < -gap := by
  obtain ⟨a, u, l, e, h⟩ := h
  obtain ⟨l1, l2, rfl, h1, h2⟩ := List.map_eq_append_iff.1 e
  obtain ⟨⟨q', tq⟩, rfl, h3⟩ := List.map_eq_singleton_iff.1 h2
  obtain ⟨⟨p', tp⟩, l3, rfl, h4, h5⟩ := List.map_eq_cons_iff.1 h1
  simp only at h3 h4
  subst h3; subst h4
  have := (List.pairwise_append.1 h.order).2.2 (p', tp) (by simp) (q', tq) (by simp)
  exact ⟨a, u, tp, tq, h.crosses (p', tp) (by simp), h.crosses (q', tq) (by simp), this⟩

theorem baseFront_sound (hm : MapOk G geo) (h0 : 0 ≤ cfg.on) (hg : cfg.on ≤ gap) (hv : cfg.visdist ≤ 0) :
    SoundFront (geoSight hm flat (h0.trans hg)) (baseFront cfg geo) := by
  intro p m q _ h
  obtain ⟨a, u, tp, tq, hp, hq, _, h1, h2⟩ := stab_ends h
  exact baseFront_line hm h0 hg hp hq h1 h2 (Or.inl hv)

end Verif.Vis
