import Verif.Vis.ClipLemmas

/-! The winding tests of a frame keep what a line sees. -/

namespace Verif.Vis

open Verif.Geom Verif.Geom.Spec

set_option linter.unusedSectionVars false

variable {Leaf Portal K : Type} [Field K] [LinearOrder K] [IsStrictOrderedRing K]

theorem dist_line (pl : Plane K) (a u : Vec K) (t s : K) :
    pl.distTo (lineAt a u s) = pl.distTo (lineAt a u t) + (s - t) * dot pl.normal u := by
  simp only [Plane.distTo, lineAt, dot]; ring

/-- A plane that has the source behind it and the pass winding in front of it: a line through both is in
front of the plane beyond the pass winding and behind it beyond the source. -/
theorem found_line {cfg : Cfg K} (hc : CfgOk cfg) {srcPl : Plane K} {src pass : List (Vec K)} {sep : Plane K}
    (hf : Found cfg srcPl src pass sep) (hsrc : ConvexIn srcPl.normal srcPl.dist src) {a u : Vec K} {tA tB tC : K}
    (hA : Inside srcPl src (lineAt a u tA)) (hB : InHull pass (lineAt a u tB)) (flip : Bool)
    (h : 0 < if flip then (tA - tB) * (tC - tA) else (tB - tA) * (tC - tB)) :
    0 < (turned flip sep).distTo (lineAt a u tC) := by
  obtain ⟨e, he, j, hj⟩ := hf
  have h1 := trySep_behind hc hsrc he hj hA
  have h2 := trySep_front hc hj hB
  rw [dist_line sep a u tA tB] at h2
  set k := dot sep.normal u
  have h3 : 0 < (tB - tA) * k := by linarith
  cases flip with
  | false =>
    simp only [Bool.false_eq_true, ↓reduceIte] at h
    show 0 < sep.distTo _
    rw [dist_line sep a u tA tC]
    have h4 : 0 < (tC - tB) * k := by
      rcases mul_pos_iff.1 h3 with ⟨p, q⟩ | ⟨p, q⟩
      · exact mul_pos (pos_of_mul_pos_right h p.le |> fun x => x) q
      · exact mul_pos_of_neg_of_neg (by by_contra hcon; push Not at hcon; nlinarith) q
    have : (tC - tA) * k = (tC - tB) * k + (tB - tA) * k := by ring
    linarith
  | true =>
    simp only [↓reduceIte] at h
    show 0 < (negPlane sep).distTo _
    rw [negPlane_eq, neg_distTo, dist_line sep a u tA tC]
    have h4 : (tC - tA) * k < 0 := by
      rcases mul_pos_iff.1 h3 with ⟨p, q⟩ | ⟨p, q⟩
      · exact mul_neg_of_neg_of_pos (by by_contra hcon; push Not at hcon; nlinarith) q
      · exact mul_neg_of_pos_of_neg (by by_contra hcon; push Not at hcon; nlinarith) q
    linarith

theorem cached_ok {cfg : Cfg K} (hc : CfgOk cfg) {kept : List (Plane K)} (hu : ∀ p ∈ kept, UnitNormal p)
    {src pass : List (Vec K)} {pl srcPl : Plane K} {flip : Bool} {t t' : SWind K} (ht : WOk pl t)
    (h : (cachedTest cfg kept src srcPl pass flip t).2 = some t') : WOk pl t' := by
  unfold cachedTest at h
  split at h
  · rw [hc.on] at h; exact clipAll_ok hu ht h
  · exact clipToSeps_ok hc (src := src) (fun e he => by rwa [ring_edges] at he) ht h

theorem cached_seps {cfg : Cfg K} {kept : List (Plane K)} {src pass : List (Vec K)} {srcPl : Plane K} {flip : Bool}
    {t : SWind K} : ∀ pl ∈ (cachedTest cfg kept src srcPl pass flip t).1,
      pl ∈ kept ∨ ∃ sep, Found cfg srcPl src pass sep ∧ pl = turned flip sep := by
  intro pl h
  unfold cachedTest at h
  split at h
  · exact Or.inl h
  · exact Or.inr (clipToSeps_found (src := src) (fun e he => by rwa [ring_edges] at he) t pl h)

theorem cached_inside {cfg : Cfg K} (hc : CfgOk cfg) {kept : List (Plane K)} (hu : ∀ p ∈ kept, UnitNormal p)
    {src pass : List (Vec K)} {pl srcPl : Plane K} {flip : Bool} {t : SWind K} (ht : WOk pl t) {x : Vec K}
    (hx : Inside pl t.pts x) (hk : ∀ p ∈ kept, 0 < p.distTo x)
    (hd : ∀ sep, Found cfg srcPl src pass sep → 0 < (turned flip sep).distTo x) :
    ∃ t', (cachedTest cfg kept src srcPl pass flip t).2 = some t' ∧ Inside pl t'.pts x := by
  unfold cachedTest
  split
  · rw [hc.on]; exact clipAll_inside hu ht hx hk
  · exact clipToSeps_inside hc (src := src) (fun e he => by rwa [ring_edges] at he) ht hx hd

theorem seps_inside {cfg : Cfg K} (hc : CfgOk cfg) {src : SWind K} {pass : List (Vec K)} {pl srcPl : Plane K} {flip : Bool}
    {t : SWind K} (ht : WOk pl t) {x : Vec K} (hx : Inside pl t.pts x)
    (hd : ∀ sep, Found cfg srcPl src.pts pass sep → 0 < (turned flip sep).distTo x) :
    ∃ t', (clipToSeps cfg srcPl pass flip (ring src.pts) t).2 = some t' ∧ Inside pl t'.pts x :=
  clipToSeps_inside hc (src := src.pts) (fun e he => by rwa [ring_edges] at he) ht hx hd

theorem seps_ok {cfg : Cfg K} (hc : CfgOk cfg) {src : SWind K} {pass : List (Vec K)} {pl srcPl : Plane K} {flip : Bool}
    {t t' : SWind K} (ht : WOk pl t) (h : (clipToSeps cfg srcPl pass flip (ring src.pts) t).2 = some t') : WOk pl t' :=
  clipToSeps_ok hc (src := src.pts) (fun e he => by rwa [ring_edges] at he) ht h

/-! ### `VisTests` -/

theorem visTests_ok {cfg : Cfg K} (hc : CfgOk cfg) {hp lp qp : Plane K} {ps pp : SWind K} {k : Cache K}
    (hu0 : ∀ p ∈ k.seps0, UnitNormal p) (hu1 : ∀ p ∈ k.seps1, UnitNormal p)
    {source pass source' pass' : SWind K} {k' : Cache K} (h1 : WOk hp source) (h2 : WOk qp pass)
    (h : visTests cfg hp lp qp ps pp k source pass = (k', some (source', pass'))) :
    WOk hp source' ∧ WOk qp pass' := by
  unfold visTests at h
  simp only at h
  split at h
  · simp at h
  rename_i p0 e0
  have w0 : WOk qp p0 := by
    split at e0
    · exact cached_ok hc hu0 h2 e0
    · simp only [Option.some.injEq] at e0; exact e0 ▸ h2
  split at h
  · simp at h
  rename_i p1 e1
  have w1 : WOk qp p1 := by
    split at e1
    · exact cached_ok hc hu1 w0 e1
    · simp only [Option.some.injEq] at e1; exact e1 ▸ w0
  split at h
  · simp at h
  rename_i s2 e2
  have w2 : WOk hp s2 := by
    split at e2
    · exact seps_ok hc h1 e2
    · simp only [Option.some.injEq] at e2; exact e2 ▸ h1
  split at h
  · simp at h
  rename_i s3 e3
  have w3 : WOk hp s3 := by
    split at e3
    · exact seps_ok hc w2 e3
    · simp only [Option.some.injEq] at e3; exact e3 ▸ w2
  simp only [Prod.mk.injEq, Option.some.injEq] at h
  obtain ⟨_, rfl, rfl⟩ := h
  exact ⟨w3, w1⟩

/-- The planes kept after the tests. -/
theorem visTests_seps {cfg : Cfg K} {hp lp qp : Plane K} {ps pp : SWind K} {k : Cache K}
    {source pass : SWind K} (pl : Plane K)
    (h : pl ∈ (visTests cfg hp lp qp ps pp k source pass).1.seps0 ∨
      pl ∈ (visTests cfg hp lp qp ps pp k source pass).1.seps1) :
    pl ∈ k.seps0 ∨ pl ∈ k.seps1 ∨ (∃ sep, Found cfg hp ps.pts pp.pts sep ∧ pl = turned false sep) ∨
      ∃ sep, Found cfg lp pp.pts ps.pts sep ∧ pl = turned true sep := by
  have key0 : ∀ t, pl ∈ (if cfg.level > 0 then cachedTest cfg k.seps0 ps.pts hp pp.pts false t else (k.seps0, some t)).1 →
      pl ∈ k.seps0 ∨ ∃ sep, Found cfg hp ps.pts pp.pts sep ∧ pl = turned false sep := by
    intro t ht
    split at ht
    · exact cached_seps pl ht
    · exact Or.inl ht
  have key1 : ∀ t, pl ∈ (if cfg.level > 1 then cachedTest cfg k.seps1 pp.pts lp ps.pts true t else (k.seps1, some t)).1 →
      pl ∈ k.seps1 ∨ ∃ sep, Found cfg lp pp.pts ps.pts sep ∧ pl = turned true sep := by
    intro t ht
    split at ht
    · exact cached_seps pl ht
    · exact Or.inl ht
  have fin0 : ∀ t, pl ∈ (if cfg.level > 0 then cachedTest cfg k.seps0 ps.pts hp pp.pts false t else (k.seps0, some t)).1 →
      pl ∈ k.seps0 ∨ pl ∈ k.seps1 ∨ (∃ sep, Found cfg hp ps.pts pp.pts sep ∧ pl = turned false sep) ∨
      ∃ sep, Found cfg lp pp.pts ps.pts sep ∧ pl = turned true sep := fun t ht => (key0 t ht).elim (fun h => Or.inl h) (fun h => Or.inr (Or.inr (Or.inl h)))
  have fin1 : ∀ t, pl ∈ (if cfg.level > 1 then cachedTest cfg k.seps1 pp.pts lp ps.pts true t else (k.seps1, some t)).1 →
      pl ∈ k.seps0 ∨ pl ∈ k.seps1 ∨ (∃ sep, Found cfg hp ps.pts pp.pts sep ∧ pl = turned false sep) ∨
      ∃ sep, Found cfg lp pp.pts ps.pts sep ∧ pl = turned true sep :=
    fun t ht => (key1 t ht).elim (fun h => Or.inr (Or.inl h)) (fun h => Or.inr (Or.inr (Or.inr h)))
  unfold visTests at h
  simp only at h
  rcases h with h | h
  · refine fin0 pass ?_
    split at h
    · exact h
    split at h
    · exact h
    split at h
    · exact h
    split at h
    · exact h
    · exact h
  · split at h
    · exact Or.inr (Or.inl h)
    · rename_i p0 e0
      refine fin1 p0 ?_
      split at h
      · exact h
      split at h
      · exact h
      split at h
      · exact h
      · exact h

theorem visTests_inside {cfg : Cfg K} (hc : CfgOk cfg) {hp lp qp : Plane K} {ps pp : SWind K} {k : Cache K}
    (hu0 : ∀ p ∈ k.seps0, UnitNormal p) (hu1 : ∀ p ∈ k.seps1, UnitNormal p)
    {source pass : SWind K} (hps : WOk hp ps) (hpp : WOk lp pp) (h1 : WOk hp source) (h2 : WOk qp pass)
    {a u : Vec K} {th tl tq : K} (t1 : th < tl) (t2 : tl < tq)
    (ips : Inside hp ps.pts (lineAt a u th)) (ipp : Inside lp pp.pts (lineAt a u tl))
    (i1 : Inside hp source.pts (lineAt a u th)) (i2 : Inside qp pass.pts (lineAt a u tq))
    (hk0 : ∀ p ∈ k.seps0, 0 < p.distTo (lineAt a u tq)) (hk1 : ∀ p ∈ k.seps1, 0 < p.distTo (lineAt a u tq)) :
    ∃ source' pass' , (visTests cfg hp lp qp ps pp k source pass).2 = some (source', pass') ∧
      Inside hp source'.pts (lineAt a u th) ∧ Inside qp pass'.pts (lineAt a u tq) := by
  unfold visTests
  simp only
  obtain ⟨p0, e0, w0, j0⟩ : ∃ p0, (if cfg.level > 0 then cachedTest cfg k.seps0 ps.pts hp pp.pts false pass
      else (k.seps0, some pass)).2 = some p0 ∧ WOk qp p0 ∧ Inside qp p0.pts (lineAt a u tq) := by
    split
    · obtain ⟨p0, e, i⟩ := cached_inside hc hu0 h2 i2 hk0 (src := ps.pts) (srcPl := hp) (pass := pp.pts) (flip := false)
        (fun sep hs => found_line hc hs hps.convex ips (inside_hull ipp) false (by
          simp only [Bool.false_eq_true, ↓reduceIte]
          exact mul_pos (by linarith) (by linarith)))
      exact ⟨p0, e, cached_ok hc hu0 h2 e, i⟩
    · exact ⟨pass, rfl, h2, i2⟩
  rw [e0]
  simp only
  obtain ⟨p1, e1, w1, j1⟩ : ∃ p1, (if cfg.level > 1 then cachedTest cfg k.seps1 pp.pts lp ps.pts true p0
      else (k.seps1, some p0)).2 = some p1 ∧ WOk qp p1 ∧ Inside qp p1.pts (lineAt a u tq) := by
    split
    · obtain ⟨p1, e, i⟩ := cached_inside hc hu1 w0 j0 hk1 (src := pp.pts) (srcPl := lp) (pass := ps.pts) (flip := true)
        (fun sep hs => found_line hc hs hpp.convex ipp (inside_hull ips) true (by
          simp only [↓reduceIte]
          exact mul_pos (by linarith) (by linarith)))
      exact ⟨p1, e, cached_ok hc hu1 w0 e, i⟩
    · exact ⟨p0, rfl, w0, j0⟩
  rw [e1]
  simp only
  obtain ⟨s2, e2, w2, j2⟩ : ∃ s2, (if cfg.level > 2 then (clipToSeps cfg qp pp.pts false (ring p1.pts) source).2
      else some source) = some s2 ∧ WOk hp s2 ∧ Inside hp s2.pts (lineAt a u th) := by
    split
    · obtain ⟨s2, e, i⟩ := seps_inside hc h1 i1 (src := p1) (srcPl := qp) (pass := pp.pts) (flip := false)
        (fun sep hs => found_line hc hs w1.convex j1 (inside_hull ipp) false (by
          simp only [Bool.false_eq_true, ↓reduceIte]
          exact mul_pos_of_neg_of_neg (by linarith) (by linarith)))
      exact ⟨s2, e, seps_ok hc h1 e, i⟩
    · exact ⟨source, rfl, h1, i1⟩
  rw [e2]
  simp only
  obtain ⟨s3, e3, j3⟩ : ∃ s3, (if cfg.level > 3 then (clipToSeps cfg lp p1.pts true (ring pp.pts) s2).2
      else some s2) = some s3 ∧ Inside hp s3.pts (lineAt a u th) := by
    split
    · exact seps_inside hc w2 j2 (src := pp) (srcPl := lp) (pass := p1.pts) (flip := true)
        (fun sep hs => found_line hc hs hpp.convex ipp (inside_hull j1) true (by
          simp only [↓reduceIte]
          exact mul_pos_of_neg_of_neg (by linarith) (by linarith)))
    · exact ⟨s2, rfl, j2⟩
  rw [e3]
  exact ⟨s3, p1, rfl, j3, j1⟩

/-! ### The windings of a frame -/

/-- The windings of the frame of the walk `c` lie in the planes of its first and its last portal, and every
line through the walk goes through the inside of both. -/
structure WinOk (geo : Geo Portal K) (flat gap : K) (c : List Portal) (d : Wins K) : Prop where
  ne : c ≠ []
  source : ∀ h ∈ c.head?, WOk (geo.plane h) d.source
  pass : ∀ l ∈ c.getLast?, ∀ pp ∈ d.pass, WOk (geo.plane l) pp
  long : ∀ pp ∈ d.pass, 2 ≤ c.length
  line : ∀ a u l, l.map Prod.fst = c → Passes geo flat gap a u l →
    (∀ x ∈ l.head?, Inside (geo.plane x.1) d.source.pts (lineAt a u x.2)) ∧
    ∀ y ∈ l.getLast?, ∀ pp ∈ d.pass, Inside (geo.plane y.1) pp.pts (lineAt a u y.2)

/-- Every line through the walk is in front of the planes kept, after it has left the last portal. -/
def SepsOk (geo : Geo Portal K) (flat gap : K) (c : List Portal) (k : Cache K) : Prop :=
  ∀ sep, sep ∈ k.seps0 ∨ sep ∈ k.seps1 → UnitNormal sep ∧ ∀ a u l, l.map Prod.fst = c → Passes geo flat gap a u l →
    ∀ y ∈ l.getLast?, ∀ t, y.2 < t → 0 < sep.distTo (lineAt a u t)

theorem passes_append {geo : Geo Portal K} {flat gap : K} {a u : Vec K} {l m : List (Portal × K)}
    (h : Passes geo flat gap a u (l ++ m)) : Passes geo flat gap a u l ∧ Passes geo flat gap a u m :=
  ⟨⟨fun x hx => h.crosses x (List.mem_append_left _ hx), (List.pairwise_append.1 h.order).1⟩,
   ⟨fun x hx => h.crosses x (List.mem_append_right _ hx), (List.pairwise_append.1 h.order).2.1⟩⟩

/-- The first and the last of two or more. -/
theorem first_last {α : Type} {R : α → α → Prop} {l : List α} (h : l.Pairwise R) (hl : 2 ≤ l.length) {x y : α}
    (hx : x ∈ l.head?) (hy : y ∈ l.getLast?) : R x y := by
  match l, hl with
  | b :: c :: l, _ =>
    simp only [List.head?_cons, Option.mem_some_iff] at hx
    subst hx
    refine (List.pairwise_cons.1 h).1 y ?_
    rw [List.getLast?_cons_cons] at hy
    exact List.mem_of_getLast? hy

theorem eps_steep {eq flat : K} (he : eq ≤ flat) {n m u : Vec K} (h : epsEqual eq n ⟨-m.x, -m.y, -m.z⟩ = true)
    (h1 : flat * (|u.x| + |u.y| + |u.z|) < 2 * dot n u) (h2 : flat * (|u.x| + |u.y| + |u.z|) < 2 * dot m u) : False := by
  simp only [epsEqual, sub_neg_eq_add, Bool.and_eq_true, decide_eq_true_eq] at h
  obtain ⟨⟨hx, hy⟩, hz⟩ := h
  have e1 : |u.x| * -|n.x + m.x| ≤ u.x * -(n.x + m.x) := by
    have := mul_ge_of_abs (a := u.x) (b := -(n.x + m.x)) (r := |n.x + m.x|) (by rw [abs_neg])
    linarith
  have e2 : |u.y| * -|n.y + m.y| ≤ u.y * -(n.y + m.y) := by
    have := mul_ge_of_abs (a := u.y) (b := -(n.y + m.y)) (r := |n.y + m.y|) (by rw [abs_neg])
    linarith
  have e3 : |u.z| * -|n.z + m.z| ≤ u.z * -(n.z + m.z) := by
    have := mul_ge_of_abs (a := u.z) (b := -(n.z + m.z)) (r := |n.z + m.z|) (by rw [abs_neg])
    linarith
  have f1 := mul_le_mul_of_nonneg_left (hx.trans he) (abs_nonneg u.x)
  have f2 := mul_le_mul_of_nonneg_left (hy.trans he) (abs_nonneg u.y)
  have f3 := mul_le_mul_of_nonneg_left (hz.trans he) (abs_nonneg u.z)
  simp only [dot] at h1 h2
  nlinarith

variable {G : Graph Leaf Portal} {geo : Geo Portal K} {cfg : Cfg K} {flat gap : K}

theorem map_wok (hm : MapOk G geo) (p : Portal) : WOk (geo.plane p) (geo.wind p) :=
  ⟨hm.convex p, reach_of_sphere (hm.radius p) (hm.sphere p)⟩

theorem look_seps (hc : CfgOk cfg) {c : List Portal} {d : Wins K} {k : Cache K} {q : Portal}
    (ho : WinOk geo flat gap c d) (hk : SepsOk geo flat gap c k) :
    SepsOk geo flat gap c (lookThrough cfg geo c d k q).1 := by
  unfold lookThrough
  split
  swap
  · exact hk
  rename_i h l eh el
  split
  · exact hk
  split
  · exact hk
  split
  · exact hk
  rename_i pp epp
  split
  · exact hk
  split
  · exact hk
  rename_i source _
  have key : ∀ pass, SepsOk geo flat gap c
      (visTests cfg (geo.plane h) (geo.plane l) (geo.plane q) d.source pp k source pass).1 := by
    intro pass sep hsep
    have hlen := ho.long pp epp
    have wps := ho.source h eh
    have wpp := ho.pass l el pp epp
    -- the planes found between the source and the pass winding
    have two : ∀ a u (lst : List (Portal × K)), lst.map Prod.fst = c → Passes geo flat gap a u lst →
        ∀ y ∈ lst.getLast?, ∃ th, th < y.2 ∧ Inside (geo.plane h) d.source.pts (lineAt a u th) ∧
          Inside (geo.plane l) pp.pts (lineAt a u y.2) := by
      intro a u lst hmap hpass y hy
      have hlen' : 2 ≤ lst.length := by rw [← hmap, List.length_map] at hlen; exact hlen
      obtain ⟨x, hx⟩ : ∃ x, x ∈ lst.head? := by
        match lst, hlen' with
        | b :: _, _ => exact ⟨b, by simp⟩
      have hx1 : x.1 = h := by
        have : c.head? = some x.1 := by rw [← hmap, List.head?_map, hx]; rfl
        rw [eh] at this; exact (Option.some.inj this).symm
      have hy1 : y.1 = l := by
        have : c.getLast? = some y.1 := by rw [← hmap, List.getLast?_map, hy]; rfl
        rw [el] at this; exact (Option.some.inj this).symm
      obtain ⟨i1, i2⟩ := ho.line a u lst hmap hpass
      have hlt := (first_last hpass.order hlen' hx hy).1
      have j1 := i1 x hx
      have j2 := i2 y hy pp epp
      rw [hx1] at j1; rw [hy1] at j2
      exact ⟨x.2, hlt, j1, j2⟩
    rcases visTests_seps sep hsep with hs | hs | ⟨s, hs, rfl⟩ | ⟨s, hs, rfl⟩
    · exact hk sep (Or.inl hs)
    · exact hk sep (Or.inr hs)
    · refine ⟨found_unit hc false hs, ?_⟩
      intro a u lst hmap hpass y hy t ht
      obtain ⟨th, hth, j1, j2⟩ := two a u lst hmap hpass y hy
      refine found_line hc hs wps.convex j1 (inside_hull j2) false ?_
      simp only [Bool.false_eq_true, ↓reduceIte]
      exact mul_pos (by linarith) (by linarith)
    · refine ⟨found_unit hc true hs, ?_⟩
      intro a u lst hmap hpass y hy t ht
      obtain ⟨th, hth, j1, j2⟩ := two a u lst hmap hpass y hy
      refine found_line hc hs wpp.convex j2 (inside_hull j1) true ?_
      simp only [↓reduceIte]
      exact mul_pos (by linarith) (by linarith)
  rename_i pass _ _ _
  have := key pass
  split
  · rename_i e; rw [e] at this; exact this
  · rename_i e; rw [e] at this; exact this

/-- A line through the walk and then, perhaps after others, through `q`: the tests pass, and the line goes
through the windings that are left. -/
theorem look_line (hc : CfgOk cfg) (he : cfg.eq ≤ flat) (hg : 0 ≤ gap) (hm : MapOk G geo) {c : List Portal} {d : Wins K}
    {k : Cache K} {q : Portal} (ho : WinOk geo flat gap c d) (hk : SepsOk geo flat gap c k) {a u : Vec K}
    {lc lm : List (Portal × K)} {tq : K} (hmap : lc.map Prod.fst = c) (hne : lc ≠ [])
    (hpass : Passes geo flat gap a u (lc ++ lm ++ [(q, tq)])) :
    ∃ d', (lookThrough cfg geo c d k q).2 = some d' ∧
      (∀ x ∈ lc.head?, Inside (geo.plane x.1) d'.source.pts (lineAt a u x.2)) ∧
      ∃ pp', d'.pass = some pp' ∧ Inside (geo.plane q) pp'.pts (lineAt a u tq) := by
  obtain ⟨x, hx⟩ : ∃ x, x ∈ lc.head? := by
    cases lc with
    | nil => exact absurd rfl hne
    | cons b _ => exact ⟨b, by simp⟩
  obtain ⟨y, hy⟩ : ∃ y, y ∈ lc.getLast? := ⟨lc.getLast hne, List.getLast?_eq_some_getLast hne⟩
  have hxm : x ∈ lc := List.mem_of_mem_head? hx
  have hym : y ∈ lc := List.mem_of_getLast? hy
  have eh : c.head? = some x.1 := by rw [← hmap, List.head?_map, hx]; rfl
  have el : c.getLast? = some y.1 := by rw [← hmap, List.getLast?_map, hy]; rfl
  have hpc : Passes geo flat gap a u lc := (passes_append (passes_append hpass).1).1
  obtain ⟨i1, i2⟩ := ho.line a u lc hmap hpc
  have ord : ∀ z ∈ lc, z.2 < tq ∧ gap < (geo.plane z.1).distTo (lineAt a u tq) ∧
      (geo.plane q).distTo (lineAt a u z.2) < -gap := fun z hz =>
    (List.pairwise_append.1 hpass.order).2.2 z (List.mem_append_left _ hz) (q, tq) (by simp)
  have cy := hpass.crosses y (by simp [hym])
  have cq := hpass.crosses (q, tq) (by simp)
  obtain ⟨_, fx, bx⟩ := ord x hxm
  obtain ⟨ty, fy, _⟩ := ord y hym
  have bx' : 0 < (negPlane (geo.plane q)).distTo (lineAt a u x.2) := by
    rw [negPlane_eq, neg_distTo]; linarith
  unfold lookThrough
  rw [eh, el]
  simp only
  have hneg : ¬ epsEqual cfg.eq (geo.plane y.1).normal (negPlane (geo.plane q)).normal = true :=
    fun hcon => eps_steep he hcon cy.1 cq.1
  rw [if_neg hneg, hc.on]
  obtain ⟨p1, e1, j1⟩ := clipStack_inside (hm.unit x.1) (map_wok hm q) cq.2 (by linarith : 0 < (geo.plane x.1).distTo _)
  have w1 := clipStack_ok (hm.unit x.1) (map_wok hm q) e1
  rw [e1]
  simp only
  cases epp : d.pass with
  | none =>
    simp only
    refine ⟨_, rfl, ?_, p1, rfl, j1⟩
    intro z hz
    rw [hx] at hz
    cases hz
    exact i1 x hx
  | some pp =>
    simp only
    have wps := ho.source x.1 eh
    have wpp := ho.pass y.1 el pp epp
    obtain ⟨p2, e2, j2⟩ := clipStack_inside (hm.unit y.1) w1 j1 (by linarith : 0 < (geo.plane y.1).distTo _)
    have w2 := clipStack_ok (hm.unit y.1) w1 e2
    rw [e2]
    simp only
    obtain ⟨s1, e3, j3⟩ := clipStack_inside (neg_unit (hm.unit q)) wps (i1 x hx) bx'
    have w3 := clipStack_ok (neg_unit (hm.unit q)) wps e3
    rw [negPlane_eq, e3]
    simp only
    have hlen : 2 ≤ lc.length := by have := ho.long pp epp; rw [← hmap, List.length_map] at this; exact this
    obtain ⟨s', p', e4, j4, j5⟩ := visTests_inside hc (k := k) (ps := d.source) (pp := pp)
      (fun p hp => (hk p (Or.inl hp)).1) (fun p hp => (hk p (Or.inr hp)).1) wps wpp w3 w2
      (first_last hpc.order hlen hx hy).1 ty (i1 x hx) (i2 y hy pp epp) j3 j2
      (fun p hp => (hk p (Or.inl hp)).2 a u lc hmap hpc y hy tq ty)
      (fun p hp => (hk p (Or.inr hp)).2 a u lc hmap hpc y hy tq ty)
    split
    · rename_i e; rw [e] at e4; simp at e4
    · rename_i e
      rw [e] at e4
      simp only [Option.some.injEq, Prod.mk.injEq] at e4
      obtain ⟨rfl, rfl⟩ := e4
      refine ⟨_, rfl, ?_, _, rfl, j5⟩
      intro z hz
      rw [hx] at hz
      cases hz
      exact j4

theorem look_win (hc : CfgOk cfg) (hm : MapOk G geo) {c : List Portal} {d d' : Wins K} {k : Cache K} {q : Portal}
    (ho : WinOk geo flat gap c d) (hk : SepsOk geo flat gap c k) (h : (lookThrough cfg geo c d k q).2 = some d') :
    (∀ h ∈ c.head?, WOk (geo.plane h) d'.source) ∧ (∀ pp ∈ d'.pass, WOk (geo.plane q) pp) ∧ c ≠ [] := by
  unfold lookThrough at h
  rw [hc.on] at h
  split at h
  swap
  · simp at h
  rename_i hh l eh el
  have hne : c ≠ [] := by rintro rfl; simp at eh
  split at h
  · simp at h
  split at h
  · simp at h
  rename_i p1 e1
  have w1 := clipStack_ok (hm.unit hh) (map_wok hm q) e1
  split at h
  · simp only [Option.some.injEq] at h
    subst h
    refine ⟨ho.source, ?_, hne⟩
    intro pp hpp
    cases hpp
    exact w1
  rename_i pp epp
  split at h
  · simp at h
  rename_i p2 e2
  have w2 := clipStack_ok (hm.unit l) w1 e2
  split at h
  · simp at h
  rename_i s1 e3
  have w3 := clipStack_ok (neg_unit (hm.unit q)) (ho.source hh eh) (by rw [← negPlane_eq]; exact e3)
  split at h
  · simp at h
  rename_i k' s' p' e4
  simp only [Option.some.injEq] at h
  subst h
  obtain ⟨w4, w5⟩ := visTests_ok hc (fun p hp => (hk p (Or.inl hp)).1) (fun p hp => (hk p (Or.inr hp)).1) w3 w2 e4
  refine ⟨?_, ?_, hne⟩
  · intro z hz
    rw [eh] at hz
    cases hz
    exact w4
  · intro pp hpp
    cases hpp
    exact w5

theorem look_ok (hc : CfgOk cfg) (he : cfg.eq ≤ flat) (hg : 0 ≤ gap) (hm : MapOk G geo) {c : List Portal} {d d' : Wins K}
    {k : Cache K} {q : Portal} (ho : WinOk geo flat gap c d) (hk : SepsOk geo flat gap c k)
    (h : (lookThrough cfg geo c d k q).2 = some d') : WinOk geo flat gap (c ++ [q]) d' := by
  obtain ⟨w1, w2, hne⟩ := look_win hc hm ho hk h
  refine ⟨by simp, ?_, ?_, ?_, ?_⟩
  · intro z hz
    refine w1 z ?_
    rwa [List.head?_append_of_ne_nil _ hne] at hz
  · intro l hl
    simp only [List.getLast?_append, List.getLast?_singleton, Option.some_or, Option.mem_some_iff] at hl
    subst hl
    exact w2
  · intro pp _
    have := List.length_pos_iff.2 hne
    simp; omega
  · intro a u l hmap hpass
    obtain ⟨lc, lq, rfl, h1, h2⟩ := List.map_eq_append_iff.1 hmap
    obtain ⟨⟨q', tq⟩, rfl, h3⟩ := List.map_eq_singleton_iff.1 h2
    simp only at h3
    subst h3
    have hlc : lc ≠ [] := by rintro rfl; exact hne h1.symm
    obtain ⟨d'', e, i1, pp', e2, i2⟩ := look_line hc he hg hm ho hk (lm := []) h1 hlc (by simpa using hpass)
    rw [h] at e
    cases e
    refine ⟨?_, ?_⟩
    · intro x hx
      rw [List.head?_append_of_ne_nil _ hlc] at hx
      exact i1 x hx
    · intro y hy pp hpp
      simp only [List.getLast?_append, List.getLast?_singleton, Option.some_or, Option.mem_some_iff] at hy
      subst hy
      rw [e2] at hpp
      cases hpp
      exact i2

end Verif.Vis
