import Verif.Geom.PartLemmas
import Verif.BrushBsp.HullSpec
import Mathlib.Tactic.FieldSimp
import Mathlib.Tactic.Positivity

/-! Convex polygons in space, the points they span, and what clipping by a plane leaves of them (with no tolerance). -/

namespace Verif.Geom

open Spec

set_option linter.unusedSectionVars false

variable {K : Type} [Field K] [LinearOrder K] [IsStrictOrderedRing K]

theorem inHull_mono {w w' : List (Vec K)} {q : Vec K} (h : ∀ v ∈ w, v ∈ w') (hq : InHull w q) : InHull w' q := by
  intro g
  obtain ⟨v, hv, e⟩ := hq g
  exact ⟨v, h v hv, e⟩

/-- Any bound on the distances of the vertices is one for the hull. -/
theorem inHull_le {w : List (Vec K)} {q : Vec K} {pl : Plane K} {c : K} (hq : InHull w q)
    (h : ∀ v ∈ w, pl.distTo v ≤ c) : pl.distTo q ≤ c := by
  obtain ⟨v, hv, e⟩ := hq pl.normal
  have := h v hv
  simp only [Plane.distTo, dot] at *
  linarith

theorem inHull_ge {w : List (Vec K)} {q : Vec K} {pl : Plane K} {c : K} (hq : InHull w q)
    (h : ∀ v ∈ w, c ≤ pl.distTo v) : c ≤ pl.distTo q := by
  have := inHull_le (pl := pl.neg) (c := -c) hq (fun v hv => by rw [neg_distTo]; linarith [h v hv])
  rw [neg_distTo] at this
  linarith

theorem turn_seg (n a b c : Vec K) (s t : K) : turnOf n (along a b s) (along a b t) c = (t - s) * turnOf n a b c := by
  simp only [turnOf, along]; ring

theorem turn_along (n a b p q : Vec K) (t : K) :
    turnOf n a b (along p q t) = (1 - t) * turnOf n a b p + t * turnOf n a b q := by
  simp only [turnOf, along]; ring

theorem dot_along (n p q : Vec K) (t : K) : dot n (along p q t) = (1 - t) * dot n p + t * dot n q := by
  simp only [dot, along]; ring

/-- The direction in which two planes meet. -/
def meet (n m : Vec K) : Vec K := ⟨n.y * m.z - n.z * m.y, n.z * m.x - n.x * m.z, n.x * m.y - n.y * m.x⟩

/-- A point a way along a direction. -/
def go (p e : Vec K) (t : K) : Vec K := ⟨p.x + t * e.x, p.y + t * e.y, p.z + t * e.z⟩

theorem dot_go (g p e : Vec K) (t : K) : dot g (go p e t) = dot g p + t * dot g e := by
  simp only [dot, go]; ring

theorem dist_go (pl : Plane K) (p e : Vec K) (t : K) : pl.distTo (go p e t) = pl.distTo p + t * dot e pl.normal := by
  simp only [Plane.distTo, dot, go]; ring

/-- Two points on the line in which two planes meet. -/
theorem on_line {n : Vec K} {k : K} {pl : Plane K} {c m : Vec K} (he : 0 < dot (meet n pl.normal) (meet n pl.normal))
    (hc : dot n c = k) (hm : dot n m = k) (dc : pl.distTo c = 0) (dm : pl.distTo m = 0) :
    ∃ t, m = go c (meet n pl.normal) t := by
  have hn : n.x * (m.x - c.x) + n.y * (m.y - c.y) + n.z * (m.z - c.z) = 0 := by
    simp only [dot] at hc hm; linarith
  have hN : (m.x - c.x) * pl.normal.x + (m.y - c.y) * pl.normal.y + (m.z - c.z) * pl.normal.z = 0 := by
    simp only [Plane.distTo, dot] at dc dm; linarith
  set e := meet n pl.normal with hE
  have ex : e.x = n.y * pl.normal.z - n.z * pl.normal.y := rfl
  have ey : e.y = n.z * pl.normal.x - n.x * pl.normal.z := rfl
  have ez : e.z = n.x * pl.normal.y - n.y * pl.normal.x := rfl
  set y : Vec K := ⟨m.x - c.x, m.y - c.y, m.z - c.z⟩ with hy
  -- the cross product of `y` and `e` vanishes
  have c1 : y.y * e.z - y.z * e.y = 0 := by
    rw [ez, ey]; simp only [hy]; linear_combination n.x * hN - pl.normal.x * hn
  have c2 : y.z * e.x - y.x * e.z = 0 := by
    rw [ez, ex]; simp only [hy]; linear_combination n.y * hN - pl.normal.y * hn
  have c3 : y.x * e.y - y.y * e.x = 0 := by
    rw [ey, ex]; simp only [hy]; linear_combination n.z * hN - pl.normal.z * hn
  have hee : dot e e ≠ 0 := ne_of_gt he
  refine ⟨dot y e / dot e e, ?_⟩
  have f : dot y e / dot e e * dot e e = dot y e := div_mul_cancel₀ _ hee
  have gx : y.x = dot y e / dot e e * e.x := by
    have : y.x * dot e e = dot y e * e.x := by
      simp only [dot]; linear_combination e.y * c3 - e.z * c2
    field_simp; linarith
  have gy : y.y = dot y e / dot e e * e.y := by
    have : y.y * dot e e = dot y e * e.y := by
      simp only [dot]; linear_combination e.z * c1 - e.x * c3
    field_simp; linarith
  have gz : y.z = dot y e / dot e e * e.z := by
    have : y.z * dot e e = dot y e * e.z := by
      simp only [dot]; linear_combination e.x * c2 - e.y * c1
    field_simp; linarith
  simp only [hy] at gx gy gz
  cases m
  simp only [go, Vec.mk.injEq]
  refine ⟨by simp only at gx; linarith, by simp only at gy; linarith, by simp only at gz; linarith⟩

/-- Where a line in the plane of the polygon lies as seen from an edge. -/
theorem turn_line {n : Vec K} {k : K} {pl : Plane K} {a b : Vec K} {t s : K} (ha : dot n a = k) (hb : dot n b = k) :
    turnOf n a b (go (along a b t) (meet n pl.normal) s) = s * (dot n n) * (pl.distTo b - pl.distTo a) := by
  have h : n.x * (b.x - a.x) + n.y * (b.y - a.y) + n.z * (b.z - a.z) = 0 := by simp only [dot] at ha hb; linarith
  simp only [turnOf, go, along, meet, Plane.distTo, dot]
  linear_combination (-s * (n.x * pl.normal.x + n.y * pl.normal.y + n.z * pl.normal.z)) * h

/-- A change along the border. -/
theorem edge_change {α : Type} {X : α → Prop} {w : List α} (h1 : ∃ a ∈ w, X a) (h2 : ∃ b ∈ w, ¬ X b) :
    ∃ e ∈ edges w, X e.1 ∧ ¬ X e.2 := by
  by_contra hcon
  push Not at hcon
  cases w with
  | nil => simp at h1
  | cons first rest =>
    have step : ∀ (l : List α) (a : α), (∀ e ∈ pairs (a :: l), X e.1 → X e.2) → X a → ∀ x ∈ l, X x := by
      intro l
      induction l with
      | nil => simp
      | cons b l ih =>
        intro a h ha x hx
        have hb : X b := h (a, b) (by simp [pairs]) ha
        rcases List.mem_cons.1 hx with rfl | hx
        · exact hb
        · exact ih b (fun e he => h e (by rw [pairs_cons_mem]; exact Or.inr he)) hb x hx
    have hcon' : ∀ e ∈ pairs (first :: (rest ++ [first])), X e.1 → X e.2 := by
      intro e he; exact hcon e (by simpa [edges] using he)
    have sub : ∀ (l r : List α) (a : α), ∀ e ∈ pairs (a :: r), e ∈ pairs (l ++ a :: r) := by
      intro l
      induction l with
      | nil => simp
      | cons b l ih =>
        intro r a e he
        have := ih r a e he
        cases l with
        | nil => simp only [List.cons_append, List.nil_append] at *; rw [pairs_cons_mem]; exact Or.inr he
        | cons c l => simp only [List.cons_append] at *; rw [pairs_cons_mem]; exact Or.inr this
    have hfirst : X first := by
      obtain ⟨a, ha, hX⟩ := h1
      rcases List.mem_cons.1 ha with rfl | ha
      · exact hX
      · obtain ⟨l1, l2, rfl⟩ := List.append_of_mem ha
        refine step (l2 ++ [first]) a (fun e he => hcon' e ?_) hX first (by simp)
        have := sub (first :: l1) (l2 ++ [first]) a e he
        simpa using this
    obtain ⟨b, hb, hn⟩ := h2
    rcases List.mem_cons.1 hb with rfl | hb
    · exact hn hfirst
    · exact hn (step (rest ++ [first]) first hcon' hfirst b (by simp [hb]))

/-- A split point is in the part. -/
theorem frontLoop_split {pl : Plane K} {eps : K} (he : 0 ≤ eps) (hu : UnitNormal pl) {first : Vec K} {ps : List (Vec K)}
    {ss : List (K × Side)} (h : Infos pl eps first ps ss) :
    ∀ o ∈ pairs (ps ++ [first]),
      (sideOf eps (pl.distTo o.1) = .front ∧ sideOf eps (pl.distTo o.2) = .back) ∨
      (sideOf eps (pl.distTo o.1) = .back ∧ sideOf eps (pl.distTo o.2) = .front) →
      ∃ m ∈ clipFrontLoop pl first ps ss, IsSplit pl o.1 o.2 m := by
  induction h with
  | last => simp [pairs]
  | @cons p ps ss h ih =>
    have hpairs : pairs (p :: ps ++ [first]) = (p, ps.head?.getD first) :: pairs (ps ++ [first]) := by
      cases ps <;> simp [pairs]
    intro o ho hs
    rw [hpairs, List.mem_cons] at ho
    rcases frontLoop_cases (p := p) he hu h with ⟨h1, h2, hout⟩ | ⟨h1, h2, m, hm, hout⟩ | ⟨h1, h2, hout⟩ |
      ⟨h1, h2, m, hm, hout⟩ <;> rw [hout]
    · rcases ho with rfl | ho
      · rcases hs with hs | hs
        · exact absurd hs h2
        · exact absurd hs.1 h1
      · obtain ⟨x, hx, hxs⟩ := ih o ho hs
        exact ⟨x, List.mem_cons_of_mem _ hx, hxs⟩
    · rcases ho with rfl | ho
      · exact ⟨m, by simp, hm⟩
      · obtain ⟨x, hx, hxs⟩ := ih o ho hs
        exact ⟨x, List.mem_cons_of_mem _ (List.mem_cons_of_mem _ hx), hxs⟩
    · rcases ho with rfl | ho
      · rcases hs with hs | hs
        · rw [h1] at hs; cases hs.1
        · exact absurd hs.2 h2
      · exact ih o ho hs
    · rcases ho with rfl | ho
      · exact ⟨m, by simp, hm⟩
      · obtain ⟨x, hx, hxs⟩ := ih o ho hs
        exact ⟨x, List.mem_cons_of_mem _ hx, hxs⟩

theorem part_split {pl : Plane K} {eps : K} (he : 0 ≤ eps) (hu : UnitNormal pl) {w f : List (Vec K)} (h : Part pl eps w f)
    (o : Vec K × Vec K) (ho : o ∈ edges w) (hs : (sideOf eps (pl.distTo o.1) = .front ∧ sideOf eps (pl.distTo o.2) = .back) ∨
      (sideOf eps (pl.distTo o.1) = .back ∧ sideOf eps (pl.distTo o.2) = .front)) : ∃ m ∈ f, IsSplit pl o.1 o.2 m := by
  rcases h with ⟨rfl, hw⟩ | ⟨first, rest, ss, rfl, hi, rfl⟩
  · obtain ⟨m1, m2⟩ := mem_edges ho
    rcases hs with hs | hs
    · exact absurd hs.2 (hw _ m2)
    · exact absurd hs.1 (hw _ m1)
  · exact frontLoop_split he hu hi o (by simpa [edges] using ho) hs

theorem side_zero {d : K} : sideOf 0 d = if d > 0 then .front else if d < 0 then .back else .on := by
  simp [sideOf]

/-- The points of the border on the plane, where the border changes sides, are in the part. -/
theorem part_crossing {pl : Plane K} (hu : UnitNormal pl) {w f : List (Vec K)} (h : Part pl 0 w f)
    (o : Vec K × Vec K) (ho : o ∈ edges w)
    (hs : (0 < pl.distTo o.1 ∧ pl.distTo o.2 ≤ 0) ∨ (pl.distTo o.1 ≤ 0 ∧ 0 < pl.distTo o.2)) :
    ∃ t, along o.1 o.2 t ∈ f ∧ pl.distTo (along o.1 o.2 t) = 0 := by
  obtain ⟨m1, m2⟩ := mem_edges ho
  have keep := part_keeps (le_refl 0) hu h
  have sp := part_split (le_refl 0) hu h o ho
  have a0 : along o.1 o.2 0 = o.1 := by simp [along]
  have a1 : along o.1 o.2 1 = o.2 := by simp [along]
  rcases hs with ⟨h1, h2⟩ | ⟨h1, h2⟩
  · rcases lt_or_eq_of_le h2 with h2 | h2
    · obtain ⟨m, hm, hsp⟩ := sp (Or.inl ⟨by rw [side_zero, if_pos h1], by
        rw [side_zero, if_neg (by linarith), if_pos h2]⟩)
      obtain ⟨t, _, _, e⟩ := hsp.eq
      exact ⟨t, by rw [← e]; exact hm, by rw [← e]; exact hsp.on⟩
    · refine ⟨1, by rw [a1]; exact keep _ m2 (by rw [side_zero, h2]; simp), by rw [a1]; exact h2⟩
  · rcases lt_or_eq_of_le h1 with h1 | h1
    · obtain ⟨m, hm, hsp⟩ := sp (Or.inr ⟨by rw [side_zero, if_neg (by linarith), if_pos h1], by
        rw [side_zero, if_pos h2]⟩)
      obtain ⟨t, _, _, e⟩ := hsp.eq
      exact ⟨t, by rw [← e]; exact hm, by rw [← e]; exact hsp.on⟩
    · refine ⟨0, by rw [a0]; exact keep _ m1 (by rw [side_zero, h1]; simp), by rw [a0]; exact h1⟩

/-- A number between two lists of numbers. -/
theorem between {A B : List K} (h : ∀ a ∈ A, ∀ b ∈ B, a < b) : ∃ x, (∀ a ∈ A, a < x) ∧ ∀ b ∈ B, x < b := by
  have up : ∀ (A : List K), A = [] ∨ ∃ m ∈ A, ∀ a ∈ A, a ≤ m := by
    intro A
    induction A with
    | nil => exact Or.inl rfl
    | cons a A ih =>
      right
      rcases ih with rfl | ⟨m, hm, hA⟩
      · exact ⟨a, by simp, by simp⟩
      · rcases le_total a m with h | h
        · refine ⟨m, List.mem_cons_of_mem _ hm, ?_⟩
          intro x hx
          rcases List.mem_cons.1 hx with rfl | hx
          · exact h
          · exact hA x hx
        · refine ⟨a, List.mem_cons_self, ?_⟩
          intro x hx
          rcases List.mem_cons.1 hx with rfl | hx
          · exact le_refl _
          · exact le_trans (hA x hx) h
  have down : ∀ (A : List K), A = [] ∨ ∃ m ∈ A, ∀ a ∈ A, m ≤ a := by
    intro A
    rcases up (A.map fun x => -x) with h | ⟨m, hm, hA⟩
    · exact Or.inl (List.map_eq_nil_iff.1 h)
    · right
      obtain ⟨x, hx, rfl⟩ := List.mem_map.1 hm
      exact ⟨x, hx, fun a ha => by have := hA (-a) (List.mem_map_of_mem ha); linarith⟩
  rcases up A with rfl | ⟨m, hm, hA⟩
  · rcases down B with rfl | ⟨m', _, hB⟩
    · exact ⟨0, by simp, by simp⟩
    · exact ⟨m' - 1, by simp, fun b hb => by have := hB b hb; linarith⟩
  · rcases down B with rfl | ⟨m', hm', hB⟩
    · exact ⟨m + 1, fun a ha => by have := hA a ha; linarith, by simp⟩
    · have := h m hm m' hm'
      exact ⟨(m + m') / 2, fun a ha => by have := hA a ha; linarith, fun b hb => by have := hB b hb; linarith⟩

theorem meet_pos {n : Vec K} {pl : Plane K} {a b : Vec K} (hn : 0 < dot n n) (h : dot n a = dot n b)
    (hd : pl.distTo a ≠ pl.distTo b) : 0 < dot (meet n pl.normal) (meet n pl.normal) := by
  have hsq : ∀ e : Vec K, 0 ≤ dot e e := by
    intro e; simp only [dot]
    have := mul_self_nonneg e.x; have := mul_self_nonneg e.y; have := mul_self_nonneg e.z
    linarith
  rcases lt_or_eq_of_le (hsq (meet n pl.normal)) with h0 | h0
  · exact h0
  · exfalso
    set e := meet n pl.normal with hE
    have x0 : e.x = 0 := by
      have h1 := mul_self_nonneg e.x; have h2 := mul_self_nonneg e.y; have h3 := mul_self_nonneg e.z
      simp only [dot] at h0
      exact mul_self_eq_zero.1 (by linarith)
    have y0 : e.y = 0 := by
      have h1 := mul_self_nonneg e.x; have h2 := mul_self_nonneg e.y; have h3 := mul_self_nonneg e.z
      simp only [dot] at h0
      exact mul_self_eq_zero.1 (by linarith)
    have z0 : e.z = 0 := by
      have h1 := mul_self_nonneg e.x; have h2 := mul_self_nonneg e.y; have h3 := mul_self_nonneg e.z
      simp only [dot] at h0
      exact mul_self_eq_zero.1 (by linarith)
    simp only [hE, meet] at x0 y0 z0
    have hn0 : dot n n * (pl.distTo a - pl.distTo b) = 0 := by
      simp only [dot, Plane.distTo] at h ⊢
      linear_combination (n.x * pl.normal.x + n.y * pl.normal.y + n.z * pl.normal.z) * h
        + (n.z * (a.y - b.y) - n.y * (a.z - b.z)) * (-x0) + (n.x * (a.z - b.z) - n.z * (a.x - b.x)) * (-y0)
        + (n.y * (a.x - b.x) - n.x * (a.y - b.y)) * (-z0)
    rcases mul_eq_zero.1 hn0 with h' | h'
    · linarith
    · exact hd (by linarith)

/-- On a line across a convex polygon, nothing is outside the two points where the border crosses the line. -/
theorem crossing_bounds {n : Vec K} {k : K} {pl : Plane K} (hu : UnitNormal pl) {w f : List (Vec K)} (hw : ConvexIn n k w)
    (h : Part pl 0 w f) {g : Vec K} {c : K} (hg : ∀ v ∈ f, dot g v < c) {a b : Vec K} (ha : a ∈ w) (hb : b ∈ w)
    (da : 0 < pl.distTo a) (db : pl.distTo b < 0) {m : Vec K} (hm : OnSeg m a b) (dm : pl.distTo m = 0) : dot g m < c := by
  have he : 0 < dot (meet n pl.normal) (meet n pl.normal) :=
    meet_pos hw.ne (a := a) (b := b) (by rw [hw.flat a ha, hw.flat b hb]) (by intro hh; linarith)
  have fm : dot n m = k := by
    obtain ⟨t, _, _, rfl⟩ := hm
    rw [dot_along, hw.flat a ha, hw.flat b hb]; ring
  have tm : ∀ e ∈ edges w, 0 ≤ turnOf n e.1 e.2 m := by
    intro e hee
    obtain ⟨t, h0, h1, rfl⟩ := hm
    rw [turn_along]
    have := hw.turns e hee a ha
    have := hw.turns e hee b hb
    have : 0 ≤ 1 - t := by linarith
    positivity
  have key : ∀ o ∈ edges w, ((0 < pl.distTo o.1 ∧ pl.distTo o.2 ≤ 0) ∨ (pl.distTo o.1 ≤ 0 ∧ 0 < pl.distTo o.2)) →
      ∃ x ∈ f, ∃ s, m = go x (meet n pl.normal) s ∧ 0 ≤ s * (dot n n) * (pl.distTo o.2 - pl.distTo o.1) := by
    intro o ho hs
    obtain ⟨t, hx, dx⟩ := part_crossing hu h o ho hs
    obtain ⟨m1, m2⟩ := mem_edges ho
    have fx : dot n (along o.1 o.2 t) = k := by rw [dot_along, hw.flat _ m1, hw.flat _ m2]; ring
    obtain ⟨s, e⟩ := on_line he fx fm dx dm
    refine ⟨_, hx, s, e, ?_⟩
    rw [← turn_line (pl := pl) (t := t) (hw.flat _ m1) (hw.flat _ m2), ← e]
    exact tm o ho
  obtain ⟨o1, ho1, hX1, hX1'⟩ := edge_change (X := fun v => 0 < pl.distTo v) ⟨a, ha, da⟩ ⟨b, hb, by linarith⟩
  obtain ⟨o2, ho2, hX2, hX2'⟩ := edge_change (X := fun v => ¬ 0 < pl.distTo v) ⟨b, hb, by linarith⟩
    ⟨a, ha, fun hh => hh da⟩
  obtain ⟨x1, hx1, s1, e1, i1⟩ := key o1 ho1 (Or.inl ⟨hX1, not_lt.1 hX1'⟩)
  obtain ⟨x2, hx2, s2, e2, i2⟩ := key o2 ho2 (Or.inr ⟨not_lt.1 hX2, not_not.1 hX2'⟩)
  have s1' : s1 ≤ 0 := by
    by_contra hcon
    have h1 : 0 < s1 * dot n n := mul_pos (lt_of_not_ge hcon) hw.ne
    have h2 : pl.distTo o1.2 - pl.distTo o1.1 < 0 := by have := not_lt.1 hX1'; linarith
    have := mul_neg_of_pos_of_neg h1 h2
    linarith
  have s2' : 0 ≤ s2 := by
    by_contra hcon
    have h1 : s2 * dot n n < 0 := mul_neg_of_neg_of_pos (lt_of_not_ge hcon) hw.ne
    have h2 : 0 < pl.distTo o2.2 - pl.distTo o2.1 := by have := not_lt.1 hX2; have := not_not.1 hX2'; linarith
    have := mul_neg_of_neg_of_pos h1 h2
    linarith
  rcases le_total 0 (dot g (meet n pl.normal)) with hs | hs
  · have := hg x1 hx1
    rw [e1, dot_go]
    have := mul_nonpos_of_nonpos_of_nonneg s1' hs
    linarith
  · have := hg x2 hx2
    rw [e2, dot_go]
    have := mul_nonpos_of_nonneg_of_nonpos s2' hs
    linarith

/-- Clipping a convex polygon keeps all that is in front of the plane. -/
theorem part_hull {n : Vec K} {k : K} {pl : Plane K} (hu : UnitNormal pl) {w f : List (Vec K)} (hw : ConvexIn n k w)
    (h : Part pl 0 w f) {q : Vec K} (hq : InHull w q) (dq : 0 ≤ pl.distTo q) : InHull f q := by
  intro g
  by_contra hcon
  push Not at hcon
  have keep := part_keeps (le_refl 0) hu h
  have hon : ∀ v ∈ w, 0 ≤ pl.distTo v → dot g v < dot g q := by
    intro v hv hd
    apply hcon v
    apply keep v hv
    rw [side_zero]
    split
    · simp
    · rw [if_neg (by linarith)]; simp
  -- a multiple of the distance that makes all vertices smaller
  obtain ⟨l, hA, hB⟩ := between
    (A := 0 :: (w.filter fun v => pl.distTo v < 0).map fun v => (dot g v - dot g q) / -pl.distTo v)
    (B := (w.filter fun v => 0 < pl.distTo v).map fun v => (dot g q - dot g v) / pl.distTo v) (by
      intro x hx y hy
      obtain ⟨a, ha, rfl⟩ := List.mem_map.1 hy
      rw [List.mem_filter, decide_eq_true_eq] at ha
      rcases List.mem_cons.1 hx with rfl | hx
      · exact div_pos (by linarith [hon a ha.1 (le_of_lt ha.2)]) ha.2
      · obtain ⟨b, hb, rfl⟩ := List.mem_map.1 hx
        rw [List.mem_filter, decide_eq_true_eq] at hb
        have hd : 0 < pl.distTo a - pl.distTo b := by linarith
        have hne : pl.distTo a - pl.distTo b ≠ 0 := ne_of_gt hd
        have dm : pl.distTo (along a b (pl.distTo a / (pl.distTo a - pl.distTo b))) = 0 := by
          rw [distTo_along]; field_simp; ring
        have := crossing_bounds hu hw h hcon ha.1 hb.1 ha.2 hb.2
          ⟨pl.distTo a / (pl.distTo a - pl.distTo b), div_nonneg (le_of_lt ha.2) (le_of_lt hd),
            (div_le_one hd).2 (by linarith), rfl⟩ dm
        rw [dot_along] at this
        have h2 : (1 - pl.distTo a / (pl.distTo a - pl.distTo b)) * (pl.distTo a - pl.distTo b) = -pl.distTo b := by
          field_simp; ring
        have h3 : pl.distTo a / (pl.distTo a - pl.distTo b) * (pl.distTo a - pl.distTo b) = pl.distTo a := by
          field_simp
        have h4 := mul_lt_mul_of_pos_right this hd
        rw [div_lt_div_iff₀ (by linarith) ha.2]
        have h5 : ((1 - pl.distTo a / (pl.distTo a - pl.distTo b)) * dot g a +
            pl.distTo a / (pl.distTo a - pl.distTo b) * dot g b) * (pl.distTo a - pl.distTo b) =
            -pl.distTo b * dot g a + pl.distTo a * dot g b := by
          linear_combination (dot g a) * h2 + (dot g b) * h3
        rw [h5] at h4
        linarith)
  have hl : 0 < l := hA 0 (by simp)
  have small : ∀ v ∈ w, dot g v + l * pl.distTo v < dot g q := by
    intro v hv
    rcases lt_trichotomy (pl.distTo v) 0 with hd | hd | hd
    · have := hA _ (List.mem_cons_of_mem _ (List.mem_map_of_mem (List.mem_filter.2 ⟨hv, by simpa using hd⟩)))
      rw [div_lt_iff₀ (by linarith)] at this
      linarith
    · rw [hd]; have := hon v hv (by linarith); linarith
    · have := hB _ (List.mem_map_of_mem (List.mem_filter.2 ⟨hv, by simpa using hd⟩))
      rw [lt_div_iff₀ hd] at this
      linarith
  obtain ⟨v, hv, e⟩ := hq ⟨g.x + l * pl.normal.x, g.y + l * pl.normal.y, g.z + l * pl.normal.z⟩
  have hsm := small v hv
  have e1 : ∀ x : Vec K, dot ⟨g.x + l * pl.normal.x, g.y + l * pl.normal.y, g.z + l * pl.normal.z⟩ x =
      dot g x + l * pl.distTo x + l * pl.dist := by
    intro x; simp only [dot, Plane.distTo]; ring
  rw [e1, e1] at e
  have := mul_nonneg (le_of_lt hl) dq
  linarith

/-- The edges of a part: a piece of an edge in its direction, or along the plane from a point where the border leaves. -/
def FrontEdge0 (pl : Plane K) (orig : List (Vec K × Vec K)) (e : Vec K × Vec K) : Prop :=
  (∃ o ∈ orig, ∃ s t, s ≤ t ∧ e.1 = along o.1 o.2 s ∧ e.2 = along o.1 o.2 t) ∨
  (pl.distTo e.1 = 0 ∧ pl.distTo e.2 = 0 ∧ ∃ o ∈ orig, pl.distTo o.2 < pl.distTo o.1 ∧ ∃ t, e.1 = along o.1 o.2 t)

theorem frontEdge0_mono {pl : Plane K} {o o' : List (Vec K × Vec K)} (h : ∀ x ∈ o, x ∈ o') {e : Vec K × Vec K}
    (he : FrontEdge0 pl o e) : FrontEdge0 pl o' e := by
  rcases he with ⟨x, hx, a⟩ | ⟨a, b, x, hx, c⟩
  · exact Or.inl ⟨x, h x hx, a⟩
  · exact Or.inr ⟨a, b, x, h x hx, c⟩

theorem frontLoop_edges0 {pl : Plane K} (hu : UnitNormal pl) {first : Vec K} {ps : List (Vec K)}
    {ss : List (K × Side)} (h : Infos pl 0 first ps ss) (c : Vec K) (hc : HeadOk pl 0 first c) :
    ∀ e ∈ pairs (clipFrontLoop pl first ps ss ++ [c]), FrontEdge0 pl (pairs (ps ++ [first])) e := by
  have he : (0 : K) ≤ 0 := le_refl 0
  have a0 : ∀ p q : Vec K, p = along p q 0 := by intro p q; simp [along]
  have a1 : ∀ p q : Vec K, q = along p q 1 := by intro p q; simp [along]
  have back0 : ∀ x : Vec K, (-0 ≤ pl.distTo x ∧ pl.distTo x ≤ 0) → pl.distTo x = 0 := by
    intro x hx; rw [neg_zero] at hx; exact le_antisymm hx.2 hx.1
  induction h with
  | last => simp [clipFrontLoop, pairs]
  | @cons p ps ss h ih =>
    obtain ⟨d, l, e, hd⟩ := frontLoop_head he hu h c hc
    obtain ⟨pf, pm⟩ := pairs_first (first := first) (p := p) (ps := ps)
    have ih' := fun x hx => frontEdge0_mono pm (ih x hx)
    rcases frontLoop_cases (p := p) he hu h with ⟨h1, h2, ho⟩ | ⟨h1, h2, m, hm, ho⟩ | ⟨h1, h2, ho⟩ | ⟨h1, h2, m, hm, ho⟩
    · intro x hx
      rw [ho, List.cons_append, e, pairs_cons_mem] at hx
      rcases hx with rfl | hx
      · by_cases hq : sideOf 0 (pl.distTo (ps.head?.getD first)) = .back
        · right
          have hp0 : pl.distTo p = 0 := by
            cases hs : sideOf 0 (pl.distTo p) with
            | on => exact back0 _ (side_on hs)
            | front => exact absurd ⟨hs, hq⟩ h2
            | back => exact absurd hs h1
          have := side_back hq
          rw [neg_zero] at this
          exact ⟨hp0, back0 _ (hd.2 hq), _, pf, by simp only [hp0]; exact this, 0, a0 _ _⟩
        · left
          rw [hd.1 hq]
          exact ⟨_, pf, 0, 1, zero_le_one, a0 _ _, a1 _ _⟩
      · exact ih' x (by rw [e]; exact hx)
    · intro x hx
      rw [ho, List.cons_append, List.cons_append, pairs_cons_mem, e, pairs_cons_mem] at hx
      obtain ⟨t, ht0, ht1, et⟩ := hm.eq
      rcases hx with rfl | rfl | hx
      · exact Or.inl ⟨_, pf, 0, t, le_of_lt ht0, a0 _ _, et⟩
      · right
        have f1 := side_front h1
        have f2 := side_back h2
        rw [neg_zero] at f2
        exact ⟨hm.on, back0 _ (hd.2 h2), _, pf, by simp only; linarith, t, et⟩
      · exact ih' x (by rw [e]; exact hx)
    · intro x hx
      rw [ho] at hx
      exact ih' x hx
    · intro x hx
      rw [ho, List.cons_append, e, pairs_cons_mem] at hx
      obtain ⟨t, ht0, ht1, et⟩ := hm.eq
      rcases hx with rfl | hx
      · left
        rw [hd.1 (by simp [h2])]
        exact ⟨_, pf, t, 1, le_of_lt ht1, et, a1 _ _⟩
      · exact ih' x (by rw [e]; exact hx)

theorem part_edges0 {pl : Plane K} (hu : UnitNormal pl) {w f : List (Vec K)}
    (h : Part pl 0 w f) : ∀ e ∈ edges f, FrontEdge0 pl (edges w) e := by
  rcases h with ⟨rfl, hw⟩ | ⟨first, rest, ss, rfl, hi, rfl⟩
  · intro e hee
    exact Or.inl ⟨e, hee, 0, 1, zero_le_one, by simp [along], by simp [along]⟩
  · intro e hee
    unfold edges at hee
    split at hee
    · simp at hee
    · rename_i d l heq
      have hd := frontLoop_headOk (le_refl 0) hu hi d l heq
      simp only [List.head?_cons, Option.getD_some] at hd
      exact frontLoop_edges0 hu hi d hd e hee

/-- A vertex of a part is on the border of the polygon. -/
theorem part_onSeg {pl : Plane K} {eps : K} (he : 0 ≤ eps) (hu : UnitNormal pl) {w f : List (Vec K)} (h : Part pl eps w f) :
    ∀ v ∈ f, ∃ a ∈ w, ∃ b ∈ w, OnSeg v a b := by
  intro v hv
  rcases (part_vertices he hu h v hv).2 with h | ⟨o, ho, hs⟩
  · exact ⟨v, h, v, h, onSeg_left _ _⟩
  · obtain ⟨m1, m2⟩ := mem_edges ho
    exact ⟨o.1, m1, o.2, m2, split_onSeg hs⟩

/-- Clipping a convex polygon leaves a convex polygon. -/
theorem part_convex {n : Vec K} {k : K} {pl : Plane K} (hu : UnitNormal pl) {w f : List (Vec K)} (hw : ConvexIn n k w)
    (h : Part pl 0 w f) : ConvexIn n k f := by
  have seg := part_onSeg (le_refl 0) hu h
  have flat : ∀ v ∈ f, dot n v = k := by
    intro v hv
    obtain ⟨a, ha, b, hb, t, _, _, rfl⟩ := seg v hv
    rw [dot_along, hw.flat a ha, hw.flat b hb]; ring
  have tw : ∀ o ∈ edges w, ∀ v ∈ f, 0 ≤ turnOf n o.1 o.2 v := by
    intro o ho v hv
    obtain ⟨a, ha, b, hb, t, h0, h1, rfl⟩ := seg v hv
    rw [turn_along]
    have := hw.turns o ho a ha
    have := hw.turns o ho b hb
    have : 0 ≤ 1 - t := by linarith
    positivity
  refine ⟨hw.ne, flat, ?_⟩
  intro e hee c hc
  rcases part_edges0 hu h e hee with ⟨o, ho, s, t, hst, e1, e2⟩ | ⟨d1, d2, o, ho, hlt, t, e1⟩
  · rw [e1, e2, turn_seg]
    exact mul_nonneg (by linarith) (tw o ho c hc)
  · obtain ⟨m1, m2⟩ := mem_edges ho
    obtain ⟨f1, f2⟩ := mem_edges hee
    have he : 0 < dot (meet n pl.normal) (meet n pl.normal) :=
      meet_pos hw.ne (by rw [hw.flat _ m1, hw.flat _ m2]) (ne_of_gt hlt)
    obtain ⟨s, es⟩ := on_line he (flat _ f1) (flat _ f2) d1 d2
    have hs : s ≤ 0 := by
      have := tw o ho e.2 f2
      rw [es, e1, turn_line (pl := pl) (hw.flat _ m1) (hw.flat _ m2)] at this
      by_contra hcon
      have h1 : 0 < s * dot n n := mul_pos (lt_of_not_ge hcon) hw.ne
      have := mul_neg_of_pos_of_neg h1 (show pl.distTo o.2 - pl.distTo o.1 < 0 by linarith)
      linarith
    have dc : 0 ≤ pl.distTo c := by have := (part_vertices (le_refl 0) hu h c hc).1; linarith
    have key : turnOf n e.1 (go e.1 (meet n pl.normal) s) c = -s * (dot n n) * (pl.distTo c - pl.distTo e.1) := by
      have hh : n.x * (c.x - e.1.x) + n.y * (c.y - e.1.y) + n.z * (c.z - e.1.z) = 0 := by
        have h1 := flat c hc
        have h2 := flat _ f1
        simp only [dot] at h1 h2; linarith
      simp only [turnOf, go, meet, Plane.distTo, dot]
      linear_combination (s * (n.x * pl.normal.x + n.y * pl.normal.y + n.z * pl.normal.z)) * hh
    rw [es, key, d1]
    have : 0 ≤ -s * dot n n := mul_nonneg (by linarith) (le_of_lt hw.ne)
    exact mul_nonneg this (by linarith)

end Verif.Geom
