import Mathlib.Tactic.Ring
import Mathlib.Tactic.Linarith
import Mathlib.Tactic.LinearCombination
import Verif.Geom.Spec

/-! Lemmas about clipping. -/

namespace Verif.Geom

open Spec

set_option linter.unusedSectionVars false

variable {K : Type} [Field K] [LinearOrder K] [IsStrictOrderedRing K]

/-- What is known about the sides of consecutive points. -/
inductive Infos (pl : Plane K) (eps : K) (first : Vec K) : List (Vec K) → List (K × Side) → Prop
  | last : Infos pl eps first [] [(pl.distTo first, sideOf eps (pl.distTo first))]
  | cons {p : Vec K} {ps : List (Vec K)} {ss : List (K × Side)} (h : Infos pl eps first ps ss) :
      Infos pl eps first (p :: ps) ((pl.distTo p, sideOf eps (pl.distTo p)) :: ss)

theorem infos_calcSides (pl : Plane K) (eps : K) (first : Vec K) (w : List (Vec K)) :
    Infos pl eps first (first :: w) (calcSides pl eps (first :: w)) := by
  have key : ∀ w : List (Vec K), Infos pl eps first w
      (w.map (fun p => (pl.distTo p, sideOf eps (pl.distTo p))) ++ [(pl.distTo first, sideOf eps (pl.distTo first))]) := by
    intro w
    induction w with
    | nil => exact .last
    | cons p w ih => exact .cons ih
  simpa [calcSides] using key (first :: w)

/-- The information after a point belongs to the next point. -/
theorem infos_head {pl : Plane K} {eps : K} {first : Vec K} {ps : List (Vec K)} {ss : List (K × Side)}
    (h : Infos pl eps first ps ss) :
    ∃ ss', ss = (pl.distTo (ps.head?.getD first), sideOf eps (pl.distTo (ps.head?.getD first))) :: ss' := by
  cases h with
  | last => exact ⟨[], rfl⟩
  | cons h => exact ⟨_, rfl⟩

theorem side_front {eps d : K} (h : sideOf eps d = .front) : eps < d := by
  unfold sideOf at h
  split at h
  · assumption
  · split at h <;> simp at h

theorem side_back {eps d : K} (h : sideOf eps d = .back) : d < -eps := by
  unfold sideOf at h
  split at h
  · simp at h
  · split at h
    · assumption
    · simp at h

theorem side_on {eps d : K} (h : sideOf eps d = .on) : -eps ≤ d ∧ d ≤ eps := by
  unfold sideOf at h
  split at h
  · simp at h
  · rename_i h1
    split at h
    · simp at h
    · rename_i h2
      exact ⟨le_of_not_gt h2, le_of_not_gt h1⟩

theorem side_neg {eps d : K} (he : 0 ≤ eps) :
    sideOf eps (-d) = (match sideOf eps d with | .front => .back | .back => .front | .on => .on) := by
  unfold sideOf
  by_cases h1 : d > eps
  · rw [if_neg (by linarith), if_pos (by linarith), if_pos h1]
  · by_cases h2 : d < -eps
    · rw [if_pos (by linarith), if_neg h1, if_pos h2]
    · rw [if_neg (by linarith), if_neg (by linarith), if_neg h1, if_neg h2]

theorem distTo_along (pl : Plane K) (p q : Vec K) (t : K) :
    pl.distTo (along p q t) = pl.distTo p + t * (pl.distTo q - pl.distTo p) := by
  simp only [Plane.distTo, dot, along]
  ring

/-- A normal of length 1 with a coordinate 1 or -1 is axial. -/
theorem axial {a b c : K} (h : a * a + b * b + c * c = 1) (ha : a * a = 1) : b = 0 ∧ c = 0 := by
  have hb := mul_self_nonneg b
  have hc := mul_self_nonneg c
  constructor
  · exact mul_self_eq_zero.1 (by linarith)
  · exact mul_self_eq_zero.1 (by linarith)

/-- The split point is the point of the segment on the plane. -/
theorem splitPoint_eq {pl : Plane K} (hu : UnitNormal pl) (p q : Vec K) (h : pl.distTo p ≠ pl.distTo q) :
    splitPoint pl p q (pl.distTo p) (pl.distTo q) = along p q (pl.distTo p / (pl.distTo p - pl.distTo q)) := by
  have hd : pl.distTo p - pl.distTo q ≠ 0 := sub_ne_zero.2 h
  unfold UnitNormal dot at hu
  have key : ∀ n a b d1 d2 dist : K, (n = 1 ∨ n = -1) → d1 = a * n - dist → d2 = b * n - dist → d1 - d2 ≠ 0 →
      midCoord n dist a b (d1 / (d1 - d2)) = a + d1 / (d1 - d2) * (b - a) := by
    intro n a b d1 d2 dist hn h1 h2 h0
    unfold midCoord
    rcases hn with rfl | rfl
    · rw [if_pos rfl]
      have e : b - a = -(d1 - d2) := by rw [h1, h2]; ring
      rw [e, mul_neg, div_mul_cancel₀ _ h0, h1]
      ring
    · have h1ne : (-1 : K) ≠ 1 := by
        intro e
        have : (0 : K) < 1 := one_pos
        linarith
      rw [if_neg h1ne, if_pos rfl]
      have e : b - a = d1 - d2 := by rw [h1, h2]; ring
      rw [e, div_mul_cancel₀ _ h0, h1]
      ring
  have other : ∀ n a b t dist : K, ¬ (n = 1 ∨ n = -1) → midCoord n dist a b t = a + t * (b - a) := by
    intro n a b t dist hn
    unfold midCoord
    rw [if_neg (fun e => hn (Or.inl e)), if_neg (fun e => hn (Or.inr e))]
  have sq : ∀ n : K, (n = 1 ∨ n = -1) → n * n = 1 := by
    rintro n (rfl | rfl) <;> ring
  simp only [splitPoint, along, Vec.mk.injEq]
  refine ⟨?_, ?_, ?_⟩
  · by_cases hx : pl.normal.x = 1 ∨ pl.normal.x = -1
    · obtain ⟨hy, hz⟩ := axial hu (sq _ hx)
      exact key _ _ _ _ _ _ hx (by simp [Plane.distTo, dot, hy, hz]) (by simp [Plane.distTo, dot, hy, hz]) hd
    · exact other _ _ _ _ _ hx
  · by_cases hx : pl.normal.y = 1 ∨ pl.normal.y = -1
    · obtain ⟨hy, hz⟩ := axial (a := pl.normal.y) (b := pl.normal.x) (c := pl.normal.z) (by linarith) (sq _ hx)
      exact key _ _ _ _ _ _ hx (by simp [Plane.distTo, dot, hy, hz]) (by simp [Plane.distTo, dot, hy, hz]) hd
    · exact other _ _ _ _ _ hx
  · by_cases hx : pl.normal.z = 1 ∨ pl.normal.z = -1
    · obtain ⟨hy, hz⟩ := axial (a := pl.normal.z) (b := pl.normal.x) (c := pl.normal.y) (by linarith) (sq _ hx)
      exact key _ _ _ _ _ _ hx (by simp [Plane.distTo, dot, hy, hz]) (by simp [Plane.distTo, dot, hy, hz]) hd
    · exact other _ _ _ _ _ hx

/-- The split point of an edge that crosses the plane: on the edge and on the plane. -/
structure IsSplit (pl : Plane K) (p q m : Vec K) : Prop where
  eq : ∃ t, 0 < t ∧ t < 1 ∧ m = along p q t
  on : pl.distTo m = 0

theorem split_ok {pl : Plane K} (hu : UnitNormal pl) {p q : Vec K}
    (h : (pl.distTo p > 0 ∧ pl.distTo q < 0) ∨ (pl.distTo p < 0 ∧ pl.distTo q > 0)) :
    IsSplit pl p q (splitPoint pl p q (pl.distTo p) (pl.distTo q)) := by
  have hne : pl.distTo p ≠ pl.distTo q := by
    rcases h with ⟨h1, h2⟩ | ⟨h1, h2⟩ <;> intro e <;> linarith
  have hd : pl.distTo p - pl.distTo q ≠ 0 := sub_ne_zero.2 hne
  rw [splitPoint_eq hu p q hne]
  refine ⟨⟨_, ?_, ?_, rfl⟩, ?_⟩
  · rcases h with ⟨h1, h2⟩ | ⟨h1, h2⟩
    · exact div_pos h1 (by linarith)
    · exact div_pos_of_neg_of_neg h1 (by linarith)
  · rcases h with ⟨h1, h2⟩ | ⟨h1, h2⟩
    · rw [div_lt_one (by linarith)]; linarith
    · rw [div_lt_one_of_neg (by linarith)]; linarith
  · rw [distTo_along]
    have : pl.distTo p / (pl.distTo p - pl.distTo q) * (pl.distTo q - pl.distTo p) = -pl.distTo p := by
      rw [show pl.distTo q - pl.distTo p = -(pl.distTo p - pl.distTo q) by ring, mul_neg, div_mul_cancel₀ _ hd]
    rw [this]; ring

/-- A point of an edge of the front polygon: the cases in the loop. -/
theorem frontLoop_cases {pl : Plane K} {eps : K} (he : 0 ≤ eps) (hu : UnitNormal pl) {first p : Vec K} {ps : List (Vec K)}
    {ss : List (K × Side)} (h : Infos pl eps first ps ss) :
    let q := ps.head?.getD first
    let r := clipFrontLoop pl first ps ss
    let out := clipFrontLoop pl first (p :: ps) ((pl.distTo p, sideOf eps (pl.distTo p)) :: ss)
    (sideOf eps (pl.distTo p) ≠ .back ∧ ¬ (sideOf eps (pl.distTo p) = .front ∧ sideOf eps (pl.distTo q) = .back) ∧
      out = p :: r) ∨
    (sideOf eps (pl.distTo p) = .front ∧ sideOf eps (pl.distTo q) = .back ∧ ∃ m, IsSplit pl p q m ∧ out = p :: m :: r) ∨
    (sideOf eps (pl.distTo p) = .back ∧ sideOf eps (pl.distTo q) ≠ .front ∧ out = r) ∨
    (sideOf eps (pl.distTo p) = .back ∧ sideOf eps (pl.distTo q) = .front ∧ ∃ m, IsSplit pl p q m ∧ out = m :: r) := by
  intro q r out
  obtain ⟨ss', hss⟩ := infos_head h
  have hout : out = clipFrontLoop pl first (p :: ps) ((pl.distTo p, sideOf eps (pl.distTo p)) ::
      (pl.distTo q, sideOf eps (pl.distTo q)) :: ss') := by simp only [out, hss, q]
  have hr : r = clipFrontLoop pl first ps ((pl.distTo q, sideOf eps (pl.distTo q)) :: ss') := by simp only [r, hss, q]
  rw [hout, hr]
  simp only [clipFrontLoop]
  cases hp : sideOf eps (pl.distTo p) with
  | on => left; exact ⟨by simp, by simp, rfl⟩
  | front =>
    cases hq : sideOf eps (pl.distTo q) with
    | on => left; exact ⟨by simp, by simp, by simp⟩
    | front => left; exact ⟨by simp, by simp, by simp⟩
    | back =>
      right; left
      have h1 := side_front hp
      have h2 := side_back hq
      exact ⟨rfl, rfl, _, split_ok hu (Or.inl ⟨by linarith, by linarith⟩), by simp [q]⟩
  | back =>
    cases hq : sideOf eps (pl.distTo q) with
    | on => right; right; left; exact ⟨rfl, by simp, by simp⟩
    | back => right; right; left; exact ⟨rfl, by simp, by simp⟩
    | front =>
      right; right; right
      have h1 := side_back hp
      have h2 := side_front hq
      exact ⟨rfl, rfl, _, split_ok hu (Or.inr ⟨by linarith, by linarith⟩), by simp [q]⟩

theorem pairs_cons_mem {α : Type} (a b : α) (l : List α) (x : α × α) :
    x ∈ pairs (a :: b :: l) ↔ x = (a, b) ∨ x ∈ pairs (b :: l) := by simp [pairs]

/-- The element that follows: what is pushed for the point (or its successors) comes first. -/
def HeadOk (pl : Plane K) (eps : K) (p c : Vec K) : Prop :=
  (sideOf eps (pl.distTo p) ≠ .back → c = p) ∧
  (sideOf eps (pl.distTo p) = .back → -eps ≤ pl.distTo c ∧ pl.distTo c ≤ eps)

theorem frontLoop_head {pl : Plane K} {eps : K} (he : 0 ≤ eps) (hu : UnitNormal pl) {first : Vec K} {ps : List (Vec K)}
    {ss : List (K × Side)} (h : Infos pl eps first ps ss) (c : Vec K) (hc : HeadOk pl eps first c) :
    ∃ d l, clipFrontLoop pl first ps ss ++ [c] = d :: l ∧ HeadOk pl eps (ps.head?.getD first) d := by
  induction h with
  | last => exact ⟨c, [], by simp [clipFrontLoop], by simpa using hc⟩
  | @cons p ps ss h ih =>
    obtain ⟨d, l, e, hd⟩ := ih
    rcases frontLoop_cases (p := p) he hu h with ⟨h1, _, ho⟩ | ⟨h1, _, m, hm, ho⟩ | ⟨h1, h2, ho⟩ | ⟨h1, h2, m, hm, ho⟩
    · exact ⟨p, _, by rw [ho]; rfl, fun _ => rfl, fun hb => absurd hb h1⟩
    · exact ⟨p, _, by rw [ho]; rfl, fun _ => rfl, fun hb => by simp [h1] at hb⟩
    · refine ⟨d, l, by rw [ho]; exact e, fun hb => absurd h1 hb, fun _ => ?_⟩
      by_cases hq : sideOf eps (pl.distTo (ps.head?.getD first)) = .back
      · exact hd.2 hq
      · rw [hd.1 hq]
        cases hs : sideOf eps (pl.distTo (ps.head?.getD first)) with
        | on => exact side_on hs
        | front => exact absurd hs h2
        | back => exact absurd hs hq
    · refine ⟨m, _, by rw [ho]; rfl, fun hb => absurd h1 hb, fun _ => ?_⟩
      rw [hm.on]
      exact ⟨by linarith, he⟩

/-- An edge of the front polygon: a part of an original edge, or along the plane. -/
def FrontEdge (pl : Plane K) (eps : K) (orig : List (Vec K × Vec K)) (e : Vec K × Vec K) : Prop :=
  (∃ o ∈ orig, OnSeg e.1 o.1 o.2 ∧ OnSeg e.2 o.1 o.2) ∨
  ((-eps ≤ pl.distTo e.1 ∧ pl.distTo e.1 ≤ eps) ∧ (-eps ≤ pl.distTo e.2 ∧ pl.distTo e.2 ≤ eps))

theorem onSeg_left (p q : Vec K) : OnSeg p p q := ⟨0, le_refl _, zero_le_one, by simp [along]⟩

theorem onSeg_right (p q : Vec K) : OnSeg q p q := ⟨1, zero_le_one, le_refl _, by simp [along]⟩

theorem split_onSeg {pl : Plane K} {p q m : Vec K} (h : IsSplit pl p q m) : OnSeg m p q := by
  obtain ⟨t, h0, h1, e⟩ := h.eq
  exact ⟨t, le_of_lt h0, le_of_lt h1, e⟩

theorem frontEdge_mono {pl : Plane K} {eps : K} {o o' : List (Vec K × Vec K)} (h : ∀ x ∈ o, x ∈ o') {e : Vec K × Vec K}
    (he : FrontEdge pl eps o e) : FrontEdge pl eps o' e := by
  rcases he with ⟨x, hx, a⟩ | a
  · exact Or.inl ⟨x, h x hx, a⟩
  · exact Or.inr a

theorem pairs_first {first p : Vec K} {ps : List (Vec K)} :
    (p, ps.head?.getD first) ∈ pairs (p :: ps ++ [first]) ∧
    ∀ x ∈ pairs (ps ++ [first]), x ∈ pairs (p :: ps ++ [first]) := by
  cases ps with
  | nil => simp [pairs]
  | cons q ps => simp [pairs]; tauto

/-- Edges of the front polygon. -/
theorem frontLoop_edges {pl : Plane K} {eps : K} (he : 0 ≤ eps) (hu : UnitNormal pl) {first : Vec K} {ps : List (Vec K)}
    {ss : List (K × Side)} (h : Infos pl eps first ps ss) (c : Vec K) (hc : HeadOk pl eps first c) :
    ∀ e ∈ pairs (clipFrontLoop pl first ps ss ++ [c]), FrontEdge pl eps (pairs (ps ++ [first])) e := by
  induction h with
  | last => simp [clipFrontLoop, pairs]
  | @cons p ps ss h ih =>
    obtain ⟨d, l, e, hd⟩ := frontLoop_head he hu h c hc
    obtain ⟨pf, pm⟩ := pairs_first (first := first) (p := p) (ps := ps)
    have ih' := fun x hx => frontEdge_mono pm (ih x hx)
    rcases frontLoop_cases (p := p) he hu h with ⟨h1, h2, ho⟩ | ⟨h1, h2, m, hm, ho⟩ | ⟨h1, h2, ho⟩ | ⟨h1, h2, m, hm, ho⟩
    · intro x hx
      rw [ho, List.cons_append, e, pairs_cons_mem] at hx
      rcases hx with rfl | hx
      · by_cases hq : sideOf eps (pl.distTo (ps.head?.getD first)) = .back
        · right
          refine ⟨?_, hd.2 hq⟩
          cases hs : sideOf eps (pl.distTo p) with
          | on => exact side_on hs
          | front => exact absurd ⟨hs, hq⟩ h2
          | back => exact absurd hs h1
        · left
          rw [hd.1 hq]
          exact ⟨_, pf, onSeg_left _ _, onSeg_right _ _⟩
      · exact ih' x (by rw [e]; exact hx)
    · intro x hx
      rw [ho, List.cons_append, List.cons_append, pairs_cons_mem, e, pairs_cons_mem] at hx
      rcases hx with rfl | rfl | hx
      · exact Or.inl ⟨_, pf, onSeg_left _ _, split_onSeg hm⟩
      · right
        simp only [hm.on]
        exact ⟨⟨by linarith, he⟩, hd.2 h2⟩
      · exact ih' x (by rw [e]; exact hx)
    · intro x hx
      rw [ho] at hx
      exact ih' x hx
    · intro x hx
      rw [ho, List.cons_append, e, pairs_cons_mem] at hx
      rcases hx with rfl | hx
      · left
        rw [hd.1 (by simp [h2])]
        exact ⟨_, pf, split_onSeg hm, onSeg_right _ _⟩
      · exact ih' x (by rw [e]; exact hx)

theorem onSeg_dist_le {pl : Plane K} {x p q : Vec K} {d : K} (h : OnSeg x p q) (hp : pl.distTo p ≤ d)
    (hq : pl.distTo q ≤ d) : pl.distTo x ≤ d := by
  obtain ⟨t, h0, h1, rfl⟩ := h
  rw [distTo_along]
  nlinarith [mul_nonneg h0 (sub_nonneg.2 hq), mul_nonneg (sub_nonneg.2 h1) (sub_nonneg.2 hp)]

/-- The part of an edge in front of the split point. -/
theorem onSeg_front_part {pl : Plane K} {p q m x : Vec K} (hm : IsSplit pl p q m) (hp : pl.distTo p > 0)
    (hq : pl.distTo q < 0) (hx : OnSeg x p q) (hd : 0 < pl.distTo x) : OnSeg x p m := by
  obtain ⟨t, h0, h1, rfl⟩ := hx
  obtain ⟨s, s0, s1, rfl⟩ := hm.eq
  have hs := hm.on
  rw [distTo_along] at hs hd
  have hts : t ≤ s := by
    by_contra hcon
    have : s < t := lt_of_not_ge hcon
    have h2 : (t - s) * (pl.distTo q - pl.distTo p) < 0 := mul_neg_of_pos_of_neg (by linarith) (by linarith)
    nlinarith
  refine ⟨t / s, div_nonneg h0 (le_of_lt s0), (div_le_one s0).2 hts, ?_⟩
  have e : t / s * s = t := div_mul_cancel₀ _ (ne_of_gt s0)
  simp only [along, Vec.mk.injEq]
  refine ⟨?_, ?_, ?_⟩
  · linear_combination (-(q.x - p.x)) * e
  · linear_combination (-(q.y - p.y)) * e
  · linear_combination (-(q.z - p.z)) * e

theorem onSeg_symm {x p q : Vec K} (h : OnSeg x p q) : OnSeg x q p := by
  obtain ⟨t, h0, h1, rfl⟩ := h
  refine ⟨1 - t, by linarith, by linarith, ?_⟩
  simp only [along, Vec.mk.injEq]
  refine ⟨by ring, by ring, by ring⟩

theorem split_symm {pl : Plane K} {p q m : Vec K} (h : IsSplit pl p q m) : IsSplit pl q p m := by
  obtain ⟨t, h0, h1, e⟩ := h.eq
  refine ⟨⟨1 - t, by linarith, by linarith, ?_⟩, h.on⟩
  rw [e]
  simp only [along, Vec.mk.injEq]
  refine ⟨by ring, by ring, by ring⟩

/-- The part of the boundary in front of the plane is kept. -/
theorem frontLoop_covers {pl : Plane K} {eps : K} (he : 0 ≤ eps) (hu : UnitNormal pl) {first : Vec K} {ps : List (Vec K)}
    {ss : List (K × Side)} (h : Infos pl eps first ps ss) (c : Vec K) (hc : HeadOk pl eps first c) :
    ∀ o ∈ pairs (ps ++ [first]), ∀ x, OnSeg x o.1 o.2 → eps < pl.distTo x →
      ∃ e ∈ pairs (clipFrontLoop pl first ps ss ++ [c]), OnSeg x e.1 e.2 := by
  induction h with
  | last => simp [pairs]
  | @cons p ps ss h ih =>
    obtain ⟨d, l, e, hd⟩ := frontLoop_head he hu h c hc
    have hpairs : pairs (p :: ps ++ [first]) = (p, ps.head?.getD first) :: pairs (ps ++ [first]) := by
      cases ps <;> simp [pairs]
    intro o ho x hx hdx
    rw [hpairs, List.mem_cons] at ho
    rcases frontLoop_cases (p := p) he hu h with ⟨h1, h2, hout⟩ | ⟨h1, h2, m, hm, hout⟩ | ⟨h1, h2, hout⟩ |
      ⟨h1, h2, m, hm, hout⟩
    · rw [hout, List.cons_append, e]
      simp only [pairs_cons_mem]
      rcases ho with rfl | ho
      · refine ⟨(p, d), Or.inl rfl, ?_⟩
        by_cases hq : sideOf eps (pl.distTo (ps.head?.getD first)) = .back
        · exfalso
          have hpd : pl.distTo p ≤ eps := by
            cases hs : sideOf eps (pl.distTo p) with
            | on => exact (side_on hs).2
            | front => exact absurd ⟨hs, hq⟩ h2
            | back => exact absurd hs h1
          have := onSeg_dist_le hx hpd (by have := side_back hq; simp only; linarith)
          linarith
        · rw [hd.1 hq]; exact hx
      · obtain ⟨y, hy, hs⟩ := ih o ho x hx hdx
        rw [e] at hy
        exact ⟨y, Or.inr hy, hs⟩
    · rw [hout, List.cons_append, List.cons_append, e]
      simp only [pairs_cons_mem]
      rcases ho with rfl | ho
      · have a1 := side_front h1
        have a2 := side_back h2
        exact ⟨(p, m), Or.inl rfl, onSeg_front_part hm (by linarith) (by linarith) hx (by linarith)⟩
      · obtain ⟨y, hy, hs⟩ := ih o ho x hx hdx
        rw [e] at hy
        exact ⟨y, Or.inr (Or.inr hy), hs⟩
    · rw [hout]
      rcases ho with rfl | ho
      · exfalso
        have hqd : pl.distTo (ps.head?.getD first) ≤ eps := by
          cases hs : sideOf eps (pl.distTo (ps.head?.getD first)) with
          | on => exact (side_on hs).2
          | front => exact absurd hs h2
          | back => have := side_back hs; linarith
        have := onSeg_dist_le hx (by have := side_back h1; simp only; linarith) hqd
        linarith
      · exact ih o ho x hx hdx
    · rw [hout, List.cons_append, e]
      simp only [pairs_cons_mem]
      rcases ho with rfl | ho
      · have a1 := side_back h1
        have a2 := side_front h2
        refine ⟨(m, d), Or.inl rfl, ?_⟩
        rw [hd.1 (by simp [h2])]
        exact onSeg_symm (onSeg_front_part (split_symm hm) (by linarith) (by linarith) (onSeg_symm hx) (by linarith))
      · obtain ⟨y, hy, hs⟩ := ih o ho x hx hdx
        rw [e] at hy
        exact ⟨y, Or.inr hy, hs⟩

/-- The vertices of the front polygon. -/
theorem frontLoop_vertices {pl : Plane K} {eps : K} (he : 0 ≤ eps) (hu : UnitNormal pl) {first : Vec K} {ps : List (Vec K)}
    {ss : List (K × Side)} (h : Infos pl eps first ps ss) :
    ∀ v ∈ clipFrontLoop pl first ps ss,
      -eps ≤ pl.distTo v ∧ (v ∈ ps ∨ ∃ o ∈ pairs (ps ++ [first]), IsSplit pl o.1 o.2 v) := by
  induction h with
  | last => simp [clipFrontLoop]
  | @cons p ps ss h ih =>
    obtain ⟨pf, pm⟩ := pairs_first (first := first) (p := p) (ps := ps)
    have ih' : ∀ v ∈ clipFrontLoop pl first ps ss,
        -eps ≤ pl.distTo v ∧ (v ∈ p :: ps ∨ ∃ o ∈ pairs (p :: ps ++ [first]), IsSplit pl o.1 o.2 v) := by
      intro v hv
      obtain ⟨a, b⟩ := ih v hv
      refine ⟨a, ?_⟩
      rcases b with b | ⟨o, ho, b⟩
      · exact Or.inl (List.mem_cons_of_mem _ b)
      · exact Or.inr ⟨o, pm o ho, b⟩
    have hpd : sideOf eps (pl.distTo p) ≠ .back → -eps ≤ pl.distTo p := by
      intro hne
      cases hs : sideOf eps (pl.distTo p) with
      | on => exact (side_on hs).1
      | front => have := side_front hs; linarith
      | back => exact absurd hs hne
    rcases frontLoop_cases (p := p) he hu h with ⟨h1, h2, hout⟩ | ⟨h1, h2, m, hm, hout⟩ | ⟨h1, h2, hout⟩ |
      ⟨h1, h2, m, hm, hout⟩
    · intro v hv
      rw [hout] at hv
      rcases List.mem_cons.1 hv with rfl | hv
      · exact ⟨hpd h1, Or.inl List.mem_cons_self⟩
      · exact ih' v hv
    · intro v hv
      rw [hout] at hv
      rcases List.mem_cons.1 hv with rfl | hv
      · exact ⟨hpd (by simp [h1]), Or.inl List.mem_cons_self⟩
      · rcases List.mem_cons.1 hv with rfl | hv
        · exact ⟨by rw [hm.on]; linarith, Or.inr ⟨_, pf, hm⟩⟩
        · exact ih' v hv
    · intro v hv
      rw [hout] at hv
      exact ih' v hv
    · intro v hv
      rw [hout] at hv
      rcases List.mem_cons.1 hv with rfl | hv
      · exact ⟨by rw [hm.on]; linarith, Or.inr ⟨_, pf, hm⟩⟩
      · exact ih' v hv

/-- Points that are not behind the plane are kept. -/
theorem frontLoop_keeps {pl : Plane K} {eps : K} (he : 0 ≤ eps) (hu : UnitNormal pl) {first : Vec K} {ps : List (Vec K)}
    {ss : List (K × Side)} (h : Infos pl eps first ps ss) :
    ∀ p ∈ ps, sideOf eps (pl.distTo p) ≠ .back → p ∈ clipFrontLoop pl first ps ss := by
  induction h with
  | last => simp
  | @cons p ps ss h ih =>
    intro x hx hs
    rcases frontLoop_cases (p := p) he hu h with ⟨h1, h2, hout⟩ | ⟨h1, h2, m, hm, hout⟩ | ⟨h1, h2, hout⟩ |
      ⟨h1, h2, m, hm, hout⟩ <;> rw [hout]
    · rcases List.mem_cons.1 hx with rfl | hx
      · simp
      · exact List.mem_cons_of_mem _ (ih x hx hs)
    · rcases List.mem_cons.1 hx with rfl | hx
      · simp
      · exact List.mem_cons_of_mem _ (List.mem_cons_of_mem _ (ih x hx hs))
    · rcases List.mem_cons.1 hx with rfl | hx
      · exact absurd h1 hs
      · exact ih x hx hs
    · rcases List.mem_cons.1 hx with rfl | hx
      · exact absurd h1 hs
      · exact List.mem_cons_of_mem _ (ih x hx hs)

/-! ### The back side -/

/-- The plane turned around. -/
def Plane.neg (pl : Plane K) : Plane K := ⟨⟨-pl.normal.x, -pl.normal.y, -pl.normal.z⟩, -pl.dist⟩

theorem neg_distTo (pl : Plane K) (p : Vec K) : pl.neg.distTo p = -pl.distTo p := by
  simp only [Plane.neg, Plane.distTo, dot]; ring

theorem neg_unit {pl : Plane K} (h : UnitNormal pl) : UnitNormal pl.neg := by
  unfold UnitNormal dot Plane.neg at *
  simp only
  linarith

theorem splitPoint_neg (pl : Plane K) (p q : Vec K) (d1 d2 : K) :
    splitPoint pl.neg p q (-d1) (-d2) = splitPoint pl p q d1 d2 := by
  have ht : -d1 / (-d1 - -d2) = d1 / (d1 - d2) := by
    rw [show -d1 - -d2 = -(d1 - d2) by ring, neg_div_neg_eq]
  have h1ne : (1 : K) ≠ -1 := by
    intro e
    have : (0 : K) < 1 := one_pos
    linarith
  have key : ∀ n dist a b t : K, midCoord (-n) (-dist) a b t = midCoord n dist a b t := by
    intro n dist a b t
    unfold midCoord
    by_cases h1 : n = 1
    · subst h1
      rw [if_neg (fun e => h1ne e.symm), if_pos rfl, if_pos rfl, neg_neg]
    · by_cases h2 : n = -1
      · subst h2
        rw [if_pos (neg_neg 1), if_neg h1, if_pos rfl]
      · rw [if_neg (fun e => h2 (by rw [← e, neg_neg])), if_neg (fun e => h1 (neg_injective e)), if_neg h1, if_neg h2]
  simp only [splitPoint, Plane.neg, ht, key]

theorem backLoop_eq {pl : Plane K} {eps : K} (he : 0 ≤ eps) {first : Vec K} {ps : List (Vec K)}
    {ss : List (K × Side)} (h : Infos pl eps first ps ss) :
    ∃ ss', Infos pl.neg eps first ps ss' ∧ clipBackLoop pl first ps ss = clipFrontLoop pl.neg first ps ss' := by
  induction h with
  | last => exact ⟨_, .last, by simp [clipBackLoop, clipFrontLoop]⟩
  | @cons p ps ss h ih =>
    obtain ⟨ss', h', e⟩ := ih
    refine ⟨_, .cons h', ?_⟩
    obtain ⟨t, ht⟩ := infos_head h
    obtain ⟨t', ht'⟩ := infos_head h'
    rw [ht] at e
    rw [ht'] at e
    rw [ht, ht']
    simp only [clipBackLoop, clipFrontLoop, e, neg_distTo, side_neg he]
    cases sideOf eps (pl.distTo p) <;> cases sideOf eps (pl.distTo (ps.head?.getD first)) <;>
      simp [splitPoint_neg]

theorem clipLoop_eq (pl : Plane K) (first : Vec K) (ps : List (Vec K)) (ss : List (K × Side)) :
    clipLoop pl first ps ss = (clipFrontLoop pl first ps ss, clipBackLoop pl first ps ss) := by
  fun_induction clipLoop pl first ps ss with
  | case1 p1 ps s1 s2 ss r hs ih =>
    simp only [r, ih, clipFrontLoop, clipBackLoop, hs]
  | case2 p1 ps s1 s2 ss r hs hc ih =>
    simp only [r, ih, clipFrontLoop, clipBackLoop, hs, if_pos hc]
  | case3 p1 ps s1 s2 ss r hs hc mid ih =>
    simp only [r, mid, ih, clipFrontLoop, clipBackLoop, hs, if_neg hc]
  | case4 p1 ps s1 s2 ss r hs hc ih =>
    simp only [r, ih, clipFrontLoop, clipBackLoop, hs, if_pos hc]
  | case5 p1 ps s1 s2 ss r hs hc mid ih =>
    simp only [r, mid, ih, clipFrontLoop, clipBackLoop, hs, if_neg hc]
  | case6 ps ss h =>
    cases ps with
    | nil => simp [clipFrontLoop, clipBackLoop]
    | cons p ps =>
      cases ss with
      | nil => simp [clipFrontLoop, clipBackLoop]
      | cons s ss =>
        cases ss with
        | nil => simp [clipFrontLoop, clipBackLoop]
        | cons s2 ss => exact absurd rfl (h p ps s s2 ss rfl)

end Verif.Geom
