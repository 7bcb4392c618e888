import Verif.Surfaces.Spec
import Verif.BrushBsp.Hull

/-! What clipping with a tolerance leaves of a convex polygon. -/

namespace Verif.Surfaces

open Verif.Geom Verif.Geom.Spec Spec

set_option linter.unusedSectionVars false

variable {K : Type} [Field K] [LinearOrder K] [IsStrictOrderedRing K]

/-- Any three in order turn the same way. -/
def Turning (n : Vec K) (w : List (Vec K)) : Prop := ∀ a b c, List.Sublist [a, b, c] w → 0 ≤ turnOf n a b c

theorem turning_sublist {n : Vec K} {w w' : List (Vec K)} (h : Turning n w) (hs : List.Sublist w' w) : Turning n w' :=
  fun a b c hc => h a b c (hc.trans hs)

theorem turn_aab (n a b : Vec K) : turnOf n a a b = 0 := by simp only [turnOf]; ring
theorem turn_abb (n a b : Vec K) : turnOf n a b b = 0 := by simp only [turnOf]; ring
theorem turn_aba (n a b : Vec K) : turnOf n a b a = 0 := by simp only [turnOf]; ring
theorem turn_rot (n a b c : Vec K) : turnOf n a b c = turnOf n b c a := by simp only [turnOf]; ring

theorem turn_l (n a b c d : Vec K) (t : K) :
    turnOf n (along a b t) c d = (1 - t) * turnOf n a c d + t * turnOf n b c d := by
  simp only [turnOf, along]; ring

theorem turn_m (n a b c d : Vec K) (t : K) :
    turnOf n c (along a b t) d = (1 - t) * turnOf n c a d + t * turnOf n c b d := by
  simp only [turnOf, along]; ring

theorem mix_nonneg {t x y : K} (h0 : 0 ≤ t) (h1 : t ≤ 1) (hx : 0 ≤ x) (hy : 0 ≤ y) : 0 ≤ (1 - t) * x + t * y :=
  add_nonneg (mul_nonneg (sub_nonneg.2 h1) hx) (mul_nonneg h0 hy)

/-- Two in a list, with one before. -/
theorem sub_two {A B : List (Vec K)} {a q s : Vec K} (h : List.Sublist [q, s] B) : List.Sublist [a, q, s] (A ++ a :: B) :=
  (h.cons_cons a).trans (List.sublist_append_right _ _)

theorem two_sub {A B : List (Vec K)} {a q s : Vec K} (h : List.Sublist [q, s] A) : List.Sublist [q, s, a] (A ++ a :: B) := by
  have : List.Sublist ([q, s] ++ [a]) (A ++ a :: B) := h.append (by simp)
  simpa using this

theorem one_one {A B : List (Vec K)} {a q s : Vec K} (hq : q ∈ A) (hs : s ∈ B) : List.Sublist [q, a, s] (A ++ a :: B) := by
  have : List.Sublist ([q] ++ [a, s]) (A ++ a :: B) :=
    (List.singleton_sublist.2 hq).append ((List.singleton_sublist.2 hs).cons_cons a)
  simpa using this

/-- A point between two neighbours. -/
theorem turning_insert {n : Vec K} {l r : List (Vec K)} {a b x : Vec K} (h : Turning n (l ++ a :: b :: r))
    (hx : OnSeg x a b) : Turning n (l ++ a :: x :: b :: r) := by
  obtain ⟨t, h0, h1, rfl⟩ := hx
  have e : l ++ a :: b :: r = (l ++ [a]) ++ b :: r := by simp
  intro p q s hs
  have hs' : List.Sublist [p, q, s] ((l ++ [a]) ++ (along a b t :: b :: r)) := by simpa using hs
  obtain ⟨t1, t2, ht, s1, s2⟩ := List.sublist_append_iff.1 hs'
  rcases List.sublist_cons_iff.1 s2 with s2 | ⟨t3, rfl, s3⟩
  · refine h p q s ?_
    rw [ht, e]
    exact s1.append s2
  · match t1, ht with
    | [], ht =>
      simp only [List.nil_append, List.cons.injEq] at ht
      obtain ⟨rfl, rfl⟩ := ht
      rw [turn_l]
      refine mix_nonneg h0 h1 (h _ _ _ (sub_two s3)) ?_
      rcases List.sublist_cons_iff.1 s3 with s4 | ⟨t4, ht4, s4⟩
      · exact h _ _ _ (by rw [e]; exact sub_two s4)
      · simp only [List.cons.injEq] at ht4
        rw [ht4.1, turn_aab]
    | [p'], ht =>
      simp only [List.cons_append, List.nil_append, List.cons.injEq] at ht
      obtain ⟨rfl, rfl, rfl⟩ := ht
      rw [turn_m]
      have hp : p ∈ l ++ [a] := List.singleton_sublist.1 s1
      have hq : s ∈ b :: r := List.singleton_sublist.1 s3
      refine mix_nonneg h0 h1 ?_ ?_
      · rcases List.mem_append.1 hp with hp | hp
        · exact h _ _ _ (one_one hp hq)
        · rw [List.mem_singleton.1 hp, turn_aab]
      · rcases List.mem_cons.1 hq with rfl | hq
        · rw [turn_abb]
        · exact h _ _ _ (by rw [e]; exact one_one hp hq)
    | [p', q'], ht =>
      simp only [List.cons_append, List.nil_append, List.cons.injEq] at ht
      obtain ⟨rfl, rfl, rfl, rfl⟩ := ht
      rw [turn_along]
      refine mix_nonneg h0 h1 ?_ (h _ _ _ (by rw [e]; exact two_sub s1))
      obtain ⟨t1, t2, ht, u1, u2⟩ := List.sublist_append_iff.1 s1
      rcases List.sublist_cons_iff.1 u2 with u2 | ⟨t4, rfl, u4⟩
      · rw [List.sublist_nil] at u2
        subst u2
        rw [List.append_nil] at ht
        exact h _ _ _ (two_sub (ht ▸ u1))
      · rw [List.sublist_nil] at u4
        subst u4
        match t1, ht with
        | [p'], ht =>
          simp only [List.cons_append, List.nil_append, List.cons.injEq, and_true] at ht
          rw [ht.2, turn_abb]
        | [], ht => simp at ht
        | p' :: q' :: t1, ht => simp at ht
    | p' :: q' :: s' :: t1, ht => simp at ht

/-- The first vertex may be repeated at the end. -/
theorem turning_close {n : Vec K} {first : Vec K} {w : List (Vec K)} (h : Turning n (first :: w)) :
    Turning n (first :: w ++ [first]) := by
  intro p q s hs
  obtain ⟨t1, t2, ht, s1, s2⟩ := List.sublist_append_iff.1 hs
  rcases List.sublist_cons_iff.1 s2 with s2 | ⟨t3, rfl, s3⟩
  · rw [List.sublist_nil] at s2
    subst s2
    rw [List.append_nil] at ht
    exact h _ _ _ (ht ▸ s1)
  · rw [List.sublist_nil] at s3
    subst s3
    match t1, ht with
    | [], ht => simp at ht
    | [a], ht => simp at ht
    | [p', q'], ht =>
      simp only [List.cons_append, List.nil_append, List.cons.injEq, and_true] at ht
      obtain ⟨rfl, rfl, rfl⟩ := ht
      rcases List.sublist_cons_iff.1 s1 with u | ⟨t4, ht4, u⟩
      · rw [turn_rot, turn_rot]
        exact h _ _ _ (u.cons_cons _)
      · simp only [List.cons.injEq] at ht4
        rw [ht4.1, turn_aba]
    | a :: b :: c :: t1, ht => simp at ht

theorem turning_loop {n : Vec K} {pl : Plane K} {eps : K} (he : 0 ≤ eps) (hu : UnitNormal pl) {first : Vec K}
    {ps : List (Vec K)} {ss : List (K × Side)} (hi : Infos pl eps first ps ss) (pre : List (Vec K))
    (h : Turning n (pre ++ ps ++ [first])) : Turning n (pre ++ clipFrontLoop pl first ps ss ++ [first]) := by
  induction hi generalizing pre with
  | last => simpa [clipFrontLoop] using h
  | @cons p ps ss hi ih =>
    have key : ∀ m, OnSeg m p (ps.head?.getD first) → Turning n (pre ++ p :: m :: ps ++ [first]) := by
      intro m hm
      cases ps with
      | nil =>
        have := turning_insert (l := pre) (r := []) (a := p) (b := first) (by simpa using h) hm
        simpa using this
      | cons q ps =>
        have := turning_insert (l := pre) (r := ps ++ [first]) (a := p) (b := q) (by simpa using h) hm
        simpa using this
    rcases frontLoop_cases (p := p) he hu hi with ⟨_, _, e⟩ | ⟨_, _, m, hm, e⟩ | ⟨_, _, e⟩ | ⟨_, _, m, hm, e⟩
    · rw [e]
      have := ih (pre ++ [p]) (by simpa using h)
      simpa using this
    · rw [e]
      have := ih (pre ++ [p, m]) (by simpa using key m (split_onSeg hm))
      simpa using this
    · rw [e]
      refine ih pre (turning_sublist h ?_)
      simp
    · rw [e]
      have := ih (pre ++ [m]) (turning_sublist (key m (split_onSeg hm)) (by simp))
      simpa using this

theorem ring_part {n : Vec K} {k : K} {pl : Plane K} {eps : K} (he : 0 ≤ eps) (hu : UnitNormal pl) {w f : List (Vec K)}
    (hw : ConvexRing n k w) (h : Part pl eps w f) : ConvexRing n k f := by
  have seg := part_onSeg he hu h
  refine ⟨hw.ne, ?_, ?_⟩
  · intro v hv
    obtain ⟨a, ha, b, hb, t, _, _, rfl⟩ := seg v hv
    rw [dot_along, hw.flat a ha, hw.flat b hb]; ring
  · rcases h with ⟨rfl, _⟩ | ⟨first, rest, ss, rfl, hi, rfl⟩
    · exact hw.turns
    · have := turning_loop he hu hi [] (by simpa using turning_close (n := n) hw.turns)
      exact turning_sublist this (by simp)

/-- Edges and vertices of a list. -/
theorem pairs_sublist {α : Type} {l : List α} {e : α × α} (h : e ∈ pairs l) : ∃ A B, l = A ++ e.1 :: e.2 :: B := by
  induction l with
  | nil => simp [pairs] at h
  | cons a l ih =>
    cases l with
    | nil => simp [pairs] at h
    | cons b l =>
      rw [pairs_cons_mem] at h
      rcases h with rfl | h
      · exact ⟨[], l, rfl⟩
      · obtain ⟨A, B, e⟩ := ih h
        exact ⟨a :: A, B, by rw [e]; rfl⟩

theorem ring_convex {n : Vec K} {k : K} {w : List (Vec K)} (hw : ConvexRing n k w) : ConvexIn n k w := by
  refine ⟨hw.ne, hw.flat, ?_⟩
  intro e hee c hc
  cases w with
  | nil => simp at hc
  | cons a w =>
    obtain ⟨A, B, hAB⟩ := pairs_sublist (show e ∈ pairs (a :: w ++ [a]) from hee)
    have ht := turning_close (n := n) hw.turns
    rw [hAB] at ht
    have hc' : c ∈ A ++ e.1 :: e.2 :: B := by
      rw [← hAB]; exact List.mem_append_left _ hc
    rw [List.mem_append, List.mem_cons, List.mem_cons] at hc'
    rcases hc' with hc | rfl | rfl | hc
    · rw [turn_rot, turn_rot]
      exact ht _ _ _ (by
        have : List.Sublist ([c] ++ [e.1, e.2]) (A ++ e.1 :: e.2 :: B) :=
          (List.singleton_sublist.2 hc).append (by simp)
        simpa using this)
    · rw [turn_aba]
    · rw [turn_abb]
    · exact ht _ _ _ (by
        have : List.Sublist [e.1, e.2, c] (e.1 :: e.2 :: B) :=
          ((List.singleton_sublist.2 hc).cons_cons _).cons_cons _
        exact this.trans (List.sublist_append_right _ _))

/-- A point of an edge is in the hull. -/
theorem onSeg_hull {w : List (Vec K)} {a b x : Vec K} (ha : a ∈ w) (hb : b ∈ w) (hx : OnSeg x a b) : InHull w x := by
  obtain ⟨t, h0, h1, rfl⟩ := hx
  intro g
  rw [dot_along]
  rcases le_total (dot g a) (dot g b) with h | h
  · exact ⟨b, hb, by nlinarith⟩
  · exact ⟨a, ha, by nlinarith⟩

theorem hull_hull {w f : List (Vec K)} {q : Vec K} (h : ∀ v ∈ w, InHull f v) (hq : InHull w q) : InHull f q := by
  intro g
  obtain ⟨v, hv, e⟩ := hq g
  obtain ⟨u, hu, e'⟩ := h v hv g
  exact ⟨u, hu, le_trans e e'⟩

theorem part_in_hull {pl : Plane K} {eps : K} (he : 0 ≤ eps) (hu : UnitNormal pl) {w f : List (Vec K)}
    (h : Part pl eps w f) {q : Vec K} (hq : InHull f q) : InHull w q := by
  refine hull_hull (fun v hv => ?_) hq
  obtain ⟨a, ha, b, hb, hx⟩ := part_onSeg he hu h v hv
  exact onSeg_hull ha hb hx

/-- What is farther in front of the plane than the tolerance stays. -/
theorem part_hull_eps {n : Vec K} {k : K} {pl : Plane K} {eps : K} (he : 0 ≤ eps) (hu : UnitNormal pl)
    {w f : List (Vec K)} (hw : ConvexRing n k w) (h : Part pl eps w f) {q : Vec K} (hq : InHull w q)
    (dq : eps < pl.distTo q) : InHull f q := by
  set pl' : Plane K := ⟨pl.normal, pl.dist + (eps + pl.distTo q) / 2⟩ with hpl
  have hd : ∀ v, pl'.distTo v = pl.distTo v - (eps + pl.distTo q) / 2 := by
    intro v; simp only [hpl, Plane.distTo]; ring
  have hu' : UnitNormal pl' := hu
  cases hc : (clip pl' 0 true w).1 with
  | none =>
    exfalso
    have h2 : countSide pl' 0 w .front = 0 := by
      unfold clip at hc
      split at hc
      · simp at hc
      · split at hc
        · assumption
        · split at hc
          · simp at hc
          · split at hc <;> simp at hc
    have := inHull_le (pl := pl') (c := 0) hq (fun v hv => by
      by_contra hv'
      exact countSide_zero.1 h2 v hv (by unfold sideOf; rw [if_pos (by linarith)]))
    rw [hd] at this
    linarith
  | some f' =>
    have hp := clip_front_part hc
    have hq' := part_hull hu' (ring_convex hw) hp hq (by rw [hd]; linarith)
    refine hull_hull (fun v hv => ?_) hq'
    obtain ⟨h1, h2⟩ := part_vertices (le_refl 0) hu' hp v hv
    rw [hd] at h1
    rcases h2 with h2 | ⟨o, ho, hs⟩
    · have hk := part_keeps he hu h v h2 (fun hb => by have := side_back hb; linarith)
      exact onSeg_hull hk hk (onSeg_left _ _)
    · obtain ⟨e, hee, hx⟩ := part_covers he hu h o ho v (split_onSeg hs) (by linarith)
      obtain ⟨m1, m2⟩ := mem_edges hee
      exact onSeg_hull m1 m2 hx

end Verif.Surfaces
