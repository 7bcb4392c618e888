import Mathlib.Tactic.Linarith
import Mathlib.Tactic.NormNum
import Verif.Geom.Aabb

/-! Property C48: bounding boxes. -/

namespace Verif.Geom.Box

open Spec

set_option linter.unusedSectionVars false

variable {K : Type} [Field K] [LinearOrder K] [IsStrictOrderedRing K] {N : Nat}

theorem anyAxis_iff (t : Fin N → Bool) : anyAxis t = true ↔ ∃ i, t i = true := by
  simp [anyAxis]

theorem anyAxis_false (t : Fin N → Bool) : anyAxis t = false ↔ ∀ i, t i = false := by
  simp [anyAxis]

/-- `containsPoint` answers whether the point is inside. -/
theorem containsPoint_iff (b : Box K N) (p : Pt K N) : b.containsPoint p = true ↔ Inside b p := by
  unfold containsPoint Inside
  rw [Bool.not_eq_true', anyAxis_false]
  simp

/-- `contains` compares the corners. -/
theorem contains_corners (b o : Box K N) : b.contains o = true ↔ ∀ i, b.mins i ≤ o.mins i ∧ o.maxs i ≤ b.maxs i := by
  unfold contains
  rw [Bool.not_eq_true', anyAxis_false]
  simp

/-- C48: a box contains a box with points exactly when it contains all its points. -/
theorem contains_iff {b o : Box K N} (ho : Proper o) : b.contains o = true ↔ ∀ p, Inside o p → Inside b p := by
  rw [contains_corners]
  constructor
  · intro h p hp i
    exact ⟨le_trans (h i).1 (hp i).1, le_trans (hp i).2 (h i).2⟩
  · intro h i
    exact ⟨(h o.mins (fun j => ⟨le_refl _, ho j⟩) i).1, (h o.maxs (fun j => ⟨ho j, le_refl _⟩) i).2⟩

theorem mk'_eq {a c : Pt K N} (h : ∀ i, a i ≤ c i) : mk' a c = ⟨a, c⟩ := by
  unfold mk'
  congr 1
  funext i
  rw [if_neg (not_lt.2 (h i))]

theorem expand_eq (b : Box K N) (p : Pt K N) : b.expand p = b.expandInPlace p := by
  unfold expand expandInPlace
  exact mk'_eq fun i => le_trans (min_le_right _ _) (le_max_right _ _)

/-- The two forms of the union agree. -/
theorem union_in_place (b o : Box K N) : b.unionInPlace o = b.unionWith o := by
  unfold unionWith
  rw [expand_eq, expand_eq]
  rfl

/-- C48: the union contains both boxes. -/
theorem union_contains (a b : Box K N) : (a.unionWith b).contains a = true ∧ (a.unionWith b).contains b = true := by
  rw [← union_in_place]
  constructor
  · rw [contains_corners]
    intro i
    exact ⟨le_trans (min_le_left _ _) (min_le_left _ _), le_trans (le_max_left _ _) (le_max_left _ _)⟩
  · rw [contains_corners]
    intro i
    exact ⟨le_trans (min_le_left _ _) (min_le_right _ _), le_max_right _ _⟩

/-- C48: the union is the least box that contains both. -/
theorem union_least {a b c : Box K N} (hb : Proper b) (h1 : c.contains a = true) (h2 : c.contains b = true) :
    c.contains (a.unionWith b) = true := by
  rw [← union_in_place]
  rw [contains_corners] at *
  intro i
  obtain ⟨a1, a2⟩ := h1 i
  obtain ⟨b1, b2⟩ := h2 i
  have hp := hb i
  exact ⟨le_min (le_min a1 b1) (le_trans b1 hp), max_le (max_le a2 (le_trans hp b2)) b2⟩

/-- C48: expanding by a point gives the least box with the old box and the point. -/
theorem expand_least (b : Box K N) (p : Pt K N) :
    (b.expand p).contains b = true ∧ Inside (b.expand p) p ∧
    ∀ c : Box K N, c.contains b = true → Inside c p → c.contains (b.expand p) = true := by
  rw [expand_eq]
  refine ⟨?_, fun i => ⟨min_le_right _ _, le_max_right _ _⟩, ?_⟩
  · rw [contains_corners]
    intro i
    exact ⟨min_le_left _ _, le_max_left _ _⟩
  · intro c hc hp
    rw [contains_corners] at *
    intro i
    exact ⟨le_min (hc i).1 (hp i).1, max_le (hc i).2 (hp i).2⟩

/-- C48: the intersection consists of exactly the common points; when there is none, no box is returned. -/
theorem intersect_iff (a b : Box K N) :
    (∀ c, a.intersectWith b = some c → Proper c ∧ ∀ p, Inside c p ↔ Inside a p ∧ Inside b p) ∧
    (a.intersectWith b = none ↔ ¬ ∃ p, Inside a p ∧ Inside b p) := by
  unfold intersectWith
  simp only
  split
  · rename_i h
    rw [anyAxis_iff] at h
    obtain ⟨i, hi⟩ := h
    refine ⟨by simp, ?_⟩
    simp only [true_iff]
    rintro ⟨p, ha, hb⟩
    have h1 : max (a.mins i) (b.mins i) ≤ p i := max_le (ha i).1 (hb i).1
    have h2 : p i ≤ min (a.maxs i) (b.maxs i) := le_min (ha i).2 (hb i).2
    exact absurd (of_decide_eq_true hi) (not_lt.2 (le_trans h1 h2))
  · rename_i h
    have h' : ∀ i, max (a.mins i) (b.mins i) ≤ min (a.maxs i) (b.maxs i) := by
      intro i
      by_contra hc
      exact h ((anyAxis_iff _).2 ⟨i, decide_eq_true (lt_of_not_ge hc)⟩)
    rw [mk'_eq h']
    constructor
    · rintro c hc
      obtain rfl := Option.some.inj hc
      refine ⟨h', fun p => ⟨fun hp => ⟨fun i => ?_, fun i => ?_⟩, fun hp i => ?_⟩⟩
      · exact ⟨le_trans (le_max_left _ _) (hp i).1, le_trans (hp i).2 (min_le_left _ _)⟩
      · exact ⟨le_trans (le_max_right _ _) (hp i).1, le_trans (hp i).2 (min_le_right _ _)⟩
      · exact ⟨max_le (hp.1 i).1 (hp.2 i).1, le_min (hp.1 i).2 (hp.2 i).2⟩
    · simp only [reduceCtorEq, false_iff, not_not]
      refine ⟨fun i => max (a.mins i) (b.mins i), fun i => ⟨le_max_left _ _, ?_⟩, fun i => ⟨le_max_right _ _, ?_⟩⟩
      · exact le_trans (h' i) (min_le_left _ _)
      · exact le_trans (h' i) (min_le_right _ _)

/-- C48: boxes are disjoint exactly when no point of one is within epsilon (along every axis) of a point of the other;
with epsilon 0, when they have no common point. -/
theorem disjoint_iff {a b : Box K N} {eps : K} (he : 0 ≤ eps) (ha : Proper a) (hb : Proper b) :
    a.disjoint b eps = true ↔ ¬ ∃ p q, Inside a p ∧ Inside b q ∧ ∀ i, |p i - q i| ≤ eps := by
  unfold disjoint
  rw [anyAxis_iff]
  constructor
  · rintro ⟨i, hi⟩ ⟨p, q, hp, hq, hd⟩
    obtain ⟨d1, d2⟩ := abs_le.1 (hd i)
    obtain ⟨p1, p2⟩ := hp i
    obtain ⟨q1, q2⟩ := hq i
    simp only [Bool.or_eq_true, decide_eq_true_eq] at hi
    rcases hi with hi | hi <;> linarith
  · intro h
    by_contra hc
    apply h
    have hn : ∀ i, b.mins i - eps ≤ a.maxs i ∧ a.mins i ≤ b.maxs i + eps := by
      intro i
      by_contra hcon
      apply hc
      refine ⟨i, ?_⟩
      simp only [Bool.or_eq_true, decide_eq_true_eq]
      by_contra h2
      simp only [not_or, not_lt, gt_iff_lt] at h2
      exact hcon h2
    refine ⟨fun i => max (a.mins i) (b.mins i - eps), fun i => min (max (a.mins i) (b.mins i)) (b.maxs i), fun i => ?_,
      fun i => ?_, fun i => ?_⟩
    · exact ⟨le_max_left _ _, max_le (ha i) (hn i).1⟩
    · exact ⟨le_min (le_max_right _ _) (hb i), min_le_right _ _⟩
    · obtain ⟨n1, n2⟩ := hn i
      have pb := hb i
      show |max (a.mins i) (b.mins i - eps) - min (max (a.mins i) (b.mins i)) (b.maxs i)| ≤ eps
      rcases le_total (a.mins i) (b.mins i) with h1 | h1
      · rw [max_eq_right h1, min_eq_left pb]
        rcases le_total (a.mins i) (b.mins i - eps) with h2 | h2
        · rw [max_eq_right h2]
          exact abs_le.2 ⟨by linarith, by linarith⟩
        · rw [max_eq_left h2]
          exact abs_le.2 ⟨by linarith, by linarith⟩
      · rw [max_eq_left h1, max_eq_left (by linarith : b.mins i - eps ≤ a.mins i)]
        rcases le_total (a.mins i) (b.maxs i) with h2 | h2
        · rw [min_eq_left h2]
          exact abs_le.2 ⟨by linarith, by linarith⟩
        · rw [min_eq_right h2]
          exact abs_le.2 ⟨by linarith, by linarith⟩

/-- C48: boxes with an interior are disjoint or touching exactly when no point is strictly inside both. -/
theorem disjoint_or_touching_iff {a b : Box K N} (ha : ∀ i, a.mins i < a.maxs i) (hb : ∀ i, b.mins i < b.maxs i) :
    a.disjointOrTouching b 0 = true ↔
      ¬ ∃ p : Pt K N, ∀ i, (a.mins i < p i ∧ p i < a.maxs i) ∧ (b.mins i < p i ∧ p i < b.maxs i) := by
  unfold disjointOrTouching
  rw [anyAxis_iff]
  constructor
  · rintro ⟨i, hi⟩ ⟨p, hp⟩
    obtain ⟨⟨p1, p2⟩, q1, q2⟩ := hp i
    simp only [Bool.or_eq_true, decide_eq_true_eq] at hi
    rcases hi with hi | hi <;> linarith
  · intro h
    by_contra hc
    apply h
    have hn : ∀ i, b.mins i < a.maxs i ∧ a.mins i < b.maxs i := by
      intro i
      by_contra hcon
      apply hc
      refine ⟨i, ?_⟩
      simp only [Bool.or_eq_true, decide_eq_true_eq, sub_zero, add_zero]
      by_contra h2
      simp only [not_or, not_le, ge_iff_le] at h2
      exact hcon h2
    refine ⟨fun i => (max (a.mins i) (b.mins i) + min (a.maxs i) (b.maxs i)) / 2, fun i => ?_⟩
    have hlt : max (a.mins i) (b.mins i) < min (a.maxs i) (b.maxs i) :=
      max_lt (lt_min (ha i) (hn i).2) (lt_min (hn i).1 (hb i))
    have l1 := le_max_left (a.mins i) (b.mins i)
    have l2 := le_max_right (a.mins i) (b.mins i)
    have r1 := min_le_left (a.maxs i) (b.maxs i)
    have r2 := min_le_right (a.maxs i) (b.maxs i)
    refine ⟨⟨?_, ?_⟩, ?_, ?_⟩ <;> linarith

/-- C48 (partial): joining a box to the empty box gives that box, when its coordinates are finite numbers of the type.
Missing: the other order; `union_empty_right` shows that the property is false for it. -/
theorem union_empty_left_partial {lowest max : K} {b : Box K N} (hb : Proper b)
    (hl : ∀ i, lowest ≤ b.mins i) (hm : ∀ i, b.maxs i ≤ max) : (empty lowest max).unionWith b = b := by
  rw [← union_in_place]
  unfold unionInPlace empty
  cases b with
  | mk mins maxs =>
    simp only [mk.injEq]
    constructor
    · funext i
      have h1 := hb i
      have h2 := hm i
      simp only at h1 h2
      rw [min_eq_right (by linarith : mins i ≤ max), min_eq_left h1]
    · funext i
      have h1 := hb i
      have h2 := hl i
      simp only at h1 h2
      rw [max_eq_right h2, max_eq_right h1]

/-- C48 is false for the empty box on the right: the union is the whole space. -/
theorem union_empty_right {lowest max : K} {b : Box K N} (hb : Proper b)
    (hl : ∀ i, lowest ≤ b.mins i) (hm : ∀ i, b.maxs i ≤ max) :
    b.unionWith (empty lowest max) = ⟨fun _ => lowest, fun _ => max⟩ := by
  rw [← union_in_place]
  unfold unionInPlace empty
  simp only [mk.injEq]
  constructor
  · funext i
    exact min_eq_right (le_min (hl i) (le_trans (hl i) (le_trans (hb i) (hm i))))
  · funext i
    have h1 : b.maxs i ≤ max := hm i
    rw [max_eq_right h1]
    exact max_eq_left (le_trans (hl i) (le_trans (hb i) (hm i)))

/-- C48: the bounds of a list of points are the least box that contains all of them. -/
theorem bounds_least {lowest max : K} {ps : List (Pt K N)} (hne : ps ≠ [])
    (hr : ∀ p ∈ ps, ∀ i, lowest ≤ p i ∧ p i ≤ max) :
    (∀ p ∈ ps, Inside (ofPoints lowest max ps) p) ∧
    ∀ c : Box K N, (∀ p ∈ ps, Inside c p) → c.contains (ofPoints lowest max ps) = true := by
  have key : ∀ (ps : List (Pt K N)) (b : Box K N),
      (∀ p ∈ ps, Inside (ps.foldl expandInPlace b) p) ∧
      (∀ i, (ps.foldl expandInPlace b).mins i ≤ b.mins i ∧ b.maxs i ≤ (ps.foldl expandInPlace b).maxs i) ∧
      ∀ c : Box K N, c.contains b = true → (∀ p ∈ ps, Inside c p) → c.contains (ps.foldl expandInPlace b) = true := by
    intro ps
    induction ps with
    | nil =>
      intro b
      exact ⟨by simp, fun i => ⟨le_refl _, le_refl _⟩, fun c hc _ => hc⟩
    | cons p ps ih =>
      intro b
      obtain ⟨h1, h2, h3⟩ := ih (b.expandInPlace p)
      simp only [List.foldl_cons]
      refine ⟨?_, ?_, ?_⟩
      · intro q hq
        rcases List.mem_cons.1 hq with rfl | hq
        · intro i
          exact ⟨le_trans (h2 i).1 (min_le_right _ _), le_trans (le_max_right _ _) (h2 i).2⟩
        · exact h1 q hq
      · intro i
        exact ⟨le_trans (h2 i).1 (min_le_left _ _), le_trans (le_max_left _ _) (h2 i).2⟩
      · intro c hc hin
        refine h3 c ?_ (fun q hq => hin q (List.mem_cons_of_mem _ hq))
        rw [← expand_eq]
        exact (expand_least b p).2.2 c hc (hin p List.mem_cons_self)
  refine ⟨(key ps _).1, ?_⟩
  intro c hc
  obtain ⟨p, ps', rfl⟩ := List.exists_cons_of_ne_nil hne
  unfold ofPoints
  simp only [List.foldl_cons]
  refine (key ps' _).2.2 c ?_ (fun q hq => hc q (List.mem_cons_of_mem _ hq))
  rw [contains_corners]
  intro i
  obtain ⟨r1, r2⟩ := hr p List.mem_cons_self i
  obtain ⟨c1, c2⟩ := hc p List.mem_cons_self i
  simp only [expandInPlace, empty]
  rw [min_eq_right r2, max_eq_right r1]
  exact ⟨c1, c2⟩

/-- Growing and moving a box. -/
theorem grow_translate_inside {b : Box K N} (hb : Proper b) (v s p : Pt K N) (hs : ∀ i, 0 ≤ s i) :
    (Inside (b.translate v) p ↔ Inside b (fun i => p i - v i)) ∧
    (Inside (b.grow s) p ↔ ∃ q, Inside b q ∧ ∀ i, |p i - q i| ≤ s i) := by
  constructor
  · unfold translate
    rw [mk'_eq (fun i => by have := hb i; linarith)]
    unfold Inside
    simp only
    constructor
    · intro h i
      obtain ⟨h1, h2⟩ := h i
      exact ⟨by linarith, by linarith⟩
    · intro h i
      obtain ⟨h1, h2⟩ := h i
      exact ⟨by linarith, by linarith⟩
  · unfold grow
    rw [mk'_eq (fun i => by have := hb i; have := hs i; linarith)]
    constructor
    · intro h
      refine ⟨fun i => max (b.mins i) (min (p i) (b.maxs i)), fun i => ⟨le_max_left _ _, max_le (hb i) (min_le_right _ _)⟩,
        fun i => ?_⟩
      obtain ⟨h1, h2⟩ := h i
      simp only at h1 h2
      have hs' := hs i
      have hb' := hb i
      show |p i - max (b.mins i) (min (p i) (b.maxs i))| ≤ s i
      rcases le_total (p i) (b.maxs i) with h3 | h3
      · rw [min_eq_left h3]
        rcases le_total (b.mins i) (p i) with h4 | h4
        · rw [max_eq_right h4]; simpa using hs'
        · rw [max_eq_left h4]; exact abs_le.2 ⟨by linarith, by linarith⟩
      · rw [min_eq_right h3, max_eq_right hb']
        exact abs_le.2 ⟨by linarith, by linarith⟩
    · rintro ⟨q, hq, hd⟩ i
      obtain ⟨q1, q2⟩ := hq i
      obtain ⟨d1, d2⟩ := abs_le.1 (hd i)
      exact ⟨by simp only; linarith, by simp only; linarith⟩

/-- Two overlapping boxes. -/
example :
    let a : Box Rat 3 := ⟨fun _ => 0, fun _ => 4⟩
    let b : Box Rat 3 := ⟨fun _ => 2, fun _ => 6⟩
    Proper a ∧ Proper b ∧ a.disjoint b 0 = false ∧ (a.intersectWith b).isSome = true ∧
      a.disjoint ⟨fun _ => 5, fun _ => 6⟩ 0 = true ∧ (∀ i, (-100 : Rat) ≤ a.mins i) ∧ (∀ i, a.maxs i ≤ 100) := by
  refine ⟨fun i => by norm_num, fun i => by norm_num, by decide +kernel, by decide +kernel, by decide +kernel,
    fun i => by norm_num, fun i => by norm_num⟩

end Verif.Geom.Box
