import Mathlib.Tactic.Linarith
import Verif.TreeBounds.Spec
import Verif.Geom.AabbProps

namespace Verif.TreeBounds

open Geom Spec
open Geom.Spec (Inside Proper)

variable {K : Type} [Field K] [LinearOrder K] [IsStrictOrderedRing K]

theorem inside_union (a b : Box K 3) (p : Pt K 3) (h : Inside a p ∨ Inside b p) : Inside (a.unionWith b) p := by
  obtain ⟨h1, h2⟩ := Box.union_contains a b
  rw [Box.contains_corners] at h1 h2
  rcases h with h | h
  · exact fun i => ⟨le_trans (h1 i).1 (h i).1, le_trans (h i).2 (h1 i).2⟩
  · exact fun i => ⟨le_trans (h2 i).1 (h i).1, le_trans (h i).2 (h2 i).2⟩

theorem fix_thick {parent : Option (Box K 3)} {b b' : Box K 3} (h : fixFlat parent b = .ok b') (hb : b.mins 0 < b.maxs 0) : b' = b := by
  unfold fixFlat at h
  rw [if_neg (not_le.2 hb)] at h
  exact (Outcome.ok.inj h).symm

theorem fix_proper {parent : Option (Box K 3)} {b b' : Box K 3} (h : fixFlat parent b = .ok b') (hb : b.mins 0 < b.maxs 0 → Proper b) : Proper b' := by
  unfold fixFlat at h
  split_ifs at h with h1
  · cases parent with
    | none => simp at h
    | some p =>
      simp only [Outcome.ok.injEq] at h
      subst h
      intro i
      simp [Box.mk']
  · simp only [Outcome.ok.injEq] at h
    subst h
    exact hb (not_le.1 h1)

theorem thick_ne {points : List (Pt K 3)} (h : Thick points) : points ≠ [] := by
  obtain ⟨p, hp, _⟩ := h
  rintro rfl
  simp at hp

theorem thick_pos {lowest top : K} {points : List (Pt K 3)} (h : Thick points) (hr : ∀ p ∈ points, ∀ i, lowest ≤ p i ∧ p i ≤ top) :
    (Box.ofPoints lowest top points).mins 0 < (Box.ofPoints lowest top points).maxs 0 := by
  have hl := (Box.bounds_least (thick_ne h) hr).1
  obtain ⟨p, hp, q, hq, hlt⟩ := h
  exact lt_of_le_of_lt ((hl p hp 0).1) (lt_of_lt_of_le hlt (hl q hq 0).2)

theorem proper_of_ne {lowest top : K} {points : List (Pt K 3)} (h : points ≠ []) (hr : ∀ p ∈ points, ∀ i, lowest ≤ p i ∧ p i ≤ top) :
    Proper (Box.ofPoints lowest top points) := by
  have hl := (Box.bounds_least h hr).1
  obtain ⟨p, hp⟩ := List.exists_mem_of_ne_nil _ h
  exact fun i => le_trans (hl p hp i).1 (hl p hp i).2

theorem calc_proper {lowest top : K} (ht : lowest ≤ top) {parent : Option (Box K 3)} {t : Tree K} {r : Bounded K} (hr : InRange lowest top t)
    (h : bounds lowest top parent t = .ok r) : Proper r.box := by
  cases t with
  | leaf old points =>
    simp only [bounds] at h
    obtain ⟨b, h1, h2⟩ := Outcome.bind_eq_ok.1 h
    cases h2
    refine fix_proper h1 fun hb => ?_
    by_cases hn : points = []
    · subst hn
      exfalso
      simp only [Box.ofPoints, List.foldl_nil, Box.empty] at hb
      exact absurd hb (not_lt.2 ht)
    · exact proper_of_ne hn hr
  | node old l s =>
    simp only [bounds] at h
    obtain ⟨l', h1, h⟩ := Outcome.bind_eq_ok.1 h
    obtain ⟨r', h2, h⟩ := Outcome.bind_eq_ok.1 h
    obtain ⟨b, h3, h⟩ := Outcome.bind_eq_ok.1 h
    cases h
    refine fix_proper h3 fun _ => ?_
    have := calc_proper ht hr.1 h1
    intro i
    have h4 := inside_union l'.box r'.box l'.box.mins (.inl fun i => ⟨le_refl _, this i⟩)
    exact le_trans (h4 i).1 (h4 i).2

/-- The bounds of a tree with a thick leaf are thick, and hold the points. -/
theorem calc_thick {lowest top : K} {parent : Option (Box K 3)} {t : Tree K} {r : Bounded K} (hr : InRange lowest top t)
    (h : bounds lowest top parent t = .ok r) :
    (HasThick t → r.box.mins 0 < r.box.maxs 0) ∧ (∀ p, PointOf t p → Inside r.box p) := by
  induction t generalizing parent r with
  | leaf old points =>
    simp only [bounds] at h
    obtain ⟨b, h1, h2⟩ := Outcome.bind_eq_ok.1 h
    cases h2
    constructor
    · intro ht
      rw [Bounded.box, fix_thick h1 (thick_pos ht hr)]
      exact thick_pos ht hr
    · intro p hp
      cases hp with
      | leaf _ _ _ ht hm =>
        rw [Bounded.box, fix_thick h1 (thick_pos ht hr)]
        exact (Box.bounds_least (thick_ne ht) hr).1 p hm
  | node old l s ihl ihr =>
    simp only [bounds] at h
    obtain ⟨l', h1, h⟩ := Outcome.bind_eq_ok.1 h
    obtain ⟨r', h2, h⟩ := Outcome.bind_eq_ok.1 h
    obtain ⟨b, h3, h⟩ := Outcome.bind_eq_ok.1 h
    cases h
    obtain ⟨a1, a2⟩ := ihl hr.1 h1
    obtain ⟨b1, b2⟩ := ihr hr.2 h2
    obtain ⟨u1, u2⟩ := Box.union_contains l'.box r'.box
    rw [Box.contains_corners] at u1 u2
    have hpos : HasThick (.node old l s) → (l'.box.unionWith r'.box).mins 0 < (l'.box.unionWith r'.box).maxs 0 := by
      rintro (ht | ht)
      · exact lt_of_le_of_lt (u1 0).1 (lt_of_lt_of_le (a1 ht) (u1 0).2)
      · exact lt_of_le_of_lt (u2 0).1 (lt_of_lt_of_le (b1 ht) (u2 0).2)
    have thickOf : ∀ (t : Tree K) (p : Pt K 3), PointOf t p → HasThick t := by
      intro t p hp
      induction hp with
      | leaf _ _ _ ht _ => exact ht
      | left _ _ _ _ _ ih => exact Or.inl ih
      | right _ _ _ _ _ ih => exact Or.inr ih
    constructor
    · intro ht
      rw [Bounded.box, fix_thick h3 (hpos ht)]
      exact hpos ht
    · intro p hp
      rw [Bounded.box, fix_thick h3 (hpos (thickOf _ p hp))]
      cases hp with
      | left _ _ _ _ hp => exact inside_union _ _ p (.inl (a2 p hp))
      | right _ _ _ _ hp => exact inside_union _ _ p (.inr (b2 p hp))

theorem allThick_has {t : Tree K} (h : AllThick t) : HasThick t := by
  induction t with
  | leaf => exact h
  | node _ l r ihl _ => exact Or.inl (ihl h.1)

theorem calc_ok {lowest top : K} {parent : Option (Box K 3)} {t : Tree K} (hr : InRange lowest top t) (hp : parent ≠ none ∨ HasThick t) :
    ∃ r, bounds lowest top parent t = .ok r := by
  induction t generalizing parent with
  | leaf old points =>
    simp only [bounds]
    unfold fixFlat
    split_ifs with h
    · cases parent with
      | some p => exact ⟨_, rfl⟩
      | none =>
        rcases hp with hp | hp
        · exact absurd rfl hp
        · exact absurd h (not_le.2 (thick_pos hp hr))
    · exact ⟨_, rfl⟩
  | node old l s ihl ihr =>
    obtain ⟨l', h1⟩ := ihl (parent := some old) hr.1 (.inl (by simp))
    obtain ⟨r', h2⟩ := ihr (parent := some old) hr.2 (.inl (by simp))
    simp only [bounds, h1, h2, Outcome.ok_bind]
    unfold fixFlat
    split_ifs with h
    · cases parent with
      | some p => exact ⟨_, rfl⟩
      | none =>
        rcases hp with hp | hp
        · exact absurd rfl hp
        · exfalso
          obtain ⟨u1, u2⟩ := Box.union_contains l'.box r'.box
          rw [Box.contains_corners] at u1 u2
          rcases hp with ht | ht
          · have := (calc_thick hr.1 h1).1 ht
            exact absurd h (not_le.2 (lt_of_le_of_lt (u1 0).1 (lt_of_lt_of_le this (u1 0).2)))
          · have := (calc_thick hr.2 h2).1 ht
            exact absurd h (not_le.2 (lt_of_le_of_lt (u2 0).1 (lt_of_lt_of_le this (u2 0).2)))
    · exact ⟨_, rfl⟩

theorem calc_holds {lowest top : K} {parent : Option (Box K 3)} {t : Tree K} {r : Bounded K} (hr : InRange lowest top t)
    (h : bounds lowest top parent t = .ok r) : Holds t r := by
  induction t generalizing parent r with
  | leaf old points =>
    have := (calc_thick hr h).2
    simp only [bounds] at h
    obtain ⟨b, h1, h2⟩ := Outcome.bind_eq_ok.1 h
    cases h2
    exact fun ht p hp => this p (.leaf old points p ht hp)
  | node old l s ihl ihr =>
    have key := calc_thick hr h
    simp only [bounds] at h
    obtain ⟨l', h1, h⟩ := Outcome.bind_eq_ok.1 h
    obtain ⟨r', h2, h⟩ := Outcome.bind_eq_ok.1 h
    obtain ⟨b, h3, h⟩ := Outcome.bind_eq_ok.1 h
    cases h
    refine ⟨fun ht => ⟨key.2, ?_⟩, ihl hr.1 h1, ihr hr.2 h2⟩
    have hb : b = l'.box.unionWith r'.box := by
      by_cases hf : (l'.box.unionWith r'.box).mins 0 < (l'.box.unionWith r'.box).maxs 0
      · exact fix_thick h3 hf
      · exfalso
        obtain ⟨u1, u2⟩ := Box.union_contains l'.box r'.box
        rw [Box.contains_corners] at u1 u2
        rcases ht with ht | ht
        · have := (calc_thick hr.1 h1).1 ht
          exact hf (lt_of_le_of_lt (u1 0).1 (lt_of_lt_of_le this (u1 0).2))
        · have := (calc_thick hr.2 h2).1 ht
          exact hf (lt_of_le_of_lt (u2 0).1 (lt_of_lt_of_le this (u2 0).2))
    rw [hb]
    exact ⟨fun p hp => inside_union _ _ p (.inl hp), fun p hp => inside_union _ _ p (.inr hp)⟩

theorem inside_trans {c b : Box K 3} (h : c.contains b = true) (p : Pt K 3) (hp : Inside b p) : Inside c p := by
  rw [Box.contains_corners] at h
  exact fun i => ⟨le_trans (h i).1 (hp i).1, le_trans (hp i).2 (h i).2⟩

theorem calc_least {lowest top : K} (hlt : lowest ≤ top) {parent : Option (Box K 3)} {t : Tree K} {r : Bounded K} (hr : InRange lowest top t) (ht : AllThick t)
    (h : bounds lowest top parent t = .ok r) : Least t r ∧ ∀ c : Box K 3, (∀ p, PointOf t p → Inside c p) → c.contains r.box = true := by
  induction t generalizing parent r with
  | leaf old points =>
    simp only [bounds] at h
    obtain ⟨b, h1, h2⟩ := Outcome.bind_eq_ok.1 h
    cases h2
    have hb := fix_thick h1 (thick_pos ht hr)
    subst hb
    have hl := (Box.bounds_least (thick_ne ht) hr).2
    exact ⟨fun c hc p hp => inside_trans (hl c hc) p hp, fun c hc => hl c fun p hp => hc p (.leaf old points p ht hp)⟩
  | node old l s ihl ihr =>
    have hh := calc_holds hr h
    have hthick := (calc_thick hr h).1 (allThick_has ht)
    simp only [bounds] at h
    obtain ⟨l', h1, h⟩ := Outcome.bind_eq_ok.1 h
    obtain ⟨r', h2, h⟩ := Outcome.bind_eq_ok.1 h
    obtain ⟨b, h3, h⟩ := Outcome.bind_eq_ok.1 h
    cases h
    obtain ⟨a1, a2⟩ := ihl hr.1 ht.1 h1
    obtain ⟨b1, b2⟩ := ihr hr.2 ht.2 h2
    have hpos : (l'.box.unionWith r'.box).mins 0 < (l'.box.unionWith r'.box).maxs 0 := by
      obtain ⟨u1, _⟩ := Box.union_contains l'.box r'.box
      rw [Box.contains_corners] at u1
      exact lt_of_le_of_lt (u1 0).1 (lt_of_lt_of_le ((calc_thick hr.1 h1).1 (allThick_has ht.1)) (u1 0).2)
    have hb := fix_thick h3 hpos
    subst hb
    have key : ∀ c : Box K 3, (∀ p, PointOf (.node old l s) p → Inside c p) → c.contains (l'.box.unionWith r'.box) = true := by
      intro c hc
      exact Box.union_least (calc_proper hlt hr.2 h2) (a2 c fun p hp => hc p (.left _ _ _ p hp)) (b2 c fun p hp => hc p (.right _ _ _ p hp))
    exact ⟨⟨fun c hc p hp => inside_trans (key c hc) p hp, a1, b1⟩, key⟩

end Verif.TreeBounds
