import Mathlib.Algebra.Order.Ring.Rat
import Mathlib.Tactic.FinCases
import Mathlib.Data.Fintype.Basic
import Verif.LoadEnt.Lemmas
import Verif.Geom.AabbProps

/-!
C229: the world gets the brushes of groups, and area portals their numbers. C230: the bounds of rotating brushes.
-/

namespace Verif.LoadEnt

open Geom Spec
open Geom.Spec (Inside Proper)

/-- **C229**: the world has its own brushes and then those of the entities merged into it, in their order; the area portals are
numbered from 1 in their order and get their number as their key `style`, and no other entity or key changes. -/
theorem world_loaded (w : Ent) (es : List Ent) (h : ∀ e ∈ es, IsPortal e → e.brushes.length = 1) :
    ∃ es', loadWorld false 0 (w :: es) = .ok (w :: es', portalsBefore es es.length, w.brushes ++ mergedBrushes es) ∧
      es'.length = es.length ∧
      ∀ (i : Nat) (e e' : Ent), es[i]? = some e → es'[i]? = some e' →
        (IsPortal e → Numbered (portalsBefore es i + 1) e e') ∧ (¬ IsPortal e → e' = e) := by
  obtain ⟨es', h1, h2, h3⟩ := others_ok 0 es h
  simp only [Nat.zero_add] at h1 h3
  refine ⟨es', ?_, h2, h3⟩
  simp only [loadWorld]
  rw [h1]
  rfl

/-- **C229**: different area portals get different numbers. -/
theorem portals_differ (es : List Ent) (i j : Nat) (e : Ent) (hij : i < j) (he : es[i]? = some e) (hp : IsPortal e) :
    portalsBefore es i + 1 < portalsBefore es j + 1 := by
  induction es generalizing i j with
  | nil => simp at he
  | cons x t ih =>
    cases j with
    | zero => omega
    | succ j =>
      rw [portalsBefore_succ]
      cases i with
      | zero =>
        simp only [List.getElem?_cons_zero, Option.some.injEq] at he
        subst he
        rw [if_pos hp]
        simp [portalsBefore]
      | succ i =>
        simp only [List.getElem?_cons_succ] at he
        rw [portalsBefore_succ]
        have := ih i j (by omega) he
        omega

/-- **C229**: an area portal of several brushes, or of none, stops the compile. -/
theorem portal_of_many (region : Bool) (w : Ent) (es : List Ent) (h : ∃ e ∈ es, IsPortal e ∧ e.brushes.length ≠ 1) :
    loadWorld region 0 (w :: es) = .error := by
  simp only [loadWorld]
  rw [others_error region 0 es h]
  rfl

/-- **C229**: with a region or anti-regions area portals get no numbers. -/
theorem region_unnumbered (w : Ent) (es : List Ent) (h : ∀ e ∈ es, IsPortal e → e.brushes.length = 1) :
    loadWorld true 0 (w :: es) = .ok (w :: es, 0, w.brushes ++ mergedBrushes es) := by
  simp only [loadWorld]
  rw [others_region 0 es h]
  rfl

/-- **C229**, against the property: each hull numbers the area portals anew, from where the last ended. -/
theorem renumbered (w : Ent) (es : List Ent) (h : ∀ e ∈ es, IsPortal e → e.brushes.length = 1) (n : Nat) :
    ∃ es', loadWorld false n (w :: es) = .ok (w :: es', n + portalsBefore es es.length, w.brushes ++ mergedBrushes es) ∧
      es'.length = es.length ∧ ∀ (i : Nat) (e e' : Ent), es[i]? = some e → es'[i]? = some e' → IsPortal e → e'.portal = n + portalsBefore es i + 1 := by
  obtain ⟨es', h1, h2, h3⟩ := others_ok n es h
  refine ⟨es', ?_, h2, fun i e e' he he' hp => ((h3 i e e' he he').1 hp).portal⟩
  simp only [loadWorld]
  rw [h1]
  rfl

variable {K : Type} [Field K] [LinearOrder K] [IsStrictOrderedRing K]

/-- The half side of the bounds: no coordinate of a corner is farther from 0. -/
theorem rotBounds_delta (b : Box K 3) : ∃ d, rotBounds b = ⟨fun _ => -d, fun _ => d⟩ ∧ (∀ i, |b.mins i| ≤ d ∧ |b.maxs i| ≤ d) ∧
    ∃ i, d = |b.mins i| ∨ d = |b.maxs i| := by
  unfold rotBounds
  simp only
  set lo := min (min (min (b.mins 0) (b.mins 1)) (b.mins 2)) (min (min (b.maxs 0) (b.maxs 1)) (b.maxs 2)) with hlo
  set hi := max (max (max (b.mins 0) (b.mins 1)) (b.mins 2)) (max (max (b.maxs 0) (b.maxs 1)) (b.maxs 2)) with hhi
  have hd : 0 ≤ max |hi| |lo| := le_trans (abs_nonneg _) (le_max_left _ _)
  have bound : ∀ x, lo ≤ x → x ≤ hi → |x| ≤ max |hi| |lo| := by
    intro x h1 h2
    rw [abs_le]
    constructor
    · have : -|lo| ≤ lo := neg_abs_le lo
      have := le_max_right |hi| |lo|
      linarith
    · exact le_trans (le_trans h2 (le_abs_self hi)) (le_max_left _ _)
  have hl : ∀ i, lo ≤ b.mins i ∧ lo ≤ b.maxs i := by
    intro i
    fin_cases i <;> simp [hlo]
  have hh : ∀ i, b.mins i ≤ hi ∧ b.maxs i ≤ hi := by
    intro i
    fin_cases i <;> simp [hhi]
  refine ⟨max |hi| |lo|, ?_, fun i => ⟨bound _ (hl i).1 (hh i).1, bound _ (hl i).2 (hh i).2⟩, ?_⟩
  · rw [Box.mk'_eq]
    intro _
    linarith
  · have pick : ∀ x, (x = b.mins 0 ∨ x = b.mins 1 ∨ x = b.mins 2 ∨ x = b.maxs 0 ∨ x = b.maxs 1 ∨ x = b.maxs 2) →
        ∃ i, |x| = |b.mins i| ∨ |x| = |b.maxs i| := by
      rintro x (rfl | rfl | rfl | rfl | rfl | rfl)
      exacts [⟨0, .inl rfl⟩, ⟨1, .inl rfl⟩, ⟨2, .inl rfl⟩, ⟨0, .inr rfl⟩, ⟨1, .inr rfl⟩, ⟨2, .inr rfl⟩]
    rcases max_choice |hi| |lo| with h | h
    · rw [h]
      apply pick
      rw [hhi]
      grind
    · rw [h]
      apply pick
      rw [hlo]
      grind

/-- **C230**: the bounds are the smallest cube around the origin that holds the brush: they hold every point of it, at most one
coordinate decides, and quarter turns around an axis do not leave them. -/
theorem quarter_turns_partial (b : Box K 3) (p : Pt K 3) (hp : Inside b p) :
    Inside (rotBounds b) p ∧ Inside (rotBounds b) (turnZ 0 1 p) ∧ Inside (rotBounds b) (turnZ (-1) 0 p) ∧ Inside (rotBounds b) (turnZ 0 (-1) p) := by
  obtain ⟨d, he, hd, _⟩ := rotBounds_delta b
  have h : ∀ i, |p i| ≤ d := by
    intro i
    rw [abs_le]
    have h1 := (abs_le.1 (hd i).1).1
    have h2 := (abs_le.1 (hd i).2).2
    exact ⟨le_trans h1 (hp i).1, le_trans (hp i).2 h2⟩
  have h0 := abs_le.1 (h 0)
  have h1 := abs_le.1 (h 1)
  have h2 := abs_le.1 (h 2)
  rw [he]
  refine ⟨fun i => abs_le.1 (h i), fun i => ?_, fun i => ?_, fun i => ?_⟩ <;> fin_cases i <;> simp [turnZ] <;> constructor <;> linarith

/-- **C230**: no cube around the origin is smaller and holds the brush. -/
theorem rotBounds_least (b : Box K 3) (c : K) (h : ∀ i, -c ≤ b.mins i ∧ b.maxs i ≤ c) (hb : Proper b) : ∀ i, (rotBounds b).maxs i ≤ c := by
  obtain ⟨d, he, _, i, hi⟩ := rotBounds_delta b
  intro j
  rw [he]
  simp only
  rcases hi with hi | hi <;> rw [hi, abs_le]
  · exact ⟨(h i).1, le_trans (hb i) (h i).2⟩
  · exact ⟨le_trans (h i).1 (hb i), (h i).2⟩

/-- **C230**, against the property: every flat square around the origin leaves its bounds when it turns. -/
theorem corner_leaves (a : K) (ha : 0 < a) :
    ∃ (b : Box K 3) (p : Pt K 3), Proper b ∧ Inside b p ∧ (4 / 5 : K) * (4 / 5) + 3 / 5 * (3 / 5) = 1 ∧ ¬ Inside (rotBounds b) (turnZ (4 / 5) (3 / 5) p) := by
  refine ⟨⟨![-a, -a, 0], ![a, a, 0]⟩, ![a, -a, 0], ?_, ?_, by norm_num, ?_⟩
  · intro i
    fin_cases i <;> simp <;> linarith
  · intro i
    fin_cases i <;> simp <;> linarith
  · obtain ⟨d, he, _, i, hi⟩ := rotBounds_delta (⟨![-a, -a, 0], ![a, a, 0]⟩ : Box K 3)
    have hd : d ≤ a := by
      rcases hi with hi | hi <;> rw [hi] <;> fin_cases i <;> simp [abs_of_pos ha] <;> linarith
    rw [he]
    intro h
    have := (h 0).2
    simp [turnZ] at this
    linarith

/-- **C230**: when they are used. -/
theorem expanded_iff (origin : Pt K 3) (hipnotic : Bool) (hull : Option Nat) (hexen : Bool) :
    shouldExpand origin hipnotic hull hexen = true ↔ origin ≠ 0 ∧ hipnotic = true ∧ hull ≠ none ∧ hexen = false := by
  unfold shouldExpand
  have : origin = 0 ↔ (origin 0 = 0 ∧ origin 1 = 0 ∧ origin 2 = 0) := by
    constructor
    · rintro rfl
      exact ⟨rfl, rfl, rfl⟩
    · rintro ⟨h0, h1, h2⟩
      funext i
      fin_cases i
      exacts [h0, h1, h2]
  rw [ne_eq, this]
  cases hull <;> cases hipnotic <;> cases hexen <;> simp <;> tauto

/-! The hypotheses are met. -/

def exWorld : Ent := ⟨[("classname".toList, "worldspawn".toList)], [0], 0⟩
def exPortal (n : Nat) : Ent := ⟨[("classname".toList, "func_areaportal".toList), ("targetname".toList, "t".toList)], [n], 0⟩
def exGroup : Ent := ⟨[("classname".toList, "func_group".toList)], [5, 6], 0⟩

example : loadWorld false 0 [exWorld, exPortal 3, exGroup, exPortal 4] =
    .ok ([exWorld, ⟨(exPortal 3).keys ++ [("style".toList, "1".toList)], [3], 1⟩, exGroup,
      ⟨(exPortal 4).keys ++ [("style".toList, "2".toList)], [4], 2⟩], 2, [0, 3, 5, 6, 4]) := by decide +kernel

example : ∀ e ∈ [exPortal 3, exGroup, exPortal 4], IsPortal e → e.brushes.length = 1 := by decide +kernel

end Verif.LoadEnt
