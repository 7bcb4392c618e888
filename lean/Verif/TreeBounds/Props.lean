import Mathlib.Algebra.Order.Ring.Rat
import Mathlib.Data.Fin.VecNotation
import Mathlib.Tactic.NormNum
import Verif.TreeBounds.Lemmas

/-!
C231: the bounds of nodes and leafs hold everything below them.
-/

namespace Verif.TreeBounds

open Geom Spec
open Geom.Spec (Inside Proper)

variable {K : Type} [Field K] [LinearOrder K] [IsStrictOrderedRing K]

/-- The bounds of all nodes and leafs are found if some leaf has a volume; they hold the points of all leafs with a volume below
them, and those of a node with such a leaf hold those of its children. -/
theorem bounds_hold_partial {lowest top : K} {t : Tree K} (hr : InRange lowest top t) (ht : HasThick t) :
    ∃ r, bounds lowest top none t = .ok r ∧ Holds t r := by
  obtain ⟨r, h⟩ := calc_ok (parent := none) hr (.inr ht)
  exact ⟨r, h, calc_holds hr h⟩

/-- They are not larger than needed, if all leafs have a volume. -/
theorem bounds_tight {lowest top : K} (hlt : lowest ≤ top) {t : Tree K} (hr : InRange lowest top t) (ht : AllThick t) :
    ∃ r, bounds lowest top none t = .ok r ∧ Holds t r ∧ Least t r := by
  obtain ⟨r, h⟩ := calc_ok (parent := none) hr (.inr (allThick_has ht))
  exact ⟨r, h, calc_holds hr h, (calc_least hlt hr ht h).1⟩

/-- Against the property: a leaf without a volume gets the corner of the bounds its parent had before, wherever its points are, and
they become part of the bounds of its parent. -/
theorem flat_leaf {lowest top : K} (hlt : lowest ≤ top) (old oldLeaf : Box K 3) (points : List (Pt K 3)) (l : Tree K)
    (hr : InRange lowest top (.node old l (.leaf oldLeaf points))) (hf : ¬ Thick points) (hl : HasThick l) :
    ∃ b l', bounds lowest top none (.node old l (.leaf oldLeaf points)) = .ok (.node b l' (.leaf ⟨old.mins, old.mins⟩)) ∧ Inside b old.mins := by
  obtain ⟨r, h⟩ := calc_ok (parent := none) hr (.inr (.inl hl))
  have hh := calc_holds hr h
  simp only [bounds] at h
  obtain ⟨l', h1, h⟩ := Outcome.bind_eq_ok.1 h
  obtain ⟨r', h2, h⟩ := Outcome.bind_eq_ok.1 h
  obtain ⟨b, h3, h⟩ := Outcome.bind_eq_ok.1 h
  cases h
  obtain ⟨c, h4, h5⟩ := Outcome.bind_eq_ok.1 h2
  cases h5
  have hflat : (Box.ofPoints lowest top points).mins 0 ≥ (Box.ofPoints lowest top points).maxs 0 := by
    by_cases hn : points = []
    · subst hn
      exact hlt
    · obtain ⟨p, hp⟩ := List.exists_mem_of_ne_nil _ hn
      have hle := (Box.bounds_least hn hr.2).2 ⟨p, p⟩
      by_contra hc
      apply hf
      by_contra hth
      have hsame : ∀ q ∈ points, q 0 = p 0 := by
        intro q hq
        rcases lt_trichotomy (q 0) (p 0) with h | h | h
        · exact absurd ⟨q, hq, p, hp, h⟩ hth
        · exact h
        · exact absurd ⟨p, hp, q, hq, h⟩ hth
      have := (Box.bounds_least hn hr.2).2 ⟨fun i => if i = 0 then p 0 else lowest, fun i => if i = 0 then p 0 else top⟩ (by
        intro q hq i
        by_cases hi : i = 0
        · subst hi
          simp [hsame q hq]
        · simp only [hi, if_false]
          exact hr.2 q hq i)
      rw [Box.contains_corners] at this
      have h0 := this 0
      simp only [if_true] at h0
      exact hc (le_trans h0.2 h0.1)
  have hc : c = ⟨old.mins, old.mins⟩ := by
    unfold fixFlat at h4
    rw [if_pos hflat] at h4
    simp only [Outcome.ok.injEq] at h4
    rw [← h4]
    exact Box.mk'_eq fun _ => le_refl _
  subst hc
  exact ⟨b, l', by simp only [bounds, h1, h2, h3, Outcome.ok_bind], (hh.1 (.inl hl)).2.2 _ fun i => ⟨le_refl _, le_refl _⟩⟩

/-- Against the property: without a parent there is nothing to take them from. -/
theorem flat_root_ub {lowest top : K} (hlt : lowest ≤ top) (old : Box K 3) : bounds lowest top none (.leaf old []) = .ub := by
  have h : (Box.ofPoints lowest top ([] : List (Pt K 3))).mins 0 ≥ (Box.ofPoints lowest top ([] : List (Pt K 3))).maxs 0 := hlt
  simp only [bounds, fixFlat, if_pos h]
  rfl

/-! The hypotheses are met. -/

def exOld : Box ℚ 3 := ⟨fun _ => -24, fun _ => 88⟩
def exLeft : Tree ℚ := .leaf exOld [![0, 0, 0], ![32, 0, 64]]
def exRight : Tree ℚ := .leaf exOld [![32, 0, 0], ![64, 64, 64]]

example : AllThick (.node exOld exLeft exRight) ∧ InRange (-1000) 1000 (.node exOld exLeft exRight) := by
  refine ⟨⟨⟨_, .head _, _, .tail _ (.head _), by norm_num⟩, ⟨_, .head _, _, .tail _ (.head _), by norm_num⟩⟩, ?_, ?_⟩ <;>
    · intro p hp i
      simp only [List.mem_cons, List.not_mem_nil, or_false] at hp
      rcases hp with rfl | rfl <;> rcases i with ⟨_ | _ | _ | i, hi⟩ <;> first | (norm_num; done) | (simp; norm_num; done) | omega

example : ¬ Thick ([] : List (Pt ℚ 3)) := by
  rintro ⟨p, hp, _⟩
  simp at hp

end Verif.TreeBounds
