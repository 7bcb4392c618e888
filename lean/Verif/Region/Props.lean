import Mathlib.Algebra.Order.Ring.Rat
import Mathlib.Tactic.NormNum
import Mathlib.Tactic.FinCases
import Verif.Region.Lemmas

/-!
C228: with a region only what is in it is compiled, and walls close it.
-/

namespace Verif.Region

open Geom Spec
open Geom.Spec (Inside Proper)

variable {K : Type} [Field K] [LinearOrder K] [IsStrictOrderedRing K]

/-- The whole surface of a region is on its walls. -/
theorem surface_walled (brush : List (Plane K)) (p : Vec K) (h : OnSurface brush p) : ∃ w ∈ walls brush, In w p := by
  obtain ⟨hin, s, hs, he⟩ := h
  refine ⟨wall brush s, List.mem_map.2 ⟨s, hs, rfl⟩, ?_⟩
  intro t ht
  obtain ⟨o, ho, rfl⟩ := List.mem_map.1 ht
  unfold wallSide
  split_ifs with h1 h2
  · subst h1
    simp only
    linarith
  · simp only [dot_neg]
    linarith
  · exact hin o ho

/-- The walls are outside of the region, if it has two sides of every direction, such as a box. -/
theorem interior_free (brush : List (Plane K)) (ho : ∀ s ∈ brush, HasOpposite brush s) (hn : ∀ s ∈ brush, s.normal ≠ ⟨0, 0, 0⟩) (p : Vec K)
    (h : Interior brush p) : ∀ w ∈ walls brush, ¬ In w p := by
  intro w hw hin
  obtain ⟨s, hs, rfl⟩ := List.mem_map.1 hw
  obtain ⟨o, hob, hoe⟩ := ho s hs
  have hne : o ≠ s := by
    rintro rfl
    apply hn o hs
    obtain ⟨⟨x, y, z⟩, d⟩ := o
    simp only [neg, Vec.mk.injEq] at hoe ⊢
    exact ⟨by linarith [hoe.1], by linarith [hoe.2.1], by linarith [hoe.2.2]⟩
  have h1 := hin (wallSide s o) (List.mem_map.2 ⟨o, hob, rfl⟩)
  unfold wallSide at h1
  rw [if_neg hne, if_pos hoe] at h1
  simp only [dot_neg] at h1
  have := h s hs
  linarith

/-- Every wall is 16 units thick: what is at most 16 units before one side and behind all others is in it. -/
theorem wall_thick (brush : List (Plane K)) (s : Plane K) (hs : s ∈ brush) (p : Vec K) (h0 : s.dist ≤ dot s.normal p)
    (h1 : dot s.normal p ≤ s.dist + 16) (h2 : ∀ o ∈ brush, o ≠ s → dot o.normal p ≤ o.dist) : ∃ w ∈ walls brush, In w p := by
  refine ⟨wall brush s, List.mem_map.2 ⟨s, hs, rfl⟩, ?_⟩
  intro t ht
  obtain ⟨o, ho, rfl⟩ := List.mem_map.1 ht
  unfold wallSide
  split_ifs with h3 h4
  · subst h3
    exact h1
  · simp only [dot_neg]
    linarith
  · exact h2 o ho h3

/-- Against the property: the wall of a side without an opposite side fills the whole region. -/
theorem region_filled (brush : List (Plane K)) (s : Plane K) (hs : s ∈ brush) (ho : ¬ HasOpposite brush s) (p : Vec K) (h : In brush p) :
    ∃ w ∈ walls brush, In w p := by
  refine ⟨wall brush s, List.mem_map.2 ⟨s, hs, rfl⟩, ?_⟩
  intro t ht
  obtain ⟨o, hob, rfl⟩ := List.mem_map.1 ht
  unfold wallSide
  split_ifs with h1 h2
  · subst h1
    have := h o hob
    simp only
    linarith
  · exact absurd ⟨o, hob, h2⟩ ho
  · exact h o hob

/-- Which brushes are loaded: all but those of the world that are outside of the region, and those of `_super_detail`, which are
left out of the visible hull. -/
theorem loaded_iff (l : Load K) (b : Box K 3) (hb : Proper b) (hr : ∀ r, l.region = some r → Proper r) :
    loaded l b = true ↔
      (∀ r, l.world = true → l.region = some r → Meet r b) ∧ ¬ (l.superDetail = true ∧ (l.hull = none ∨ l.hull = some 0)) := by
  obtain ⟨region, anti, world, sd, hull⟩ := l
  unfold loaded
  simp only [antiLoop_true, Bool.not_true, Bool.and_false, Bool.false_eq_true, if_false]
  have hh : hull.getD 0 = 0 ↔ (hull = none ∨ hull = some 0) := by cases hull <;> simp
  have hh' : (decide (hull.getD 0 = 0) && sd) = true ↔ (sd = true ∧ (hull = none ∨ hull = some 0)) := by
    rw [Bool.and_eq_true, decide_eq_true_eq, hh, and_comm]
  have key : (world && region.any (fun r => r.disjoint b 0)) = true ↔
      ¬ ∀ r, world = true → region = some r → Meet r b := by
    cases region with
    | none => simp
    | some r =>
      simp only [Bool.and_eq_true, Option.any_some, disjoint_meet (hr r rfl) hb]
      cases world <;> simp
  split_ifs with h1 h2
  · simp only [Bool.false_eq_true, false_iff, not_and]
    exact fun h => absurd h (key.1 h1)
  · simp only [Bool.false_eq_true, false_iff]
    exact fun h => h.2 (hh'.1 h2)
  · simp only [true_iff]
    exact ⟨not_not.1 (fun h => h1 (key.2 h)), fun h => h2 (hh'.2 h)⟩

/-- Against the property: anti-regions do not remove any brush of the world. -/
theorem antiregion_ignored (l : Load K) (anti : List (Box K 3)) (b : Box K 3) : loaded { l with antiregions := anti } b = loaded l b := by
  unfold loaded
  simp only [antiLoop_true]

open Classical in
/-- Which entities without brushes stay, if there is no region or no anti-region. -/
theorem ents_partial (region : Option (Box K 3)) (anti : List (Box K 3)) (h : region = none ∨ anti = []) (ents : List (Ent K)) :
    regionEnts region anti ents = .ok (ents.filter fun e => Stays region anti e) := by
  unfold regionEnts
  split_ifs with h1
  · exact removeEnts_eq region anti h ents _ (le_refl _)
  · simp only [Bool.or_eq_true, Option.isSome_iff_ne_none, ne_eq, Bool.not_eq_true', List.isEmpty_eq_false_iff, not_or, not_not] at h1
    rw [h1.1, h1.2]
    symm
    congr 1
    rw [List.filter_eq_self]
    intro e _
    simp [Stays]

/-- Against the property, if there are both: behind an entity outside of the region an entity with brushes is removed, if it is
in an anti-region. -/
theorem brush_entity_removed (r a : Box K 3) (e f : Ent K) (he : e.brushes = 0) (ho : ¬ Inside r e.origin) (hf : Inside a f.origin) :
    regionEnts (some r) [a] [e, f] = .ok [] := by
  have h1 : r.containsPoint e.origin = false := by
    rw [← Bool.not_eq_true, Box.containsPoint_iff]
    exact ho
  have h2 : a.containsPoint f.origin = true := (Box.containsPoint_iff a f.origin).2 hf
  simp [regionEnts, removeEnts, antiHit, he, h1, h2]

/-- Against the property, if there are both: if the last entity is outside of the region, the memory behind the entities is
read. -/
theorem last_entity_ub (r a : Box K 3) (anti : List (Box K 3)) (ents : List (Ent K)) (e : Ent K) (he : e.brushes = 0) (ho : ¬ Inside r e.origin)
    (hs : ∀ x ∈ ents, x.brushes ≠ 0) : regionEnts (some r) (a :: anti) (ents ++ [e]) = .ub := by
  have h1 : r.containsPoint e.origin = false := by
    rw [← Bool.not_eq_true, Box.containsPoint_iff]
    exact ho
  have key : ∀ (l : List (Ent K)) (k : Nat), (∀ x ∈ l, x.brushes ≠ 0) → l.length < k →
      removeEnts (some r) (a :: anti) k (l ++ [e]) = .ub := by
    intro l
    induction l with
    | nil =>
      intro k _ hk
      obtain ⟨k, rfl⟩ : ∃ j, k = j + 1 := ⟨k - 1, by simp at hk; omega⟩
      simp [removeEnts, antiHit, he, h1]
    | cons x l ih =>
      intro k hx hk
      obtain ⟨k, rfl⟩ : ∃ j, k = j + 1 := ⟨k - 1, by simp at hk; omega⟩
      simp only [List.cons_append]
      unfold removeEnts
      rw [if_neg (hx x (by simp)), ih k (fun y hy => hx y (by simp [hy])) (by simp at hk; omega)]
      rfl
  unfold regionEnts
  simp only [Option.isSome_some, Bool.true_or, if_true]
  exact key ents _ hs (by simp)

/-! The hypotheses are met. -/

/-- A box from 0 to 64. -/
def exBox : List (Plane ℚ) :=
  [⟨⟨1, 0, 0⟩, 64⟩, ⟨⟨-1, 0, 0⟩, 0⟩, ⟨⟨0, 1, 0⟩, 64⟩, ⟨⟨0, -1, 0⟩, 0⟩, ⟨⟨0, 0, 1⟩, 64⟩, ⟨⟨0, 0, -1⟩, 0⟩]

example : (∀ s ∈ exBox, HasOpposite exBox s) ∧ (∀ s ∈ exBox, s.normal ≠ ⟨0, 0, 0⟩) ∧ Interior exBox ⟨32, 32, 32⟩ ∧ OnSurface exBox ⟨64, 32, 32⟩ := by
  unfold HasOpposite Interior OnSurface In
  decide +kernel

/-- A tetrahedron: no side has an opposite one. -/
def exWedge : List (Plane ℚ) := [⟨⟨-1, 0, 0⟩, 0⟩, ⟨⟨0, -1, 0⟩, 0⟩, ⟨⟨0, 0, -1⟩, 0⟩, ⟨⟨2 / 3, 2 / 3, 1 / 3⟩, 64⟩]

example : ¬ HasOpposite exWedge ⟨⟨-1, 0, 0⟩, 0⟩ ∧ Interior exWedge ⟨1, 1, 1⟩ := by
  unfold HasOpposite Interior
  decide +kernel

def exR : Box ℚ 3 := ⟨fun _ => 0, fun _ => 64⟩
def exA : Box ℚ 3 := ⟨fun _ => 100, fun _ => 164⟩

example : loaded ⟨some exR, [exA], true, false, some 0⟩ exA = false ∧ loaded ⟨none, [exA], true, false, some 0⟩ exA = true := by decide +kernel

example : ¬ Inside exR (fun _ => 70) ∧ Inside exA (fun _ => 120) ∧ Proper exR := by
  refine ⟨fun h => ?_, fun i => ?_, fun i => ?_⟩
  · have := (h 0).2
    norm_num [exR] at this
  · constructor <;> norm_num [exA]
  · norm_num [exR]

end Verif.Region
