import Verif.BrushBsp.WindingProps
import Verif.BrushBsp.TermProps

/-! C95: the contents of the leaf of a point are those of the brushes that hold the point. -/

namespace Verif.BrushBsp

open Geom Geom.Spec Spec

set_option linter.unusedSectionVars false

variable {K C : Type} [Field K] [LinearOrder K] [IsStrictOrderedRing K]

theorem follow_sublist {env : Env K C} {p : Vec K} {l bs : List (Brush K C)} (h : Follow env p l bs) :
    ∃ m, m.Sublist l ∧ (l.filter fun b => Inside env b p).Sublist m ∧ m.map (·.contents) = bs.map (·.contents) := by
  induction h with
  | nil => exact ⟨[], by simp, by simp, rfl⟩
  | @keep B b l bs ht _ ih =>
    obtain ⟨m, h1, h2, h3⟩ := ih
    obtain ⟨T, _, _, hc, _⟩ := ht
    refine ⟨B :: m, h1.cons_cons B, ?_, by simp [h3, hc]⟩
    rw [List.filter_cons]
    split
    · exact h2.cons_cons B
    · exact h2.cons B
  | @drop B l bs hin _ ih =>
    obtain ⟨m, h1, h2, h3⟩ := ih
    refine ⟨m, h1.cons B, ?_, h3⟩
    rw [List.filter_cons, if_neg (by simpa using hin)]
    exact h2

theorem follow_exact {env : Env K C} {p : Vec K} {l bs : List (Brush K C)} (h : Follow env p l bs)
    (hleaf : ∀ b ∈ bs, ∀ s ∈ b.sides, s.w ≠ [] → s.onnode = false → (env.planes s.planenum).distTo p ≤ 0) :
    (l.filter fun b => Inside env b p).map (·.contents) = bs.map (·.contents) := by
  induction h with
  | nil => rfl
  | @keep B b l bs ht _ ih =>
    have ih' := ih fun x hx => hleaf x (List.mem_cons_of_mem _ hx)
    obtain ⟨T, hs, hB, hc, _, ho⟩ := ht
    have hin : Inside env B p := by
      apply hB
      apply solid_region hs
      intro s hs' hne
      cases hon : s.onnode with
      | true => exact ho s hs' hon
      | false => exact hleaf b List.mem_cons_self s hs' hne hon
    rw [List.filter_cons, if_pos (by simpa using hin), List.map_cons, List.map_cons, ih', hc]
  | @drop B l bs hin _ ih =>
    rw [List.filter_cons, if_neg (by simpa using hin)]
    exact ih hleaf

theorem fold_contents (env : Env K C) : ∀ (l m : List (Brush K C)) (c : C), l.map (·.contents) = m.map (·.contents) →
    l.foldl (fun c b => env.combine c b.contents) c = m.foldl (fun c b => env.combine c b.contents) c := by
  intro l m c h
  rw [← List.foldl_map (f := fun b : Brush K C => b.contents) (g := env.combine), h, List.foldl_map]

/-- C95: take closed brushes and a point that is more than 0.1 away from the planes it passes on the way down the tree.
If the brushes that are cut on this way are cut cleanly, every brush that holds the point has a part in the leaf: the
contents of the leaf combine, in the order of the brushes, the contents of a choice of the brushes among which are all
that hold the point. -/
theorem leaf_keeps_brushes {env : Env K C} (hok : PlanesOk env) {fromBounds : Bounds K → Brush K C} {sidespace : K}
    {fuel : Nat} {bs : List (Brush K C)} (hne : bs ≠ []) (hbs : ∀ b ∈ bs, Closed env b) {t : BTree K C}
    (ht : brushBsp env fromBounds sidespace fuel bs = some (.ok t)) {p : Vec K}
    (hp : ∀ n ∈ (leafAt env.planes p t).1, 1 / 10 < |(env.planes n).distTo p|)
    (hcut : ∀ x ∈ cuts env fromBounds sidespace p fuel bs, CleanCut env x.1 x.2) :
    ∃ m, m.Sublist bs ∧ (bs.filter fun b => Inside env b p).Sublist m ∧
      (leafAt env.planes p t).2.1 = m.foldl (fun c b => env.combine c b.contents) env.empty := by
  unfold brushBsp at ht
  rw [if_neg hne] at ht
  obtain ⟨hf, hc⟩ := follow_tree hok fuel [] _ _ bs _ t (by simp) (follow_init bs hbs) ht hp hcut
  obtain ⟨m, h1, h2, h3⟩ := follow_sublist hf
  exact ⟨m, h1, h2, by rw [hc, fold_contents env _ _ _ h3]⟩

/-- C95: if moreover the point is behind the polygons in its leaf that were not used for nodes, the contents of the leaf
combine the contents of exactly the brushes that hold the point, in the order of the brushes. -/
theorem leaf_contents {env : Env K C} (hok : PlanesOk env) {fromBounds : Bounds K → Brush K C} {sidespace : K}
    {fuel : Nat} {bs : List (Brush K C)} (hne : bs ≠ []) (hbs : ∀ b ∈ bs, Closed env b) {t : BTree K C}
    (ht : brushBsp env fromBounds sidespace fuel bs = some (.ok t)) {p : Vec K}
    (hp : ∀ n ∈ (leafAt env.planes p t).1, 1 / 10 < |(env.planes n).distTo p|)
    (hcut : ∀ x ∈ cuts env fromBounds sidespace p fuel bs, CleanCut env x.1 x.2)
    (hleaf : ∀ b ∈ (leafAt env.planes p t).2.2, ∀ s ∈ b.sides, s.w ≠ [] → s.onnode = false →
      (env.planes s.planenum).distTo p ≤ 0) :
    (leafAt env.planes p t).2.1 =
      (bs.filter fun b => Inside env b p).foldl (fun c b => env.combine c b.contents) env.empty := by
  unfold brushBsp at ht
  rw [if_neg hne] at ht
  obtain ⟨hf, hc⟩ := follow_tree hok fuel [] _ _ bs _ t (by simp) (follow_init bs hbs) ht hp hcut
  rw [hc]
  exact fold_contents env _ _ _ (follow_exact hf hleaf).symm

end Verif.BrushBsp
