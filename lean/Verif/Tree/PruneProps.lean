import Verif.Tree.Spec
import Mathlib.Tactic.Tauto

/-! C55: pruning. -/

namespace Verif.Tree

open Geom Contents Spec

theorem tst_bit (c : Contents) (k : Nat) (hk : k < 64) : tst c (bit k) = c.getLsbD k := by
  unfold tst bit
  by_cases h : c.getLsbD k = true
  · rw [h, bne_iff_ne]
    intro h0
    have := congrArg (fun v => v.getLsbD k) h0
    simp [hk] at this
    rw [← BitVec.getLsbD_eq_getElem hk, h] at this
    cases this
  · rw [Bool.not_eq_true] at h
    rw [h, bne_eq_false_iff_eq]
    apply BitVec.eq_of_getLsbD_eq
    intro i hi
    by_cases hik : i = k
    · subst hik; simp [h]
    · simp
      intro _ _ h3
      by_contra _
      omega

theorem anySolid_eq (c : Contents) : anySolid c = c.getLsbD 0 := tst_bit c 0 (by omega)

theorem isDetailWall_iff (c : Contents) : Q1.isDetailWall c = true ↔ c.getLsbD 2 = true ∧ c.getLsbD 14 = true := by
  unfold Q1.isDetailWall
  rw [tst_bit c 14 (by omega), tst_bit c 2 (by omega)]
  simp [and_comm]

theorem solid_getLsbD : (SOLID : Contents).getLsbD 0 = true := by decide

theorem solidVolume_leaf (q2 : Bool) (l : Leaf) :
    SolidVolume q2 (pruneLeaf q2 l).contents ↔ SolidVolume q2 l.contents := by
  unfold pruneLeaf
  by_cases h : (!q2 && Q1.isDetailWall l.contents) = true
  · rw [if_pos h]
    simp only [Bool.and_eq_true, Bool.not_eq_true', isDetailWall_iff] at h
    simp [SolidVolume, solid_getLsbD, h.1, h.2]
  · rw [if_neg h]

theorem solidVolume_pruned_leaf (q2 : Bool) (l : Leaf) :
    SolidVolume q2 l.contents ↔ (pruneLeaf q2 l).contents.getLsbD 0 = true := by
  unfold pruneLeaf
  by_cases h : (!q2 && Q1.isDetailWall l.contents) = true
  · rw [if_pos h]
    simp only [Bool.and_eq_true, Bool.not_eq_true', isDetailWall_iff] at h
    simp [SolidVolume, solid_getLsbD, h.1, h.2]
  · rw [if_neg h]
    simp only [Bool.and_eq_true, Bool.not_eq_true', isDetailWall_iff] at h
    unfold SolidVolume
    constructor
    · rintro (h1 | ⟨h1, h2⟩)
      · exact h1
      · exact absurd ⟨h1, h2⟩ h
    · exact Or.inl

/-- The result of `pruneNode`: the node, or one solid leaf if both children are solid leafs. -/
theorem pruneNode_cases (sort : List Brush → List Brush) (d : NodeData) (f b : Bsp) :
    ((pruneNode sort d f b) = (.node d f b, 0) ∧ ¬(SolidLeaf f ∧ SolidLeaf b)) ∨
      ∃ lf lb, f = .leaf lf ∧ b = .leaf lb ∧ lf.contents.getLsbD 0 = true ∧ lb.contents.getLsbD 0 = true ∧
        pruneNode sort d f b = (.leaf (toLeaf sort d lf lb SOLID), 1) := by
  unfold pruneNode
  rcases f with lf | ⟨df, f1, f2⟩ <;> rcases b with lb | ⟨db, b1, b2⟩
  · simp only
    by_cases h : (anySolid lf.contents && anySolid lb.contents) = true
    · rw [if_pos h]
      simp only [Bool.and_eq_true, anySolid_eq] at h
      exact Or.inr ⟨lf, lb, rfl, rfl, h.1, h.2, rfl⟩
    · rw [if_neg h]
      simp only [Bool.and_eq_true, anySolid_eq] at h
      refine Or.inl ⟨rfl, ?_⟩
      rintro ⟨⟨_, h1, h2⟩, ⟨_, h3, h4⟩⟩
      cases h1; cases h3
      exact h ⟨h2, h4⟩
  · refine Or.inl ⟨rfl, ?_⟩
    rintro ⟨-, ⟨_, h3, _⟩⟩; cases h3
  · refine Or.inl ⟨rfl, ?_⟩
    rintro ⟨⟨_, h3, _⟩, -⟩; cases h3
  · refine Or.inl ⟨rfl, ?_⟩
    rintro ⟨⟨_, h3, _⟩, -⟩; cases h3

/-- **C55.** For every tree and every point (given by its side of each plane), the point lies in a solid leaf of the
pruned tree if and only if it lay in solid volume before. -/
theorem prune_solid (q2 : Bool) (sort : List Brush → List Brush) (t : Bsp) (front : Nat → Bool) :
    (leafAt front (prune q2 sort t).1).contents.getLsbD 0 = true ↔ SolidVolume q2 (leafAt front t).contents := by
  induction t with
  | leaf l => exact (solidVolume_pruned_leaf q2 l).symm
  | node d f b ihf ihb =>
    simp only [prune, leafAt]
    rcases pruneNode_cases sort d (prune q2 sort f).1 (prune q2 sort b).1 with ⟨h, -⟩ | ⟨lf, lb, hf, hb, h1, h2, h⟩
    · rw [h]
      simp only [leafAt]
      by_cases hs : front d.planenum = true
      · rw [if_pos hs, if_pos hs]; exact ihf
      · rw [if_neg hs, if_neg hs]; exact ihb
    · rw [h]
      rw [hf] at ihf
      rw [hb] at ihb
      simp only [leafAt, h1, true_iff] at ihf
      simp only [leafAt, h2, true_iff] at ihb
      simp only [leafAt, toLeaf, solid_getLsbD, true_iff]
      split
      · exact ihf
      · exact ihb

/-- **C55.** A point that lay in a leaf that is not solid still lies in that leaf, unchanged. -/
theorem prune_keeps_leafs (q2 : Bool) (sort : List Brush → List Brush) (t : Bsp) (front : Nat → Bool)
    (h : ¬SolidVolume q2 (leafAt front t).contents) : leafAt front (prune q2 sort t).1 = leafAt front t := by
  induction t with
  | leaf l =>
    simp only [prune, leafAt] at h ⊢
    unfold pruneLeaf
    rw [if_neg]
    intro hc
    simp only [Bool.and_eq_true, Bool.not_eq_true', isDetailWall_iff] at hc
    exact h (Or.inr hc)
  | node d f b ihf ihb =>
    have hs := prune_solid q2 sort (.node d f b) front
    simp only [prune, leafAt] at h hs ⊢
    rcases pruneNode_cases sort d (prune q2 sort f).1 (prune q2 sort b).1 with ⟨h0, -⟩ | ⟨lf, lb, hf, hb, h1, h2, h0⟩
    · rw [h0]
      simp only [leafAt]
      by_cases hc : front d.planenum = true
      · rw [if_pos hc] at h ⊢
        rw [if_pos hc]; exact ihf h
      · rw [if_neg hc] at h ⊢
        rw [if_neg hc]; exact ihb h
    · rw [h0] at hs
      simp only [leafAt, toLeaf, solid_getLsbD, true_iff] at hs
      exact absurd hs h

/-- **C55.** No node of the pruned tree has two solid leafs as children. -/
theorem prune_no_two_solid (q2 : Bool) (sort : List Brush → List Brush) (t : Bsp) :
    ∀ d f b, (d, f, b) ∈ nodes (prune q2 sort t).1 → ¬(SolidLeaf f ∧ SolidLeaf b) := by
  induction t with
  | leaf l => intro d f b h; simp [prune, nodes] at h
  | node d f b ihf ihb =>
    intro d' f' b' h
    simp only [prune] at h
    rcases pruneNode_cases sort d (prune q2 sort f).1 (prune q2 sort b).1 with ⟨h0, hn⟩ | ⟨lf, lb, hf, hb, h1, h2, h0⟩
    · rw [h0] at h
      simp only [nodes, List.mem_cons, List.mem_append, Prod.mk.injEq] at h
      rcases h with ⟨rfl, rfl, rfl⟩ | h | h
      · exact hn
      · exact ihf _ _ _ h
      · exact ihb _ _ _ h
    · rw [h0] at h
      simp [nodes] at h

/-- **C55.** The number of nodes pruned is the number of nodes that the tree has lost. -/
theorem prune_count (q2 : Bool) (sort : List Brush → List Brush) (t : Bsp) :
    (nodes (prune q2 sort t).1).length + (prune q2 sort t).2 = (nodes t).length := by
  induction t with
  | leaf l => rfl
  | node d f b ihf ihb =>
    simp only [prune, nodes, List.length_cons, List.length_append]
    rcases pruneNode_cases sort d (prune q2 sort f).1 (prune q2 sort b).1 with ⟨h0, hn⟩ | ⟨lf, lb, hf, hb, h1, h2, h0⟩
    · rw [h0]
      simp only [nodes, List.length_cons, List.length_append]
      omega
    · rw [h0]
      rw [hf] at ihf
      rw [hb] at ihb
      simp only [nodes, List.length_nil] at ihf ihb ⊢
      omega

theorem exported_of_solid (q2 : Bool) (c : Contents) (h : c.getLsbD 0 = true) :
    toNative q2 (remap q2 c) = toNative q2 (remap q2 SOLID) := by
  have ht : tst c SOLID = true := by rw [tst_bit c 0 (by omega)]; exact h
  cases q2
  · have h1 : ∀ c : Contents, tst c SOLID = true → Q1.toNative (Q1.remapForExport c) = .ok (-2) := by
      intro c hc
      unfold Q1.remapForExport
      split
      · rfl
      · split
        · unfold Q1.toNative
          rw [if_pos]
          rw [tst_bit _ 0 (by omega)] at hc ⊢
          rw [BitVec.getLsbD_and, hc]
          decide
        · unfold Q1.toNative
          rw [if_pos hc]
    simp only [toNative, remap, Bool.false_eq_true, if_false]
    rw [h1 c ht, h1 SOLID (by decide)]
  · have h1 : ∀ c : Contents, tst c SOLID = true → Q2.remapForExport c true = SOLID := by
      intro c hc
      unfold Q2.remapForExport
      split
      · rfl
      · simp
    simp only [remap, if_true]
    rw [h1 c ht, h1 SOLID (by decide)]

/-- **C55.** Pruning does not change the contents that the file gives to any point. -/
theorem prune_exported_contents (q2 : Bool) (sort : List Brush → List Brush) (t : Bsp) (front : Nat → Bool) :
    toNative q2 (remap q2 (leafAt front (prune q2 sort t).1).contents) =
      toNative q2 (remap q2 (leafAt front t).contents) := by
  by_cases hs : SolidVolume q2 (leafAt front t).contents
  · rw [exported_of_solid q2 _ ((prune_solid q2 sort t front).2 hs)]
    rcases hs with h | ⟨rfl, h2, h14⟩
    · rw [exported_of_solid q2 _ h]
    · have hw := (isDetailWall_iff _).2 ⟨h2, h14⟩
      simp only [toNative, remap, Bool.false_eq_true, if_false]
      unfold Q1.remapForExport
      rw [hw]
      simp only [Bool.or_true, if_true]
      rfl
  · rw [prune_keeps_leafs q2 sort t front hs]

/-- What `std::sort` guarantees, as far as it matters here: the elements stay the same. -/
def Spec.SortOk (sort : List Brush → List Brush) : Prop := ∀ l, (sort l).Perm l

theorem mem_unique (l : List Brush) (x : Brush) : x ∈ unique l ↔ x ∈ l := by
  fun_induction unique l with
  | case1 a l ih => rw [ih]; simp
  | case2 a b l h ih => simp only [List.mem_cons] at ih ⊢; rw [ih]
  | case3 l h => rfl

theorem mem_mergeBrushes {sort : List Brush → List Brush} (hs : SortOk sort) (a b : List Brush) (x : Brush) :
    x ∈ mergeBrushes sort a b ↔ x ∈ a ∨ x ∈ b := by
  unfold mergeBrushes
  rw [mem_unique, (hs _).mem_iff]
  split <;> simp [or_comm]

/-- **C55.** No brush is lost: the leaf in which a point lies after pruning lists all the brushes listed by the leaf it
lay in before. -/
theorem prune_brushes_kept (q2 : Bool) {sort : List Brush → List Brush} (hs : SortOk sort) (t : Bsp)
    (front : Nat → Bool) (x : Brush) (hx : x ∈ (leafAt front t).brushes) :
    x ∈ (leafAt front (prune q2 sort t).1).brushes := by
  induction t with
  | leaf l =>
    simp only [prune, leafAt, pruneLeaf] at hx ⊢
    split <;> exact hx
  | node d f b ihf ihb =>
    simp only [prune, leafAt] at hx ⊢
    rcases pruneNode_cases sort d (prune q2 sort f).1 (prune q2 sort b).1 with ⟨h0, -⟩ | ⟨lf, lb, hf, hb, h1, h2, h0⟩
    · rw [h0]
      simp only [leafAt]
      by_cases hc : front d.planenum = true
      · rw [if_pos hc] at hx ⊢; exact ihf hx
      · rw [if_neg hc] at hx ⊢; exact ihb hx
    · rw [h0]
      simp only [leafAt, toLeaf]
      rw [mem_mergeBrushes hs]
      rw [hf] at ihf
      rw [hb] at ihb
      by_cases hc : front d.planenum = true
      · rw [if_pos hc] at hx; exact Or.inl (ihf hx)
      · rw [if_neg hc] at hx; exact Or.inr (ihb hx)

/-- **C55.** No brush is invented: the brushes listed by the leafs after pruning were listed by leafs before. -/
theorem prune_brushes_only (q2 : Bool) {sort : List Brush → List Brush} (hs : SortOk sort) (t : Bsp) (x : Brush) :
    (∃ l ∈ leafs (prune q2 sort t).1, x ∈ l.brushes) → ∃ l ∈ leafs t, x ∈ l.brushes := by
  induction t with
  | leaf l =>
    simp only [prune, leafs, List.mem_singleton, exists_eq_left, pruneLeaf]
    split <;> exact id
  | node d f b ihf ihb =>
    rintro ⟨l, hl, hx⟩
    simp only [prune] at hl
    simp only [leafs, List.mem_append]
    have hboth : ((∃ l ∈ leafs (prune q2 sort f).1, x ∈ l.brushes) ∨ ∃ l ∈ leafs (prune q2 sort b).1, x ∈ l.brushes) := by
      rcases pruneNode_cases sort d (prune q2 sort f).1 (prune q2 sort b).1 with
        ⟨h0, -⟩ | ⟨lf, lb, hf, hb, h1, h2, h0⟩
      · rw [h0] at hl
        simp only [leafs, List.mem_append] at hl
        rcases hl with hl | hl
        · exact Or.inl ⟨l, hl, hx⟩
        · exact Or.inr ⟨l, hl, hx⟩
      · rw [h0] at hl
        simp only [leafs, List.mem_singleton] at hl
        subst hl
        simp only [toLeaf, mem_mergeBrushes hs] at hx
        rcases hx with hx | hx
        · exact Or.inl ⟨lf, by rw [hf]; simp [leafs], hx⟩
        · exact Or.inr ⟨lb, by rw [hb]; simp [leafs], hx⟩
    rcases hboth with h | h
    · obtain ⟨l, hl, hx⟩ := ihf h; exact ⟨l, Or.inl hl, hx⟩
    · obtain ⟨l, hl, hx⟩ := ihb h; exact ⟨l, Or.inr hl, hx⟩

/-- A leaf for examples. -/
def exampleLeaf (c : Contents) (b : List Brush) : Leaf := ⟨c, [], b, 0, 0, 0, 0, true⟩

/-- Non-vacuity: a tree with a solid leaf, a detail wall and an empty leaf; one node is pruned. -/
example :
    prune false id (.node ⟨0, 0, 0, 0, true⟩
        (.node ⟨2, 0, 0, 0, true⟩ (.leaf (exampleLeaf SOLID [⟨1, 1⟩, ⟨2, 2⟩]))
          (.leaf (exampleLeaf Q1.detailWall [⟨2, 2⟩])))
        (.leaf (exampleLeaf EMPTY []))) =
      (.node ⟨0, 0, 0, 0, true⟩ (.leaf (exampleLeaf SOLID [⟨1, 1⟩, ⟨2, 2⟩])) (.leaf (exampleLeaf EMPTY [])), 1) ∧
      SortOk id := by
  refine ⟨by decide +kernel, fun l => List.Perm.refl l⟩

end Verif.Tree
