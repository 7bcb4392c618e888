import Verif.Decompile.Spec
import Verif.Tree.WalkProps
import Mathlib.Algebra.Order.Ring.Rat
import Mathlib.Algebra.Field.Rat
import Mathlib.Tactic.NormNum

/-! C165: the brushes of the leafs. -/

namespace Verif.Decompile

open Verif.Geom Verif.Tree Verif.Tree.Spec

set_option linter.unusedSectionVars false

variable {K : Type} [Field K] [LinearOrder K] [IsStrictOrderedRing K]

theorem negPlane_dist (p : Plane K) (x : Vec K) : (negPlane p).distTo x = -p.distTo x := by
  simp only [negPlane, negVec, Plane.distTo, dot]; ring

theorem region_append {a b : List (DecPlane K)} {x : Vec K} : Region (a ++ b) x ↔ Region a x ∧ Region b x := by
  simp only [Region, List.mem_append, or_imp, forall_and]

theorem inner_append {a b : List (DecPlane K)} {x : Vec K} : Inner (a ++ b) x ↔ Inner a x ∧ Inner b x := by
  simp only [Inner, List.mem_append, or_imp, forall_and]

theorem region_single {q : DecPlane K} {x : Vec K} : Region [q] x ↔ q.plane.distTo x ≤ 0 := by simp [Region]

theorem inner_single {q : DecPlane K} {x : Vec K} : Inner [q] x ↔ q.plane.distTo x < 0 := by simp [Inner]

theorem bounds_region {mins maxs x : Vec K} : Region (boundsPlanes mins maxs) x ↔ InBox mins maxs x := by
  simp only [Region, boundsPlanes, List.mem_cons, List.not_mem_nil, or_false, forall_eq_or_imp, forall_eq, Plane.distTo,
    dot, InBox]
  constructor
  · rintro ⟨h1, h2, h3, h4, h5, h6⟩
    refine ⟨⟨?_, ?_⟩, ⟨?_, ?_⟩, ?_, ?_⟩ <;> linarith
  · rintro ⟨⟨h1, h2⟩, ⟨h3, h4⟩, h5, h6⟩
    refine ⟨?_, ?_, ?_, ?_, ?_, ?_⟩ <;> linarith

theorem bounds_inner {mins maxs x : Vec K} : Inner (boundsPlanes mins maxs) x ↔ InnerBox mins maxs x := by
  simp only [Inner, boundsPlanes, List.mem_cons, List.not_mem_nil, or_false, forall_eq_or_imp, forall_eq, Plane.distTo,
    dot, InnerBox]
  constructor
  · rintro ⟨h1, h2, h3, h4, h5, h6⟩
    refine ⟨⟨?_, ?_⟩, ⟨?_, ?_⟩, ?_, ?_⟩ <;> linarith
  · rintro ⟨⟨h1, h2⟩, ⟨h3, h4⟩, h5, h6⟩
    refine ⟨?_, ?_, ?_, ?_, ?_, ?_⟩ <;> linarith

/-- The node of a successful call. -/
theorem gather_node {dplanes : List (DPlane K)} {dnodes : List DNode} {dleafs : List DLeaf} {fuel : Nat}
    {stack : List (DecPlane K)} {n : Int} {ts : List (Task K)} (hn : ¬ n < 0)
    (h : gather dplanes dnodes dleafs (fuel + 1) stack n = some (.ok ts)) :
    ∃ node pl a b, dnodes[n.toNat]? = some node ∧ dplanes[node.planenum]? = some pl ∧
      gather dplanes dnodes dleafs fuel (stack ++ [⟨negPlane pl.plane, some n.toNat, none⟩]) node.c0 = some (.ok a) ∧
      gather dplanes dnodes dleafs fuel (stack ++ [⟨pl.plane, some n.toNat, none⟩]) node.c1 = some (.ok b) ∧
      ts = a ++ b := by
  simp only [gather] at h
  rw [if_neg hn] at h
  cases hnode : dnodes[n.toNat]? with
  | none => rw [hnode] at h; simp at h
  | some node =>
    rw [hnode] at h
    simp only at h
    cases hpl : dplanes[node.planenum]? with
    | none => rw [hpl] at h; simp at h
    | some pl =>
      rw [hpl] at h
      simp only at h
      cases ha : gather dplanes dnodes dleafs fuel (stack ++ [⟨negPlane pl.plane, some n.toNat, none⟩]) node.c0 with
      | none => rw [ha] at h; simp at h
      | some oa =>
        cases oa with
        | ub => rw [ha] at h; simp at h
        | error => rw [ha] at h; simp at h
        | ok a =>
          rw [ha] at h
          simp only at h
          cases hb : gather dplanes dnodes dleafs fuel (stack ++ [⟨pl.plane, some n.toNat, none⟩]) node.c1 with
          | none => rw [hb] at h; simp at h
          | some ob =>
            cases ob with
            | ub => rw [hb] at h; simp at h
            | error => rw [hb] at h; simp at h
            | ok b =>
              rw [hb] at h
              simp only [Option.some.injEq, Outcome.ok.injEq] at h
              exact ⟨node, pl, a, b, rfl, hpl, ha, hb, h.symm⟩

theorem gather_leaf {dplanes : List (DPlane K)} {dnodes : List DNode} {dleafs : List DLeaf} {fuel : Nat}
    {stack : List (DecPlane K)} {n : Int} {ts : List (Task K)} (hn : n < 0)
    (h : gather dplanes dnodes dleafs (fuel + 1) stack n = some (.ok ts)) :
    ∃ k l, leafFromNode dleafs n = .ok (k, l) ∧ ts = if l.contents = -1 then [] else [⟨stack, l.contents, some k⟩] := by
  simp only [gather] at h
  rw [if_pos hn] at h
  simp only [Option.some.injEq, leafTask] at h
  obtain ⟨r, hr, h⟩ := Outcome.bind_eq_ok.1 h
  injection h with h
  exact ⟨r.1, r.2, hr, h.symm⟩

/-- What the recursion does with the planes gathered so far. -/
theorem gather_spec {dplanes : List (DPlane K)} {dnodes : List DNode} {dleafs : List DLeaf}
    (ht : ∀ d ∈ dplanes, TypeOk d) : ∀ (fuel : Nat) (stack : List (DecPlane K)) (n : Int) (ts : List (Task K)),
    gather dplanes dnodes dleafs fuel stack n = some (.ok ts) →
    (∀ t ∈ ts, ∀ x, Inner t.planes x → Inner stack x) ∧
    (∀ t ∈ ts, ∀ x, Region t.planes x → Region stack x) ∧
    (∀ x, Region stack x → ∃ k l, findLeaf dplanes dnodes dleafs x fuel n = some (.ok (k, l)) ∧
      (l.contents ≠ -1 → ∃ t ∈ ts, t.leaf = some k ∧ t.contents = l.contents ∧ Region t.planes x)) ∧
    (∀ t ∈ ts, ∀ x, Inner t.planes x → ∃ k l, findLeaf dplanes dnodes dleafs x fuel n = some (.ok (k, l)) ∧
      t.leaf = some k ∧ t.contents = l.contents ∧ l.contents ≠ -1) ∧
    ts.Pairwise (fun s t => ∀ x, ¬ (Inner s.planes x ∧ Inner t.planes x)) := by
  intro fuel
  induction fuel with
  | zero => intro stack n ts h; simp [gather] at h
  | succ fuel ih =>
    intro stack n ts h
    by_cases hn : n < 0
    · obtain ⟨k, l, hl, rfl⟩ := gather_leaf hn h
      have hf : ∀ x, findLeaf dplanes dnodes dleafs x (fuel + 1) n = some (.ok (k, l)) := by
        intro x
        simp only [findLeaf]
        rw [if_pos hn, hl]
      by_cases hc : l.contents = -1
      · rw [if_pos hc]
        refine ⟨by simp, by simp, fun x _ => ⟨k, l, hf x, fun h' => absurd hc h'⟩, by simp, List.Pairwise.nil⟩
      · rw [if_neg hc]
        refine ⟨by simp, by simp, fun x hx => ⟨k, l, hf x, fun _ => ⟨_, List.mem_singleton.2 rfl, rfl, rfl, hx⟩⟩, ?_,
          List.pairwise_singleton _ _⟩
        intro t htt x hx
        rw [List.mem_singleton] at htt
        subst htt
        exact ⟨k, l, hf x, rfl, rfl, hc⟩
    · obtain ⟨node, pl, a, b, hnode, hpl, ha, hb, rfl⟩ := gather_node hn h
      obtain ⟨a1, a2, a3, a4, a5⟩ := ih _ _ _ ha
      obtain ⟨b1, b2, b3, b4, b5⟩ := ih _ _ _ hb
      have hfast : ∀ x, pl.distFast x = pl.plane.distTo x := distFast_of_typeOk (ht pl (List.mem_of_getElem? hpl))
      have hf : ∀ x, findLeaf dplanes dnodes dleafs x (fuel + 1) n =
          if pl.plane.distTo x ≥ 0 then findLeaf dplanes dnodes dleafs x fuel node.c0
          else findLeaf dplanes dnodes dleafs x fuel node.c1 := by
        intro x
        rw [findLeaf, if_neg hn, hnode]
        simp only
        rw [hpl]
        simp only
        rw [hfast]
      refine ⟨?_, ?_, ?_, ?_, ?_⟩
      · intro t htt x hx
        rcases List.mem_append.1 htt with h' | h'
        · exact (inner_append.1 (a1 t h' x hx)).1
        · exact (inner_append.1 (b1 t h' x hx)).1
      · intro t htt x hx
        rcases List.mem_append.1 htt with h' | h'
        · exact (region_append.1 (a2 t h' x hx)).1
        · exact (region_append.1 (b2 t h' x hx)).1
      · intro x hx
        rw [hf x]
        by_cases hd : pl.plane.distTo x ≥ 0
        · rw [if_pos hd]
          obtain ⟨k, l, h1, h2⟩ := a3 x (region_append.2 ⟨hx, region_single.2 (by rw [negPlane_dist]; linarith)⟩)
          refine ⟨k, l, h1, fun hc => ?_⟩
          obtain ⟨t, h3, h4⟩ := h2 hc
          exact ⟨t, List.mem_append_left _ h3, h4⟩
        · rw [if_neg hd]
          obtain ⟨k, l, h1, h2⟩ := b3 x (region_append.2 ⟨hx, region_single.2 (le_of_lt (not_le.1 hd))⟩)
          refine ⟨k, l, h1, fun hc => ?_⟩
          obtain ⟨t, h3, h4⟩ := h2 hc
          exact ⟨t, List.mem_append_right _ h3, h4⟩
      · intro t htt x hx
        rw [hf x]
        rcases List.mem_append.1 htt with h' | h'
        · have := inner_single.1 (inner_append.1 (a1 t h' x hx)).2
          rw [negPlane_dist] at this
          rw [if_pos (by linarith)]
          exact a4 t h' x hx
        · have := inner_single.1 (inner_append.1 (b1 t h' x hx)).2
          rw [if_neg (not_le.2 this)]
          exact b4 t h' x hx
      · rw [List.pairwise_append]
        refine ⟨a5, b5, ?_⟩
        intro s hs t htt x hx
        have h1 := inner_single.1 (inner_append.1 (a1 s hs x hx.1)).2
        have h2 := inner_single.1 (inner_append.1 (b1 t htt x hx.2)).2
        rw [negPlane_dist] at h1
        simp only at h2
        linarith

/-- **C165.** Every point in the bounds of a model whose leaf is not empty is in a brush of the leaf, with the contents of
the leaf. -/
theorem leafs_covered {dplanes : List (DPlane K)} {dnodes : List DNode} {dleafs : List DLeaf} {mins maxs : Vec K}
    {fuel : Nat} {head : Int} {ts : List (Task K)} (ht : ∀ d ∈ dplanes, TypeOk d)
    (h : modelTasks dplanes dnodes dleafs mins maxs fuel head = some (.ok ts)) (x : Vec K) (hx : InBox mins maxs x) :
    ∃ k l, findLeaf dplanes dnodes dleafs x fuel head = some (.ok (k, l)) ∧
      (l.contents ≠ -1 → ∃ t ∈ ts, t.leaf = some k ∧ t.contents = l.contents ∧ Region t.planes x) := by
  unfold modelTasks at h
  split_ifs at h with hh
  · simp at h
  · exact (gather_spec ht _ _ _ _ h).2.2.1 x (bounds_region.2 hx)

/-- **C165.** A point inside a brush is in the bounds of the model, and its leaf is the one the brush stands for, which is
not empty. -/
theorem brushes_true {dplanes : List (DPlane K)} {dnodes : List DNode} {dleafs : List DLeaf} {mins maxs : Vec K}
    {fuel : Nat} {head : Int} {ts : List (Task K)} (ht : ∀ d ∈ dplanes, TypeOk d)
    (h : modelTasks dplanes dnodes dleafs mins maxs fuel head = some (.ok ts)) (t : Task K) (htt : t ∈ ts) (x : Vec K)
    (hx : Inner t.planes x) : InnerBox mins maxs x ∧
      ∃ k l, findLeaf dplanes dnodes dleafs x fuel head = some (.ok (k, l)) ∧ t.leaf = some k ∧
        t.contents = l.contents ∧ l.contents ≠ -1 := by
  unfold modelTasks at h
  split_ifs at h with hh
  · simp at h
  · exact ⟨bounds_inner.1 ((gather_spec ht _ _ _ _ h).1 t htt x hx), (gather_spec ht _ _ _ _ h).2.2.2.1 t htt x hx⟩

/-- **C165.** The brushes do not overlap. -/
theorem brushes_apart {dplanes : List (DPlane K)} {dnodes : List DNode} {dleafs : List DLeaf} {mins maxs : Vec K}
    {fuel : Nat} {head : Int} {ts : List (Task K)} (ht : ∀ d ∈ dplanes, TypeOk d)
    (h : modelTasks dplanes dnodes dleafs mins maxs fuel head = some (.ok ts)) :
    ts.Pairwise (fun s t => ∀ x, ¬ (Inner s.planes x ∧ Inner t.planes x)) := by
  unfold modelTasks at h
  split_ifs at h with hh
  · simp at h
  · exact (gather_spec ht _ _ _ _ h).2.2.2.2

theorem gather_sound {dplanes : List (DPlane K)} {dnodes : List DNode} {dleafs : List DLeaf} {n : Int}
    (h : Sound dplanes dnodes dleafs n) : ∃ N, ∀ fuel ≥ N, ∀ stack : List (DecPlane K),
      ∃ ts, gather dplanes dnodes dleafs fuel stack n = some (.ok ts) := by
  induction h with
  | leaf n hn hk =>
    refine ⟨1, fun fuel hf stack => ?_⟩
    obtain ⟨m, rfl⟩ : ∃ m, fuel = m + 1 := ⟨fuel - 1, by omega⟩
    refine ⟨if (dleafs[(-1 - n).toNat]).contents = -1 then [] else
      [⟨stack, (dleafs[(-1 - n).toNat]).contents, some (-1 - n).toNat⟩], ?_⟩
    simp only [gather]
    rw [if_pos hn]
    simp only [leafTask, leafFromNode, List.getElem?_eq_getElem hk]
    rfl
  | node n nd hn hnd hpl _ _ ih0 ih1 =>
    obtain ⟨N, hN⟩ := ih0
    obtain ⟨M, hM⟩ := ih1
    refine ⟨max N M + 1, fun fuel hf stack => ?_⟩
    obtain ⟨m, rfl⟩ : ∃ m, fuel = m + 1 := ⟨fuel - 1, by omega⟩
    obtain ⟨a, ha⟩ := hN m (by omega) (stack ++ [⟨negPlane (dplanes[nd.planenum]).plane, some n.toNat, none⟩])
    obtain ⟨b, hb⟩ := hM m (by omega) (stack ++ [⟨(dplanes[nd.planenum]).plane, some n.toNat, none⟩])
    refine ⟨a ++ b, ?_⟩
    simp only [gather]
    rw [if_neg (by omega), hnd]
    simp only [List.getElem?_eq_getElem hpl, ha, hb]

/-- **C165.** A model whose tree is sound and starts at a node is decompiled. -/
theorem leafs_defined {dplanes : List (DPlane K)} {dnodes : List DNode} {dleafs : List DLeaf} {mins maxs : Vec K}
    {head : Int} (h : Sound dplanes dnodes dleafs head) (h0 : 0 ≤ head) :
    ∃ N, ∀ fuel ≥ N, ∃ ts, modelTasks dplanes dnodes dleafs mins maxs fuel head = some (.ok ts) := by
  obtain ⟨N, hN⟩ := gather_sound h
  refine ⟨N, fun fuel hf => ?_⟩
  obtain ⟨ts, hts⟩ := hN fuel hf (boundsPlanes mins maxs)
  exact ⟨ts, by unfold modelTasks; rw [if_neg (by omega)]; exact hts⟩

/-- A floor: one node with the plane `z = 0`, an empty leaf above and a solid one below. The solid one is decompiled. -/
def floorPlanes : List (DPlane ℚ) := [⟨⟨⟨0, 0, 1⟩, 0⟩, .z⟩]
def floorNodes : List DNode := [⟨0, -2, -1, 0, 0⟩]
def floorLeafs : List DLeaf := [⟨-2, 0, 0, 0, -1, 0, 0⟩, ⟨-1, 0, 0, 0, 0, 0, 0⟩]

example : modelTasks floorPlanes floorNodes floorLeafs ⟨-8, -8, -8⟩ ⟨8, 8, 8⟩ 2 0 =
    some (.ok [⟨boundsPlanes ⟨-8, -8, -8⟩ ⟨8, 8, 8⟩ ++ [⟨⟨⟨0, 0, 1⟩, 0⟩, some 0, none⟩], -2, some 0⟩]) := by
  rfl

example : Region (boundsPlanes (K := ℚ) ⟨-8, -8, -8⟩ ⟨8, 8, 8⟩ ++ [⟨⟨⟨0, 0, 1⟩, 0⟩, some 0, none⟩]) ⟨1, 2, -3⟩ := by
  simp only [Region, boundsPlanes, Plane.distTo, dot, List.cons_append, List.nil_append, List.mem_cons,
    List.not_mem_nil, or_false, forall_eq_or_imp, forall_eq]
  norm_num

/-! ## Clip nodes -/

theorem gatherClip_node {dplanes : List (DPlane K)} {dclipnodes : List ClipNode} {fuel : Nat}
    {stack : List (DecPlane K)} {n : Int} {ts : List (Task K)} (hn : ¬ n < 0)
    (h : gatherClip dplanes dclipnodes (fuel + 1) stack n = some (.ok ts)) :
    ∃ node pl a b, dclipnodes[n.toNat]? = some node ∧ dplanes[node.planenum]? = some pl ∧
      gatherClip dplanes dclipnodes fuel (stack ++ [⟨negPlane pl.plane, none, none⟩]) node.c0 = some (.ok a) ∧
      gatherClip dplanes dclipnodes fuel (stack ++ [⟨pl.plane, none, none⟩]) node.c1 = some (.ok b) ∧ ts = a ++ b := by
  simp only [gatherClip] at h
  rw [if_neg hn] at h
  cases hnode : dclipnodes[n.toNat]? with
  | none => rw [hnode] at h; simp at h
  | some node =>
    rw [hnode] at h
    simp only at h
    cases hpl : dplanes[node.planenum]? with
    | none => rw [hpl] at h; simp at h
    | some pl =>
      rw [hpl] at h
      simp only at h
      cases ha : gatherClip dplanes dclipnodes fuel (stack ++ [⟨negPlane pl.plane, none, none⟩]) node.c0 with
      | none => rw [ha] at h; simp at h
      | some oa =>
        cases oa with
        | ub => rw [ha] at h; simp at h
        | error => rw [ha] at h; simp at h
        | ok a =>
          rw [ha] at h
          simp only at h
          cases hb : gatherClip dplanes dclipnodes fuel (stack ++ [⟨pl.plane, none, none⟩]) node.c1 with
          | none => rw [hb] at h; simp at h
          | some ob =>
            cases ob with
            | ub => rw [hb] at h; simp at h
            | error => rw [hb] at h; simp at h
            | ok b =>
              rw [hb] at h
              simp only [Option.some.injEq, Outcome.ok.injEq] at h
              exact ⟨node, pl, a, b, rfl, hpl, ha, hb, h.symm⟩

theorem gatherClip_spec {dplanes : List (DPlane K)} {dclipnodes : List ClipNode}
    (ht : ∀ d ∈ dplanes, TypeOk d) : ∀ (fuel : Nat) (stack : List (DecPlane K)) (n : Int) (ts : List (Task K)),
    gatherClip dplanes dclipnodes fuel stack n = some (.ok ts) →
    (∀ t ∈ ts, ∀ x, Inner t.planes x → Inner stack x) ∧
    (∀ x, Region stack x → ∀ p s, ∃ i, findClip dplanes dclipnodes x fuel p s n = some (.ok i) ∧
      (i.contents ≠ -1 → ∃ t ∈ ts, t.contents = i.contents ∧ Region t.planes x)) ∧
    (∀ t ∈ ts, ∀ x, Inner t.planes x → ∀ p s, ∃ i, findClip dplanes dclipnodes x fuel p s n = some (.ok i) ∧
      t.contents = i.contents ∧ i.contents ≠ -1) ∧
    ts.Pairwise (fun s t => ∀ x, ¬ (Inner s.planes x ∧ Inner t.planes x)) := by
  intro fuel
  induction fuel with
  | zero => intro stack n ts h; simp [gatherClip] at h
  | succ fuel ih =>
    intro stack n ts h
    by_cases hn : n < 0
    · simp only [gatherClip] at h
      rw [if_pos hn] at h
      simp only [Option.some.injEq, Outcome.ok.injEq] at h
      subst h
      have hf : ∀ x p s, findClip dplanes dclipnodes x (fuel + 1) p s n = some (.ok ⟨p, s, n⟩) := by
        intro x p s
        simp only [findClip]
        rw [if_pos hn]
      unfold clipLeafTask
      by_cases hc : n = -1
      · rw [if_pos hc]
        refine ⟨by simp, fun x _ p s => ⟨_, hf x p s, fun h' => absurd hc h'⟩, by simp, List.Pairwise.nil⟩
      · rw [if_neg hc]
        refine ⟨by simp, fun x hx p s => ⟨_, hf x p s, fun _ => ⟨_, List.mem_singleton.2 rfl, rfl, hx⟩⟩, ?_,
          List.pairwise_singleton _ _⟩
        intro t htt x hx p s
        rw [List.mem_singleton] at htt
        subst htt
        exact ⟨_, hf x p s, rfl, hc⟩
    · obtain ⟨node, pl, a, b, hnode, hpl, ha, hb, rfl⟩ := gatherClip_node hn h
      obtain ⟨a1, a3, a4, a5⟩ := ih _ _ _ ha
      obtain ⟨b1, b3, b4, b5⟩ := ih _ _ _ hb
      have hfast : ∀ x, pl.distFast x = pl.plane.distTo x := distFast_of_typeOk (ht pl (List.mem_of_getElem? hpl))
      have hf : ∀ x p s, findClip dplanes dclipnodes x (fuel + 1) p s n =
          if pl.plane.distTo x ≥ 0 then findClip dplanes dclipnodes x fuel n true node.c0
          else findClip dplanes dclipnodes x fuel n false node.c1 := by
        intro x p s
        rw [findClip, if_neg hn, hnode]
        simp only
        rw [hpl]
        simp only
        rw [hfast]
      refine ⟨?_, ?_, ?_, ?_⟩
      · intro t htt x hx
        rcases List.mem_append.1 htt with h' | h'
        · exact (inner_append.1 (a1 t h' x hx)).1
        · exact (inner_append.1 (b1 t h' x hx)).1
      · intro x hx p s
        rw [hf x]
        by_cases hd : pl.plane.distTo x ≥ 0
        · rw [if_pos hd]
          obtain ⟨i, h1, h2⟩ := a3 x (region_append.2 ⟨hx, region_single.2 (by rw [negPlane_dist]; linarith)⟩) n true
          refine ⟨i, h1, fun hc => ?_⟩
          obtain ⟨t, h3, h4⟩ := h2 hc
          exact ⟨t, List.mem_append_left _ h3, h4⟩
        · rw [if_neg hd]
          obtain ⟨i, h1, h2⟩ := b3 x (region_append.2 ⟨hx, region_single.2 (le_of_lt (not_le.1 hd))⟩) n false
          refine ⟨i, h1, fun hc => ?_⟩
          obtain ⟨t, h3, h4⟩ := h2 hc
          exact ⟨t, List.mem_append_right _ h3, h4⟩
      · intro t htt x hx p s
        rw [hf x]
        rcases List.mem_append.1 htt with h' | h'
        · have := inner_single.1 (inner_append.1 (a1 t h' x hx)).2
          rw [negPlane_dist] at this
          rw [if_pos (by linarith)]
          exact a4 t h' x hx _ _
        · have := inner_single.1 (inner_append.1 (b1 t h' x hx)).2
          rw [if_neg (not_le.2 this)]
          exact b4 t h' x hx _ _
      · rw [List.pairwise_append]
        refine ⟨a5, b5, ?_⟩
        intro s hs t htt x hx
        have h1 := inner_single.1 (inner_append.1 (a1 s hs x hx.1)).2
        have h2 := inner_single.1 (inner_append.1 (b1 t htt x hx.2)).2
        rw [negPlane_dist] at h1
        simp only at h2
        linarith

/-- **C165.** The same of a clip hull: its brushes fill what is not empty, in the bounds of the model, and nothing else,
with the contents of the hull, and do not overlap. -/
theorem hull_brushes {dplanes : List (DPlane K)} {dclipnodes : List ClipNode} {mins maxs : Vec K}
    {fuel : Nat} {head : Int} {ts : List (Task K)} (ht : ∀ d ∈ dplanes, TypeOk d)
    (h : hullTasks dplanes dclipnodes mins maxs fuel head = some (.ok ts)) :
    (∀ x, InBox mins maxs x → ∃ i, findClip dplanes dclipnodes x fuel (-1) true head = some (.ok i) ∧
      (i.contents ≠ -1 → ∃ t ∈ ts, t.contents = i.contents ∧ Region t.planes x)) ∧
    (∀ t ∈ ts, ∀ x, Inner t.planes x → InnerBox mins maxs x ∧
      ∃ i, findClip dplanes dclipnodes x fuel (-1) true head = some (.ok i) ∧ t.contents = i.contents ∧
        i.contents ≠ -1) ∧
    ts.Pairwise (fun s t => ∀ x, ¬ (Inner s.planes x ∧ Inner t.planes x)) := by
  unfold hullTasks at h
  split_ifs at h with hh
  · simp at h
  · obtain ⟨h1, h2, h3, h4⟩ := gatherClip_spec ht _ _ _ _ h
    exact ⟨fun x hx => h2 x (bounds_region.2 hx) _ _, fun t htt x hx => ⟨bounds_inner.1 (h1 t htt x hx), h3 t htt x hx _ _⟩,
      h4⟩

/-- **C165.** A model without clip nodes of its own, whose hull is a single leaf, leads to undefined behaviour. -/
theorem leaf_hull_undefined (dplanes : List (DPlane K)) (dclipnodes : List ClipNode) (mins maxs : Vec K) (fuel : Nat)
    (head : Int) (h : head < 0) : hullTasks dplanes dclipnodes mins maxs fuel head = some .ub := by
  unfold hullTasks; rw [if_pos h]

end Verif.Decompile
