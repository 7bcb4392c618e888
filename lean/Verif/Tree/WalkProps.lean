import Verif.Tree.Spec
import Verif.Tree.PlaneProps

/-! C49: walking down a tree. -/

namespace Verif.Tree

open Geom Contents Spec

set_option linter.unusedSectionVars false

variable {K : Type} [Field K] [LinearOrder K] [IsStrictOrderedRing K]

theorem way_leaf_iff {dplanes : List (DPlane K)} {dnodes : List DNode} {p : Vec K} {fr bk : K → Prop} {n : Int}
    (hn : n < 0) {s : List Bool} {k : Nat} :
    Way dplanes dnodes p fr bk n s k ↔ s = [] ∧ k = (-1 - n).toNat := by
  constructor
  · intro h
    cases h with
    | leaf => exact ⟨rfl, rfl⟩
    | front _ _ _ _ h0 => omega
    | back _ _ _ _ h0 => omega
  · rintro ⟨rfl, rfl⟩; exact .leaf n hn

theorem way_node_iff {dplanes : List (DPlane K)} {dnodes : List DNode} {p : Vec K} {fr bk : K → Prop} {n : Int}
    (hn : 0 ≤ n) {nd : DNode} {pl : DPlane K} (hnd : dnodes[n.toNat]? = some nd)
    (hpl : dplanes[nd.planenum]? = some pl) {s : List Bool} {k : Nat} :
    Way dplanes dnodes p fr bk n s k ↔
      (∃ s', s = true :: s' ∧ fr (pl.plane.distTo p) ∧ Way dplanes dnodes p fr bk nd.c0 s' k) ∨
        ∃ s', s = false :: s' ∧ bk (pl.plane.distTo p) ∧ Way dplanes dnodes p fr bk nd.c1 s' k := by
  constructor
  · intro h
    cases h with
    | leaf h0 => omega
    | front _ nd' pl' s' k' h0 h1 h2 h3 h4 =>
      rw [hnd] at h1; cases h1
      rw [hpl] at h2; cases h2
      exact Or.inl ⟨_, rfl, h3, h4⟩
    | back _ nd' pl' s' k' h0 h1 h2 h3 h4 =>
      rw [hnd] at h1; cases h1
      rw [hpl] at h2; cases h2
      exact Or.inr ⟨_, rfl, h3, h4⟩
  · rintro (⟨s', rfl, h3, h4⟩ | ⟨s', rfl, h3, h4⟩)
    · exact .front n nd pl s' k hn hnd hpl h3 h4
    · exact .back n nd pl s' k hn hnd hpl h3 h4

/-- **C49.** From every node number of a file from which the tree is sound, exactly one way leads down to a leaf such
that the point is on the side taken at each node (in front or on the plane, or behind it), and looking up the point ends
at that leaf. -/
theorem point_lookup {dplanes : List (DPlane K)} {dnodes : List DNode} {dleafs : List DLeaf} {n : Int}
    (ht : ∀ nd ∈ dnodes, ∀ d, dplanes[nd.planenum]? = some d → TypeOk d) (h : Sound dplanes dnodes dleafs n) (p : Vec K) :
    ∃ s k l, Way dplanes dnodes p (0 ≤ ·) (· < 0) n s k ∧
      (∀ s' k', Way dplanes dnodes p (0 ≤ ·) (· < 0) n s' k' → s' = s ∧ k' = k) ∧
      dleafs[k]? = some l ∧ ∃ N, ∀ fuel ≥ N, findLeaf dplanes dnodes dleafs p fuel n = some (.ok (k, l)) := by
  induction h with
  | leaf n hn hk =>
    refine ⟨[], (-1 - n).toNat, dleafs[(-1 - n).toNat], .leaf n hn, ?_, List.getElem?_eq_getElem hk, 1, ?_⟩
    · intro s' k' h
      exact (way_leaf_iff hn).1 h
    · intro fuel hf
      obtain ⟨m, rfl⟩ : ∃ m, fuel = m + 1 := ⟨fuel - 1, by omega⟩
      simp only [findLeaf]
      rw [if_pos hn]
      simp [leafFromNode, List.getElem?_eq_getElem hk]
  | node n nd hn hnd hpl _ _ ih0 ih1 =>
    have hpl' := List.getElem?_eq_getElem hpl
    have hfast := distFast_of_typeOk (ht nd (List.mem_of_getElem? hnd) _ hpl') p
    by_cases hd : 0 ≤ (dplanes[nd.planenum]).plane.distTo p
    · obtain ⟨s, k, l, hw, hu, hl, N, hN⟩ := ih0
      refine ⟨true :: s, k, l, .front n nd _ s k hn hnd hpl' hd hw, ?_, hl, N + 1, ?_⟩
      · intro s' k' h
        rcases (way_node_iff hn hnd hpl').1 h with ⟨s'', rfl, -, h4⟩ | ⟨s'', rfl, h3, -⟩
        · obtain ⟨rfl, rfl⟩ := hu _ _ h4; exact ⟨rfl, rfl⟩
        · exact absurd hd (not_le.2 h3)
      · intro fuel hf
        obtain ⟨m, rfl⟩ : ∃ m, fuel = m + 1 := ⟨fuel - 1, by omega⟩
        simp only [findLeaf]
        rw [if_neg (by omega), hnd]
        simp only [hpl']
        rw [if_pos (by rw [hfast]; exact hd)]
        exact hN m (by omega)
    · obtain ⟨s, k, l, hw, hu, hl, N, hN⟩ := ih1
      refine ⟨false :: s, k, l, .back n nd _ s k hn hnd hpl' (not_le.1 hd) hw, ?_, hl, N + 1, ?_⟩
      · intro s' k' h
        rcases (way_node_iff hn hnd hpl').1 h with ⟨s'', rfl, h3, -⟩ | ⟨s'', rfl, -, h4⟩
        · exact absurd h3 hd
        · obtain ⟨rfl, rfl⟩ := hu _ _ h4; exact ⟨rfl, rfl⟩
      · intro fuel hf
        obtain ⟨m, rfl⟩ : ∃ m, fuel = m + 1 := ⟨fuel - 1, by omega⟩
        simp only [findLeaf]
        rw [if_neg (by omega), hnd]
        simp only [hpl']
        rw [if_neg (by rw [hfast]; exact hd)]
        exact hN m (by omega)

theorem leafSolid_iff (q2 : Bool) (l : DLeaf) : leafSolid q2 l = true ↔ FileSolid q2 l.contents := by
  unfold leafSolid FileSolid
  cases q2
  · simp
  · have : l.contents % 2 = 0 ∨ l.contents % 2 = 1 := by omega
    rcases this with h | h <;> simp [h]

/-- **C49.** The test whether a point is in solid answers yes if and only if some leaf that counts as solid can be
reached by taking, at each node, a side from which the point is at most the tolerance away. -/
theorem point_in_solid {dplanes : List (DPlane K)} {dnodes : List DNode} {dleafs : List DLeaf} {n : Int}
    (ht : ∀ nd ∈ dnodes, ∀ d, dplanes[nd.planenum]? = some d → TypeOk d) (h : Sound dplanes dnodes dleafs n) (q2 : Bool) {tol : K} (htol : 0 ≤ tol)
    (p : Vec K) :
    ∃ r, (∃ N, ∀ fuel ≥ N, pointInSolid q2 tol dplanes dnodes dleafs p fuel n = some (.ok r)) ∧
      (r = true ↔ ∃ s k l, Way dplanes dnodes p (-tol ≤ ·) (· ≤ tol) n s k ∧ dleafs[k]? = some l ∧
        FileSolid q2 l.contents) := by
  simp only [← leafSolid_iff]
  induction h with
  | leaf n hn hk =>
    have hk' := List.getElem?_eq_getElem hk
    refine ⟨leafSolid q2 dleafs[(-1 - n).toNat], ⟨1, ?_⟩, ?_⟩
    · intro fuel hf
      obtain ⟨m, rfl⟩ : ∃ m, fuel = m + 1 := ⟨fuel - 1, by omega⟩
      simp only [pointInSolid]
      rw [if_pos hn]
      simp [leafFromNode, hk']
    · constructor
      · intro h; exact ⟨[], _, _, .leaf n hn, hk', h⟩
      · rintro ⟨s, k, l, hw, hl, h⟩
        obtain ⟨rfl, rfl⟩ := (way_leaf_iff hn).1 hw
        rw [hk'] at hl; cases hl; exact h
  | node n nd hn hnd hpl _ _ ih0 ih1 =>
    have hpl' := List.getElem?_eq_getElem hpl
    have hfast := distFast_of_typeOk (ht nd (List.mem_of_getElem? hnd) _ hpl') p
    obtain ⟨r0, ⟨N0, hN0⟩, hr0⟩ := ih0
    obtain ⟨r1, ⟨N1, hN1⟩, hr1⟩ := ih1
    by_cases hd : (dplanes[nd.planenum]).plane.distTo p > tol
    · refine ⟨r0, ⟨N0 + 1, ?_⟩, ?_⟩
      · intro fuel hf
        obtain ⟨m, rfl⟩ : ∃ m, fuel = m + 1 := ⟨fuel - 1, by omega⟩
        simp only [pointInSolid]
        rw [if_neg (by omega), hnd]
        simp only [hpl']
        rw [if_pos (by rw [hfast]; exact hd)]
        exact hN0 m (by omega)
      · rw [hr0]
        constructor
        · rintro ⟨s, k, l, hw, h⟩
          exact ⟨_, k, l, .front n nd _ s k hn hnd hpl' (by linarith) hw, h⟩
        · rintro ⟨s, k, l, hw, h⟩
          rcases (way_node_iff hn hnd hpl').1 hw with ⟨s', rfl, -, h4⟩ | ⟨s', rfl, h3, -⟩
          · exact ⟨s', k, l, h4, h⟩
          · exact absurd h3 (not_le.2 hd)
    · by_cases hd2 : (dplanes[nd.planenum]).plane.distTo p < -tol
      · refine ⟨r1, ⟨N1 + 1, ?_⟩, ?_⟩
        · intro fuel hf
          obtain ⟨m, rfl⟩ : ∃ m, fuel = m + 1 := ⟨fuel - 1, by omega⟩
          simp only [pointInSolid]
          rw [if_neg (by omega), hnd]
          simp only [hpl']
          rw [if_neg (by rw [hfast]; exact hd), if_pos (by rw [hfast]; exact hd2)]
          exact hN1 m (by omega)
        · rw [hr1]
          constructor
          · rintro ⟨s, k, l, hw, h⟩
            exact ⟨_, k, l, .back n nd _ s k hn hnd hpl' (by linarith) hw, h⟩
          · rintro ⟨s, k, l, hw, h⟩
            rcases (way_node_iff hn hnd hpl').1 hw with ⟨s', rfl, h3, -⟩ | ⟨s', rfl, -, h4⟩
            · exact absurd h3 (not_le.2 hd2)
            · exact ⟨s', k, l, h4, h⟩
      · refine ⟨r0 || r1, ⟨N0 + N1 + 1, ?_⟩, ?_⟩
        · intro fuel hf
          obtain ⟨m, rfl⟩ : ∃ m, fuel = m + 1 := ⟨fuel - 1, by omega⟩
          simp only [pointInSolid]
          rw [if_neg (by omega), hnd]
          simp only [hpl']
          rw [if_neg (by rw [hfast]; exact hd), if_neg (by rw [hfast]; exact hd2), hN0 m (by omega)]
          cases r0
          · simp only [Bool.false_or]
            exact hN1 m (by omega)
          · simp
        · rw [Bool.or_eq_true, hr0, hr1]
          constructor
          · rintro (⟨s, k, l, hw, h⟩ | ⟨s, k, l, hw, h⟩)
            · exact ⟨_, k, l, .front n nd _ s k hn hnd hpl' (not_lt.1 hd2) hw, h⟩
            · exact ⟨_, k, l, .back n nd _ s k hn hnd hpl' (not_lt.1 hd) hw, h⟩
          · rintro ⟨s, k, l, hw, h⟩
            rcases (way_node_iff hn hnd hpl').1 hw with ⟨s', rfl, -, h4⟩ | ⟨s', rfl, -, h4⟩
            · exact Or.inl ⟨s', k, l, h4, h⟩
            · exact Or.inr ⟨s', k, l, h4, h⟩

/-- A point in the exact leaf of which the contents count as solid is found to be in solid. -/
theorem point_in_solid_of_leaf {dplanes : List (DPlane K)} {dnodes : List DNode} {p : Vec K} {tol : K} (htol : 0 ≤ tol)
    {n : Int} {s : List Bool} {k : Nat} (h : Way dplanes dnodes p (0 ≤ ·) (· < 0) n s k) :
    Way dplanes dnodes p (-tol ≤ ·) (· ≤ tol) n s k := by
  induction h with
  | leaf n hn => exact .leaf n hn
  | front n nd pl s k h0 h1 h2 h3 _ ih => exact .front n nd pl s k h0 h1 h2 (by linarith) ih
  | back n nd pl s k h0 h1 h2 h3 _ ih => exact .back n nd pl s k h0 h1 h2 (by linarith) ih

/-- **C49.** Visiting all leafs visits exactly the leafs to which some way leads. -/
theorem visit_leafs {dplanes : List (DPlane K)} {dnodes : List DNode} {dleafs : List DLeaf} {n : Int}
    (h : Sound dplanes dnodes dleafs n) (p : Vec K) :
    ∃ ks, (∃ N, ∀ fuel ≥ N, visitLeafs dnodes dleafs fuel n = some (.ok ks)) ∧
      ∀ k, k ∈ ks ↔ ∃ s, Way dplanes dnodes p (fun _ => True) (fun _ => True) n s k := by
  induction h with
  | leaf n hn hk =>
    refine ⟨[(-1 - n).toNat], ⟨1, ?_⟩, ?_⟩
    · intro fuel hf
      obtain ⟨m, rfl⟩ : ∃ m, fuel = m + 1 := ⟨fuel - 1, by omega⟩
      simp only [visitLeafs]
      rw [if_pos hn]
      simp [leafFromNode, List.getElem?_eq_getElem hk]
    · intro k
      constructor
      · intro h
        simp only [List.mem_singleton] at h
        exact ⟨[], (way_leaf_iff hn).2 ⟨rfl, h⟩⟩
      · rintro ⟨s, hw⟩
        simp [((way_leaf_iff hn).1 hw).2]
  | node n nd hn hnd hpl _ _ ih0 ih1 =>
    have hpl' := List.getElem?_eq_getElem hpl
    obtain ⟨k0, ⟨N0, hN0⟩, h0⟩ := ih0
    obtain ⟨k1, ⟨N1, hN1⟩, h1⟩ := ih1
    refine ⟨k0 ++ k1, ⟨N0 + N1 + 1, ?_⟩, ?_⟩
    · intro fuel hf
      obtain ⟨m, rfl⟩ : ∃ m, fuel = m + 1 := ⟨fuel - 1, by omega⟩
      simp only [visitLeafs]
      rw [if_neg (by omega), hnd]
      simp only [hN0 m (by omega), hN1 m (by omega)]
    · intro k
      rw [List.mem_append, h0, h1]
      constructor
      · rintro (⟨s, hw⟩ | ⟨s, hw⟩)
        · exact ⟨_, .front n nd _ s k hn hnd hpl' trivial hw⟩
        · exact ⟨_, .back n nd _ s k hn hnd hpl' trivial hw⟩
      · rintro ⟨s, hw⟩
        rcases (way_node_iff hn hnd hpl').1 hw with ⟨s', rfl, -, h4⟩ | ⟨s', rfl, -, h4⟩
        · exact Or.inl ⟨s', h4⟩
        · exact Or.inr ⟨s', h4⟩

/-- **C49.** The lookup of a clip node that ends with contents also names the node above them and the side on which they
are: the contents are the child of that node on that side, and the point is on that side of its plane. If the lookup
starts at contents, the node and the side are the ones given. -/
theorem clip_lookup_parent {dplanes : List (DPlane K)} {clips : List ClipNode} {p : Vec K}
    (ht : ∀ nd ∈ clips, ∀ d, dplanes[nd.planenum]? = some d → TypeOk d) :
    ∀ (fuel : Nat) (parent : Int) (side : Bool) (n : Int) (r : ClipInfo),
      findClip dplanes clips p fuel parent side n = some (.ok r) →
      r.contents < 0 ∧ ((n < 0 ∧ r = ⟨parent, side, n⟩) ∨
        (0 ≤ n ∧ 0 ≤ r.parent ∧ ∃ nd pl, clips[r.parent.toNat]? = some nd ∧ dplanes[nd.planenum]? = some pl ∧
          r.contents = (if r.side then nd.c0 else nd.c1) ∧ (r.side = true ↔ 0 ≤ pl.plane.distTo p))) := by
  intro fuel
  induction fuel with
  | zero => intro parent side n r h; simp [findClip] at h
  | succ fuel ih =>
    intro parent side n r h
    simp only [findClip] at h
    by_cases hn : n < 0
    · rw [if_pos hn] at h
      simp only [Option.some.injEq, Outcome.ok.injEq] at h
      subst h
      exact ⟨hn, Or.inl ⟨hn, rfl⟩⟩
    · rw [if_neg hn] at h
      rcases hnd : clips[n.toNat]? with _ | nd
      · simp [hnd] at h
      · rcases hpl : dplanes[nd.planenum]? with _ | pl
        · simp [hnd, hpl] at h
        · simp only [hnd, hpl] at h
          have hfast := distFast_of_typeOk (ht nd (List.mem_of_getElem? hnd) _ hpl) p
          rw [hfast] at h
          by_cases hd : pl.plane.distTo p ≥ 0
          · rw [if_pos hd] at h
            obtain ⟨hc, ⟨h1, rfl⟩ | ⟨-, h2, h3⟩⟩ := ih _ _ _ _ h
            · exact ⟨hc, Or.inr ⟨by omega, by simp only; omega, nd, pl, hnd, hpl, by simp, by simpa using hd⟩⟩
            · exact ⟨hc, Or.inr ⟨by omega, h2, h3⟩⟩
          · rw [if_neg hd] at h
            obtain ⟨hc, ⟨h1, rfl⟩ | ⟨-, h2, h3⟩⟩ := ih _ _ _ _ h
            · exact ⟨hc, Or.inr ⟨by omega, by simp only; omega, nd, pl, hnd, hpl, by simp, by simpa using hd⟩⟩
            · exact ⟨hc, Or.inr ⟨by omega, h2, h3⟩⟩

/-- **C49, inside qbsp.** `PointInLeaf` ends at a leaf whose closed region contains the point; if some such leaf seals
the map as preferred (or fails to, as preferred), so does the leaf it ends at. -/
theorem point_in_leaf (q2 : Bool) (plane : Nat → Plane K) (prefer : Bool) (p : Vec K) (t : Bsp) :
    Touches plane p (pointInLeaf q2 plane prefer p t) t ∧
      ((∃ l, Touches plane p l t ∧ sealsMap q2 l = prefer) → sealsMap q2 (pointInLeaf q2 plane prefer p t) = prefer) := by
  induction t with
  | leaf l =>
    refine ⟨rfl, ?_⟩
    rintro ⟨l', rfl, h⟩
    exact h
  | node d f b ihf ihb =>
    simp only [pointInLeaf, Touches]
    by_cases h1 : (plane d.planenum).distTo p > 0
    · rw [if_pos h1]
      refine ⟨Or.inl ⟨h1.le, ihf.1⟩, ?_⟩
      rintro ⟨l, (⟨-, h⟩ | ⟨h2, -⟩), hs⟩
      · exact ihf.2 ⟨l, h, hs⟩
      · exact absurd h2 (not_le.2 h1)
    · rw [if_neg h1]
      by_cases h2 : (plane d.planenum).distTo p < 0
      · rw [if_pos h2]
        refine ⟨Or.inr ⟨h2.le, ihb.1⟩, ?_⟩
        rintro ⟨l, (⟨h3, -⟩ | ⟨-, h⟩), hs⟩
        · exact absurd h3 (not_le.2 h2)
        · exact ihb.2 ⟨l, h, hs⟩
      · rw [if_neg h2]
        by_cases h3 : prefer = sealsMap q2 (pointInLeaf q2 plane prefer p f)
        · rw [if_pos h3]
          exact ⟨Or.inl ⟨not_lt.1 h2, ihf.1⟩, fun _ => h3.symm⟩
        · rw [if_neg h3]
          refine ⟨Or.inr ⟨not_lt.1 h1, ihb.1⟩, ?_⟩
          rintro ⟨l, (⟨-, h⟩ | ⟨-, h⟩), hs⟩
          · exact absurd (ihf.2 ⟨l, h, hs⟩).symm h3
          · exact ihb.2 ⟨l, h, hs⟩

/-- Non-vacuity: two nodes, three leafs; the point (5, 1/20, 0) is near the second plane. -/
example :
    let dplanes : List (DPlane ℚ) := [⟨⟨⟨1, 0, 0⟩, 4⟩, .x⟩, ⟨⟨⟨3/5, 4/5, 0⟩, 3⟩, .anyY⟩]
    let dnodes : List DNode := [⟨0, 1, -2, 0, 0⟩, ⟨1, -3, -1, 0, 0⟩]
    let dleafs : List DLeaf := [⟨-2, 0, 0, 0, -1, 0, 0⟩, ⟨-1, 0, 0, 0, 0, 0, 0⟩, ⟨-1, 0, 0, 0, 0, 0, 0⟩]
    (∀ nd ∈ dnodes, ∀ d, dplanes[nd.planenum]? = some d → TypeOk d) ∧ Sound dplanes dnodes dleafs 0 ∧
      findLeaf dplanes dnodes dleafs ⟨5, 1/20, 0⟩ 3 0 = some (.ok (2, ⟨-1, 0, 0, 0, 0, 0, 0⟩)) ∧
      pointInSolid false (1/10) dplanes dnodes dleafs ⟨5, 1/20, 0⟩ 3 0 = some (.ok true) ∧
      pointInSolid false (1/10) dplanes dnodes dleafs ⟨5, 1, 0⟩ 3 0 = some (.ok false) := by
  refine ⟨?_, ?_, by decide +kernel, by decide +kernel, by decide +kernel⟩
  · intro nd hnd d hd
    simp only [List.mem_cons, List.not_mem_nil, or_false] at hnd
    rcases hnd with rfl | rfl <;> simp at hd <;> subst hd <;> simp [TypeOk]
  · refine .node 0 ⟨0, 1, -2, 0, 0⟩ (by omega) rfl (by decide) ?_ (.leaf _ (by decide) (by decide))
    exact .node 1 ⟨1, -3, -1, 0, 0⟩ (by omega) rfl (by decide) (.leaf _ (by decide) (by decide))
      (.leaf _ (by decide) (by decide))

end Verif.Tree
