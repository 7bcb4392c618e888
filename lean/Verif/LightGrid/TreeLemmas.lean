import Mathlib.Tactic.IntervalCases
import Verif.LightGrid.Lemmas

/-! Lemmas about the construction of the octree. -/

namespace Verif.LightGrid

open Verif.Stream Verif.Light

/-- The number stands for a part of the tree that is right about the box. -/
inductive Tree (d : Raw) (nodes : List Node) (leafs : List Box) : Nat → Box → Prop
  | occluded {b} (h : ∀ p, b.Has p → occ d p = true) : Tree d nodes leafs (2 ^ 30) b
  | leaf {k b} (h : leafs[k]? = some b) (hk : k < 2 ^ 30) : Tree d nodes leafs (2 ^ 31 + k) b
  | node {k b div ch} (h : nodes[k]? = some ⟨div, ch⟩) (hk : k < 2 ^ 30) (hl : ch.length = 8)
      (hc : ∀ i c, ch[i]? = some c → Tree d nodes leafs c (octant i b div)) : Tree d nodes leafs k b

theorem Tree.mono {d : Raw} {ns : List Node} {ls : List Box} (ns' : List Node) (ls' : List Box) {v : Nat} {b : Box}
    (h : Tree d ns ls v b) : Tree d (ns ++ ns') (ls ++ ls') v b := by
  induction h with
  | occluded h => exact .occluded h
  | @leaf k b h hk =>
    refine .leaf ?_ hk
    rw [List.getElem?_append_left (by
      by_contra hc; rw [List.getElem?_eq_none (by omega)] at h; cases h)]
    exact h
  | @node k b div ch h hk hl hc ih =>
    refine .node ?_ hk hl ih
    rw [List.getElem?_append_left (by
      by_contra hc; rw [List.getElem?_eq_none (by omega)] at h; cases h)]
    exact h

theorem Tree.lt {d : Raw} {ns : List Node} {ls : List Box} {v : Nat} {b : Box} (h : Tree d ns ls v b) :
    v < 2 ^ 32 := by
  cases h with
  | occluded => norm_num
  | leaf _ hk => omega
  | node _ hk _ _ => omega

/-! ### Octants -/

theorem octant_side (b : Box) (div p : P3) (h : b.Has p) : (octant (side div p) b div).Has p := by
  obtain ⟨hx, hy, hz⟩ := h
  unfold side
  by_cases h1 : p.x < div.x <;> by_cases h2 : p.y < div.y <;> by_cases h3 : p.z < div.z <;>
    simp only [h1, h2, h3, if_true, if_false, Box.Has, octant, halfOf, Nat.reduceAdd, Nat.reduceAnd, Nat.reduceBneDiff, bne_self_eq_false,
      Bool.false_eq_true] <;> omega

theorem side_lt (div p : P3) : side div p < 8 := by
  unfold side; split <;> split <;> split <;> omega

theorem side_octant {b : Box} {div p : P3} {i : Nat} (hi : i < 8) (h : (octant i b div).Has p) :
    side div p = i := by
  unfold side
  interval_cases i <;>
    simp only [Box.Has, octant, halfOf, Nat.reduceAnd, Nat.reduceBneDiff, bne_self_eq_false, if_true, Bool.false_eq_true, if_false] at h <;>
    (split <;> split <;> split <;> omega)

/-- The two boxes have no common point. -/
def Disj (a b : Box) : Prop := ∀ p, a.Has p → b.Has p → False

theorem octant_disj {b : Box} {div : P3} {i j : Nat} (hi : i < 8) (hj : j < 8) (hij : i ≠ j) :
    Disj (octant i b div) (octant j b div) := by
  intro p h1 h2
  exact hij ((side_octant hi h1).symm.trans (side_octant hj h2))

/-- The box is not empty. -/
def Fat (b : Box) : Prop := 0 < b.size.x ∧ 0 < b.size.y ∧ 0 < b.size.z

/-- The division point of a box that is divided. -/
theorem octant_in {b : Box} {i : Nat} (hx : 4 ≤ b.size.x) (hy : 4 ≤ b.size.y) (hz : 4 ≤ b.size.z) :
    Fat (octant i b (divisionPoint b)) ∧ ∀ p, (octant i b (divisionPoint b)).Has p → b.Has p := by
  unfold Fat Box.Has octant divisionPoint halfOf
  rw [Int.tdiv_eq_ediv_of_nonneg (by omega), Int.tdiv_eq_ediv_of_nonneg (by omega),
    Int.tdiv_eq_ediv_of_nonneg (by omega)]
  dsimp only
  cases (i &&& 4 != 0) <;> cases (i &&& 2 != 0) <;> cases (i &&& 1 != 0) <;>
    simp only [if_true, Bool.false_eq_true, if_false] <;>
    refine ⟨⟨?_, ?_, ?_⟩, ?_⟩ <;> (try intro p) <;> omega

theorem octant_volume (b : Box) (div : P3) :
    (((List.range 8).map fun i => octant i b div).map fun b => volume b.size).sum = volume b.size := by
  have e : List.range 8 = [0, 1, 2, 3, 4, 5, 6, 7] := by decide
  rw [e]
  simp only [List.map_cons, List.map_nil, List.sum_cons, List.sum_nil, octant, halfOf, volume, Nat.reduceAnd, Nat.reduceBneDiff, bne_self_eq_false,
    if_true, Bool.false_eq_true, if_false]
  ring

/-! ### Construction -/

/-- What a step of the construction adds for a list of boxes. -/
structure Adds (d : Raw) (K : Nat) (bs : List Box) (st : St) (vs : List Nat) (st' : St) : Prop where
  nodes : ∃ nn, st'.nodes = st.nodes ++ nn ∧ nn.length < K ∧
    ∀ n ∈ nn, n.children.length = 8 ∧ (∀ c ∈ n.children, c < 2 ^ 32) ∧ InGrid d.size n.div
  leafs : ∃ nl, st'.leafs = st.leafs ++ nl ∧ nl.length < K ∧
    (∀ l ∈ nl, Fat l ∧ ∃ b ∈ bs, ∀ p, l.Has p → b.Has p) ∧ nl.Pairwise Disj ∧
    (∀ b ∈ bs, ∀ p, b.Has p → occ d p = true ∨ ∃ l ∈ nl, l.Has p) ∧
    st'.occludedCells + (nl.map fun b => volume b.size).sum
      = st.occludedCells + (bs.map fun b => volume b.size).sum
  trees : List.Forall₂ (Tree d st'.nodes st'.leafs) vs bs

theorem forall₂_mono {d : Raw} {ns : List Node} {ls : List Box} (ns' : List Node) (ls' : List Box) {vs : List Nat}
    {bs : List Box} (h : List.Forall₂ (Tree d ns ls) vs bs) :
    List.Forall₂ (Tree d (ns ++ ns') (ls ++ ls')) vs bs := h.imp fun _ _ h => h.mono ns' ls'

theorem kids_adds {d : Raw} {K : Nat} (f : Box → St → Outcome (Nat × St)) (b : Box) (div : P3) (N : Nat)
    (hf : ∀ i < 8, ∀ st, st.nodes.length + K ≤ N → st.leafs.length + K ≤ N →
      ∃ v st', f (octant i b div) st = .ok (v, st') ∧ Adds d K [octant i b div] st [v] st') :
    ∀ (is : List Nat) (st : St), is.Nodup → (∀ i ∈ is, i < 8) →
      st.nodes.length + is.length * K ≤ N → st.leafs.length + is.length * K ≤ N →
      ∃ vs st', kids f b div is st = .ok (vs, st') ∧
        Adds d (is.length * K - is.length + 1) (is.map fun i => octant i b div) st vs st'
  | [], st, _, _, _, _ =>
    ⟨[], st, rfl, ⟨⟨[], by simp, by simp, by simp⟩,
      ⟨[], by simp, by simp, by simp, by simp, by simp, by simp⟩, by simp⟩⟩
  | i :: is, st, hn, h8, hN1, hN2 => by
    simp only [List.length_cons, Nat.add_mul, Nat.one_mul] at hN1 hN2
    obtain ⟨v, st1, hv, a1⟩ := hf i (h8 i (by simp)) st (by omega) (by omega)
    obtain ⟨nn1, en1, ln1, cn1⟩ := a1.nodes
    obtain ⟨nl1, el1, ll1, il1, dl1, vl1, sl1⟩ := a1.leafs
    have q1 : st1.nodes.length = st.nodes.length + nn1.length := by rw [en1]; simp
    have q2 : st1.leafs.length = st.leafs.length + nl1.length := by rw [el1]; simp
    obtain ⟨vs, st2, hvs, a2⟩ := kids_adds f b div N hf is st1 (List.nodup_cons.mp hn).2
      (fun j hj => h8 j (List.mem_cons_of_mem _ hj)) (by omega) (by omega)
    obtain ⟨nn2, en2, ln2, cn2⟩ := a2.nodes
    obtain ⟨nl2, el2, ll2, il2, dl2, vl2, sl2⟩ := a2.leafs
    have hK : 0 < K := by omega
    have hlK : is.length ≤ is.length * K := Nat.le_mul_of_pos_right _ hK
    refine ⟨v :: vs, st2, ?_, ⟨⟨nn1 ++ nn2, ?_, ?_, ?_⟩, ⟨nl1 ++ nl2, ?_, ?_, ?_, ?_, ?_, ?_⟩, ?_⟩⟩
    · unfold kids
      rw [hv]
      simp only [Outcome.ok_bind]
      rw [hvs]
      rfl
    · rw [en2, en1, List.append_assoc]
    · simp only [List.length_append, List.length_cons, Nat.add_mul, Nat.one_mul]
      omega
    · intro n hn
      rcases List.mem_append.mp hn with h | h
      · exact cn1 n h
      · exact cn2 n h
    · rw [el2, el1, List.append_assoc]
    · simp only [List.length_append, List.length_cons, Nat.add_mul, Nat.one_mul]
      omega
    · intro l hl
      rcases List.mem_append.mp hl with h | h
      · obtain ⟨hf, c, hc, hp⟩ := il1 l h
        rw [List.mem_singleton] at hc
        subst hc
        exact ⟨hf, _, by simp, hp⟩
      · obtain ⟨hf, c, hc, hp⟩ := il2 l h
        exact ⟨hf, c, List.mem_cons_of_mem _ hc, hp⟩
    · rw [List.pairwise_append]
      refine ⟨dl1, dl2, ?_⟩
      intro l hl l' hl' p hp hp'
      obtain ⟨_, c, hc, hcp⟩ := il1 l hl
      obtain ⟨_, c', hc', hcp'⟩ := il2 l' hl'
      rw [List.mem_singleton] at hc
      subst hc
      obtain ⟨j, hj, rfl⟩ := List.mem_map.mp hc'
      refine octant_disj (h8 i (by simp)) (h8 j (List.mem_cons_of_mem _ hj)) ?_ p (hcp p hp) (hcp' p hp')
      rintro rfl
      exact (List.nodup_cons.mp hn).1 hj
    · intro c hc p hp
      rcases List.mem_cons.mp hc with rfl | hc
      · rcases vl1 _ (by simp) p hp with h | ⟨l, hl, h⟩
        · exact .inl h
        · exact .inr ⟨l, by simp [hl], h⟩
      · rcases vl2 c hc p hp with h | ⟨l, hl, h⟩
        · exact .inl h
        · exact .inr ⟨l, by simp [hl], h⟩
    · simp only [List.map_append, List.sum_append, List.map_cons, List.sum_cons, List.map_nil, List.sum_nil] at sl1 sl2 ⊢
      omega
    · rw [List.map_cons]
      have t1 := forall₂_mono nn2 nl2 a1.trees
      rw [← en2, ← el2] at t1
      cases t1 with
      | cons t _ => exact .cons t a2.trees

theorem or_leaf {k : Nat} (hk : k < 2 ^ 30) : flagLeaf ||| k % 2 ^ 32 = 2 ^ 31 + k := by
  unfold flagLeaf
  rw [Nat.mod_eq_of_lt (by omega)]
  have := Nat.two_pow_add_eq_or_of_lt (i := 31) (b := k) (by omega) 1
  rw [Nat.mul_one] at this
  omega

theorem build_adds {d : Raw} (hd : Sized d) : ∀ (left : Nat) (b : Box) (st : St), Fat b → Inside d.size b →
    st.nodes.length + 2 * 8 ^ left ≤ 2 ^ 30 → st.leafs.length + 2 * 8 ^ left ≤ 2 ^ 30 →
    ∃ v st', build d left b st = .ok (v, st') ∧ Adds d (2 * 8 ^ left) [b] st [v] st' := by
  intro left
  induction left with
  | zero =>
    intro b st hf hb hn hl
    obtain ⟨o, u, hc, hu⟩ := count_ok hd hb
    unfold build
    rw [hc]
    simp only [Outcome.ok_bind]
    by_cases h0 : u = 0
    · rw [if_pos h0]
      refine ⟨_, _, rfl, ⟨⟨[], by simp, by simp, by simp⟩, ⟨[], by simp, by simp, by simp, by simp, ?_, by simp⟩, ?_⟩⟩
      · intro c hc p hp
        rw [List.mem_singleton] at hc
        subst hc
        exact .inl (hu.mp h0 p hp)
      · exact .cons (.occluded (hu.mp h0)) .nil
    · rw [if_neg h0, if_pos (by simp)]
      refine ⟨_, _, rfl, ⟨⟨[], by simp, by simp, by simp⟩, ⟨[b], by simp, by simp, ?_, by simp, ?_, by simp⟩, ?_⟩⟩
      · intro l hl
        rw [List.mem_singleton] at hl
        subst hl
        exact ⟨hf, l, by simp, fun p h => h⟩
      · intro c hc p hp
        rw [List.mem_singleton] at hc
        subst hc
        exact .inr ⟨c, by simp, hp⟩
      · rw [or_leaf (by omega)]
        exact .cons (.leaf (by simp) (by omega)) .nil
  | succ left ih =>
    intro b st hf hb hn hl
    obtain ⟨o, u, hc, hu⟩ := count_ok hd hb
    have hpow : (8 : Nat) ^ (left + 1) = 8 * 8 ^ left := by rw [Nat.pow_succ]; omega
    have hpos : 0 < (8 : Nat) ^ left := Nat.pow_pos (by omega)
    unfold build
    rw [hc]
    simp only [Outcome.ok_bind]
    by_cases h0 : u = 0
    · rw [if_pos h0]
      refine ⟨_, _, rfl, ⟨⟨[], by simp, by simp, by simp⟩, ⟨[], by simp, by simp, by simp, by simp, ?_, by simp⟩, ?_⟩⟩
      · intro c hc p hp
        rw [List.mem_singleton] at hc
        subst hc
        exact .inl (hu.mp h0 p hp)
      · exact .cons (.occluded (hu.mp h0)) .nil
    · rw [if_neg h0]
      by_cases hs : b.size.x < minDim ∨ b.size.y < minDim ∨ b.size.z < minDim ∨ left + 1 = 0 ∨ o < 8
      · rw [if_pos hs]
        refine ⟨_, _, rfl, ⟨⟨[], by simp, by simp, by simp⟩,
          ⟨[b], by simp, by rw [hpow]; simp; omega, ?_, by simp, ?_, by simp⟩, ?_⟩⟩
        · intro l hl
          rw [List.mem_singleton] at hl
          subst hl
          exact ⟨hf, l, by simp, fun p h => h⟩
        · intro c hc p hp
          rw [List.mem_singleton] at hc
          subst hc
          exact .inr ⟨c, by simp, hp⟩
        · rw [or_leaf (by omega)]
          exact .cons (.leaf (by simp) (by omega)) .nil
      · rw [if_neg hs]
        push Not at hs
        unfold minDim at hs
        obtain ⟨hx, hy, hz, _, _⟩ := hs
        obtain ⟨vs, st1, hk, a⟩ := kids_adds (K := 2 * 8 ^ left) (d := d) (build d left) b (divisionPoint b)
          (2 ^ 30) (by
            intro i hi st' h1 h2
            have ho := octant_in (i := i) hx hy hz
            exact ih _ st' ho.1 (fun p hp => hb p (ho.2 p hp)) h1 h2)
          (List.range 8) st List.nodup_range (fun i hi => List.mem_range.mp hi)
          (by simp only [List.length_range]; omega) (by simp only [List.length_range]; omega)
        simp only [List.length_range] at a
        obtain ⟨nn, en, ln, cn⟩ := a.nodes
        obtain ⟨nl, el, ll, il, dl, vl, sl⟩ := a.leafs
        have q1 : st1.nodes.length = st.nodes.length + nn.length := by rw [en]; simp
        have hvl : vs.length = 8 := by rw [a.trees.length_eq]; simp
        rw [hk]
        have hmod : st1.nodes.length % 2 ^ 32 = st1.nodes.length := Nat.mod_eq_of_lt (by omega)
        refine ⟨_, _, rfl, ⟨⟨nn ++ [⟨divisionPoint b, vs⟩], ?_, ?_, ?_⟩, ⟨nl, el, by omega, ?_, dl, ?_, ?_⟩, ?_⟩⟩
        · simp only [en, List.append_assoc]
        · simp only [List.length_append, List.length_singleton]; omega
        · intro n hn
          rcases List.mem_append.mp hn with h | h
          · exact cn n h
          · rw [List.mem_singleton] at h
            subst h
            refine ⟨hvl, ?_, ?_⟩
            · intro c hc
              obtain ⟨k, hk', e⟩ := List.mem_iff_getElem.mp hc
              have ht := a.trees.get (i := k) (by omega) (by rw [← a.trees.length_eq]; omega)
              simp only [List.get_eq_getElem] at ht
              rw [e] at ht
              exact ht.lt
            · have ho := octant_in (i := 7) hx hy hz
              refine hb _ (ho.2 _ ?_)
              obtain ⟨f1, f2, f3⟩ := ho.1
              simp only [octant, halfOf, Nat.reduceAnd, Nat.reduceBneDiff, bne_self_eq_false, if_true, Box.Has] at f1 f2 f3 ⊢
              omega
        · intro l hl
          obtain ⟨hf', c, hc, hp⟩ := il l hl
          obtain ⟨i, _, rfl⟩ := List.mem_map.mp hc
          exact ⟨hf', b, by simp, fun p h => (octant_in hx hy hz).2 p (hp p h)⟩
        · intro c hc p hp
          rw [List.mem_singleton] at hc
          subst hc
          exact vl (octant (side (divisionPoint c) p) c (divisionPoint c))
            (List.mem_map.mpr ⟨_, List.mem_range.mpr (side_lt _ _), rfl⟩) p (octant_side c _ p hp)
        · rw [octant_volume] at sl
          simpa using sl
        · refine .cons (.node (div := divisionPoint b) (ch := vs) ?_ ?_ hvl ?_) .nil
          · simp only [hmod]
            rw [List.getElem?_append_right (Nat.le_refl _), Nat.sub_self]
            rfl
          · simp only [hmod]; omega
          · intro i c hi
            have hil : i < vs.length := by
              by_contra hc; rw [List.getElem?_eq_none (by omega)] at hi; cases hi
            have ht := a.trees.get (i := i) hil (by rw [← a.trees.length_eq]; exact hil)
            simp only [List.get_eq_getElem, List.getElem_map, List.getElem_range] at ht
            rw [List.getElem?_eq_getElem hil, Option.some.injEq] at hi
            rw [hi] at ht
            have := ht.mono [⟨divisionPoint b, vs⟩] []
            rwa [List.append_nil] at this

/-- The tree of a whole grid. -/
theorem buildRoot_adds {d : Raw} (hd : Sized d) :
    ∃ v st, buildRoot d = .ok (v, st) ∧ Adds d (2 * 8 ^ maxDepth) [⟨⟨0, 0, 0⟩, d.size⟩] {} [v] st := by
  refine build_adds hd _ _ _ ⟨hd.px, hd.py, hd.pz⟩ ?_ ?_ ?_
  · rintro p ⟨hx, hy, hz⟩
    simp only [Int.zero_add] at hx hy hz
    exact ⟨hx, hy, hz⟩
  · simp [maxDepth]
  · simp [maxDepth]

end Verif.LightGrid
