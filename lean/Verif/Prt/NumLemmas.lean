import Verif.Prt.Spec

/-! Lemmas about numbering. -/

namespace Verif.Prt

open Verif Spec

variable {V : Type}

theorem flatten_clusters (t : Tree V) : (clusters t).flatMap Prod.snd = openLeafs t := by
  induction t with
  | leaf id solid ps => cases solid <;> simp [clusters, openLeafs]
  | node id detail ps l r hl hr =>
    cases detail <;> simp [clusters, openLeafs, hl, hr]

theorem openLeafs_sub (t : Tree V) : ∀ i ∈ openLeafs t, i ∈ ids t := by
  induction t with
  | leaf id solid ps => cases solid <;> simp [ids, openLeafs]
  | node id detail ps l r hl hr =>
    intro i hi
    simp only [openLeafs, List.mem_append] at hi
    simp only [ids, List.mem_cons, List.mem_append]
    rcases hi with hi | hi
    · exact Or.inr (Or.inl (hl i hi))
    · exact Or.inr (Or.inr (hr i hi))

theorem solidLeafs_sub (t : Tree V) : ∀ i ∈ solidLeafs t, i ∈ ids t := by
  induction t with
  | leaf id solid ps => cases solid <;> simp [ids, solidLeafs]
  | node id detail ps l r hl hr =>
    intro i hi
    simp only [solidLeafs, List.mem_append] at hi
    simp only [ids, List.mem_cons, List.mem_append]
    rcases hi with hi | hi
    · exact Or.inr (Or.inl (hl i hi))
    · exact Or.inr (Or.inr (hr i hi))

theorem clusters_sub (t : Tree V) : ∀ g ∈ clusters t, g.1 ∈ ids t ∧ ∀ i ∈ g.2, i ∈ ids t := by
  induction t with
  | leaf id solid ps => cases solid <;> simp [ids, clusters]
  | node id detail ps l r hl hr =>
    intro g hg
    cases detail
    · simp only [clusters, Bool.false_eq_true, if_false, List.mem_append] at hg
      simp only [ids, List.mem_cons, List.mem_append]
      rcases hg with hg | hg
      · exact ⟨Or.inr (Or.inl (hl g hg).1), fun i hi => Or.inr (Or.inl ((hl g hg).2 i hi))⟩
      · exact ⟨Or.inr (Or.inr (hr g hg).1), fun i hi => Or.inr (Or.inr ((hr g hg).2 i hi))⟩
    · simp only [clusters, if_true, List.mem_singleton] at hg
      subst hg
      refine ⟨by simp [ids], fun i hi => ?_⟩
      simp only [List.mem_append] at hi
      simp only [ids, List.mem_cons, List.mem_append]
      rcases hi with hi | hi
      · exact Or.inr (Or.inl (openLeafs_sub l i hi))
      · exact Or.inr (Or.inr (openLeafs_sub r i hi))

theorem store_same (m : Id → Option Int) (id : Id) (v : Int) : store m id v id = some v := by simp [store]

theorem store_other (m : Id → Option Int) {id j : Id} (v : Int) (h : j ≠ id) : store m id v j = m j := by
  simp [store, h]

/-- Numbering leaves other nodes alone. -/
theorem number_frame (t : Tree V) (c : Int) (st : Num) (j : Id) (hj : j ∉ ids t) :
    (numberLeafs t c st).leafnum j = st.leafnum j ∧ (numberLeafs t c st).cluster j = st.cluster j := by
  induction t generalizing c st with
  | leaf id solid ps =>
    simp only [ids, List.mem_singleton] at hj
    cases solid <;> simp only [numberLeafs]
    · split <;> simp [store_other, hj]
    · simp [store_other, hj]
  | node id detail ps l r hl hr =>
    simp only [ids, List.mem_cons, List.mem_append, not_or] at hj
    obtain ⟨h0, h1, h2⟩ := hj
    simp only [numberLeafs]
    split
    · rw [(hr _ _ h2).1, (hr _ _ h2).2, (hl _ _ h1).1, (hl _ _ h1).2]
      simp [store_other, h0]
    · rw [(hr _ _ h2).1, (hr _ _ h2).2, (hl _ _ h1).1, (hl _ _ h1).2]
      simp

/-- The counters of leafs. -/
theorem number_leafs (t : Tree V) (c : Int) (st : Num) :
    (numberLeafs t c st).leafs = st.leafs + (openLeafs t).length := by
  induction t generalizing c st with
  | leaf id solid ps =>
    cases solid <;> simp only [numberLeafs, openLeafs]
    · split <;> simp
    · simp
  | node id detail ps l r hl hr =>
    simp only [numberLeafs, openLeafs, List.length_append]
    split <;> (rw [hr, hl]; exact Nat.add_assoc _ _ _)

theorem number_clusters_in (t : Tree V) (c : Int) (hc : 0 ≤ c) (st : Num) :
    (numberLeafs t c st).clusters = st.clusters ∧ (numberLeafs t c st).detail = st.detail := by
  induction t generalizing st with
  | leaf id solid ps =>
    cases solid <;> simp only [numberLeafs]
    · rw [if_neg (by omega)]; simp
    · simp
  | node id detail ps l r hl hr =>
    simp only [numberLeafs]
    rw [if_neg (by omega), (hr _).1, (hr _).2, (hl _).1, (hl _).2]
    simp

theorem number_clusters_out (t : Tree V) (c : Int) (hc : c < 0) (st : Num) :
    (numberLeafs t c st).clusters = st.clusters + (clusters t).length ∧
      (numberLeafs t c st).detail = (st.detail || hasDetail t) := by
  induction t generalizing st with
  | leaf id solid ps =>
    cases solid <;> simp only [numberLeafs, clusters, hasDetail]
    · rw [if_pos hc]; simp
    · simp
  | node id detail ps l r hl hr =>
    simp only [numberLeafs]
    cases detail
    · rw [if_neg (by simp), (hr _).1, (hr _).2, (hl _).1, (hl _).2]
      simp [clusters, hasDetail, Nat.add_assoc, Bool.or_assoc]
    · rw [if_pos ⟨hc, rfl⟩]
      rw [(number_clusters_in r _ (Int.natCast_nonneg _) _).1, (number_clusters_in r _ (Int.natCast_nonneg _) _).2,
        (number_clusters_in l _ (Int.natCast_nonneg _) _).1, (number_clusters_in l _ (Int.natCast_nonneg _) _).2]
      simp [clusters, hasDetail]

theorem countPortals_nil (id : Id) : countPortals (V := V) id [] = 0 := rfl

theorem number_portals_in (t : Tree V) (c : Int) (hc : 0 ≤ c) (st : Num) (h : noPortals t) :
    (numberLeafs t c st).portals = st.portals := by
  induction t generalizing st with
  | leaf id solid ps =>
    simp only [noPortals] at h
    subst h
    cases solid <;> simp only [numberLeafs]
    rw [if_neg (by omega)]; simp [countPortals_nil]
  | node id detail ps l r hl hr =>
    simp only [numberLeafs]
    rw [if_neg (by omega), hr _ h.2, hl _ h.1]

theorem number_portals_out (t : Tree V) (c : Int) (hc : c < 0) (st : Num) (h : VisPortals t) :
    (numberLeafs t c st).portals = st.portals + (portals t).length := by
  induction t generalizing st with
  | leaf id solid ps =>
    cases solid <;> simp only [numberLeafs, portals]
    · rw [if_pos hc]; simp [countPortals]
    · simp
  | node id detail ps l r hl hr =>
    simp only [numberLeafs]
    cases detail
    · rw [if_neg (by simp), hr _ h.2, hl _ h.1]
      simp [portals, Nat.add_assoc]
    · rw [if_pos ⟨hc, rfl⟩]
      rw [number_portals_in r _ (Int.natCast_nonneg _) _ h.2, number_portals_in l _ (Int.natCast_nonneg _) _ h.1]
      simp [portals, countPortals]

/-- Solid leafs have no numbers. -/
theorem number_solid (t : Tree V) (c : Int) (st : Num) (hn : (ids t).Nodup) (i : Id) (hi : i ∈ solidLeafs t) :
    (numberLeafs t c st).leafnum i = some (-1) ∧ (numberLeafs t c st).cluster i = some (-1) := by
  induction t generalizing c st with
  | leaf id solid ps =>
    cases solid
    · simp [solidLeafs] at hi
    · simp only [solidLeafs, if_true, List.mem_singleton] at hi
      subst hi
      simp [numberLeafs, store_same]
  | node id detail ps l r hl hr =>
    simp only [ids, List.nodup_cons, List.nodup_append, List.mem_append, not_or] at hn
    obtain ⟨⟨n0, n1⟩, nl, nr, dj⟩ := hn
    simp only [solidLeafs, List.mem_append] at hi
    simp only [numberLeafs]
    split
    · rcases hi with hi | hi
      · have h2 : i ∉ ids r := fun h => dj i (solidLeafs_sub l i hi) i h rfl
        rw [(number_frame r _ _ i h2).1, (number_frame r _ _ i h2).2]
        exact hl _ _ nl hi
      · exact hr _ _ nr hi
    · rcases hi with hi | hi
      · have h2 : i ∉ ids r := fun h => dj i (solidLeafs_sub l i hi) i h rfl
        rw [(number_frame r _ _ i h2).1, (number_frame r _ _ i h2).2]
        exact hl _ _ nl hi
      · exact hr _ _ nr hi

/-- Leafs are numbered in the order of the tree. -/
theorem number_leafnum (t : Tree V) (c : Int) (st : Num) (hn : (ids t).Nodup) (k : Nat) (i : Id)
    (hi : (openLeafs t)[k]? = some i) : (numberLeafs t c st).leafnum i = some ((st.leafs + k : Nat) : Int) := by
  induction t generalizing c st k with
  | leaf id solid ps =>
    cases solid
    · simp only [openLeafs, Bool.false_eq_true, if_false] at hi
      obtain ⟨hk, rfl⟩ := List.getElem?_eq_some_iff.1 hi
      have : k = 0 := by simpa using hk
      subst this
      simp only [numberLeafs]
      split <;> simp [store_same]
    · simp [openLeafs] at hi
  | node id detail ps l r hl hr =>
    simp only [ids, List.nodup_cons, List.nodup_append, List.mem_append, not_or] at hn
    obtain ⟨⟨n0, n1⟩, nl, nr, dj⟩ := hn
    simp only [openLeafs] at hi
    have key : ∀ c' st', st'.leafs = st.leafs →
        (numberLeafs r c' (numberLeafs l c' st')).leafnum i = some ((st.leafs + k : Nat) : Int) := by
      intro c' st' hst
      by_cases hk : k < (openLeafs l).length
      · rw [List.getElem?_append_left hk] at hi
        have h2 : i ∉ ids r := fun h => dj i (openLeafs_sub l i (List.mem_of_getElem? hi)) i h rfl
        rw [(number_frame r _ _ i h2).1, hl _ _ nl k hi, hst]
      · rw [List.getElem?_append_right (by omega)] at hi
        rw [hr _ _ nr _ hi, number_leafs, hst]
        congr 2
        omega
    simp only [numberLeafs]
    split
    · exact key _ _ rfl
    · exact key _ _ rfl

theorem number_cluster_in (t : Tree V) (c : Int) (hc : 0 ≤ c) (st : Num) (hn : (ids t).Nodup) (i : Id)
    (hi : i ∈ openLeafs t) : (numberLeafs t c st).cluster i = some c := by
  induction t generalizing st with
  | leaf id solid ps =>
    cases solid
    · simp only [openLeafs, Bool.false_eq_true, if_false, List.mem_singleton] at hi
      subst hi
      simp only [numberLeafs]
      rw [if_neg (by omega)]
      simp [store_same]
    · simp [openLeafs] at hi
  | node id detail ps l r hl hr =>
    simp only [ids, List.nodup_cons, List.nodup_append, List.mem_append, not_or] at hn
    obtain ⟨⟨n0, n1⟩, nl, nr, dj⟩ := hn
    simp only [openLeafs, List.mem_append] at hi
    simp only [numberLeafs]
    rw [if_neg (by omega)]
    rcases hi with hi | hi
    · have h2 : i ∉ ids r := fun h => dj i (openLeafs_sub l i hi) i h rfl
      rw [(number_frame r _ _ i h2).2]
      exact hl _ nl hi
    · exact hr _ nr hi

/-- Clusters are numbered in the order of the tree. -/
theorem number_cluster_out (t : Tree V) (c : Int) (hc : c < 0) (st : Num) (hn : (ids t).Nodup) (k : Nat)
    (g : Id × List Id) (hg : (clusters t)[k]? = some g) :
    (numberLeafs t c st).cluster g.1 = some ((st.clusters + k : Nat) : Int) ∧
      ∀ i ∈ g.2, (numberLeafs t c st).cluster i = some ((st.clusters + k : Nat) : Int) := by
  induction t generalizing st k with
  | leaf id solid ps =>
    cases solid
    · simp only [clusters, Bool.false_eq_true, if_false] at hg
      obtain ⟨hk, rfl⟩ := List.getElem?_eq_some_iff.1 hg
      have : k = 0 := by simpa using hk
      subst this
      simp only [numberLeafs]
      rw [if_pos hc]
      simp [store_same]
    · simp [clusters] at hg
  | node id detail ps l r hl hr =>
    simp only [ids, List.nodup_cons, List.nodup_append, List.mem_append, not_or] at hn
    obtain ⟨⟨n0, n1⟩, nl, nr, dj⟩ := hn
    simp only [numberLeafs]
    cases detail
    · rw [if_neg (by simp)]
      simp only [clusters, Bool.false_eq_true, if_false] at hg
      by_cases hk : k < (clusters l).length
      · rw [List.getElem?_append_left hk] at hg
        obtain ⟨s1, s2⟩ := clusters_sub l g (List.mem_of_getElem? hg)
        have h2 : ∀ i ∈ ids l, i ∉ ids r := fun i hi h => dj i hi i h rfl
        obtain ⟨e1, e2⟩ := hl st nl k hg
        refine ⟨?_, fun i hi => ?_⟩
        · rw [(number_frame r _ _ _ (h2 _ s1)).2]; exact e1
        · rw [(number_frame r _ _ _ (h2 _ (s2 i hi))).2]; exact e2 i hi
      · rw [List.getElem?_append_right (by omega)] at hg
        obtain ⟨e1, e2⟩ := hr (numberLeafs l c st) nr _ hg
        rw [(number_clusters_out l c hc st).1] at e1 e2
        have : st.clusters + (clusters l).length + (k - (clusters l).length) = st.clusters + k := by omega
        rw [this] at e1 e2
        exact ⟨e1, e2⟩
    · rw [if_pos ⟨hc, rfl⟩]
      simp only [clusters, if_true] at hg
      obtain ⟨hk, rfl⟩ := List.getElem?_eq_some_iff.1 hg
      have : k = 0 := by simpa using hk
      subst this
      simp only [List.getElem_cons_zero, Nat.add_zero]
      refine ⟨?_, fun i hi => ?_⟩
      · rw [(number_frame r _ _ _ n1).2, (number_frame l _ _ _ n0).2]; exact store_same _ _ _
      · rcases List.mem_append.1 hi with hi | hi
        · have h2 : i ∉ ids r := fun h => dj i (openLeafs_sub l i hi) i h rfl
          rw [(number_frame r _ _ i h2).2]
          exact number_cluster_in l _ (Int.natCast_nonneg _) _ nl i hi
        · exact number_cluster_in r _ (Int.natCast_nonneg _) _ nr i hi

end Verif.Prt
