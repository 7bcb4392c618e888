import Verif.Prt.FileLemmas

/-! Lemmas about complete portal files. -/

namespace Verif.Prt

open Verif Spec

variable {V : Type}

/-! ### Ranges of the numbers -/

theorem cluster_range (t : Tree V) (c : Int) (st : Num) (hc : c < st.clusters)
    (h : ∀ j v, st.cluster j = some v → v = -1 ∨ (0 ≤ v ∧ v < st.clusters)) :
    st.clusters ≤ (numberLeafs t c st).clusters ∧
    ∀ j v, (numberLeafs t c st).cluster j = some v → v = -1 ∨ (0 ≤ v ∧ v < (numberLeafs t c st).clusters) := by
  induction t generalizing c st with
  | leaf id solid ps =>
    cases solid <;> simp only [numberLeafs]
    · split
      · refine ⟨by simp, fun j v hj => ?_⟩
        simp only at hj ⊢
        by_cases e : j = id
        · subst e; rw [store_same] at hj; simp only [Option.some.injEq] at hj; subst hj; omega
        · rw [store_other _ _ e] at hj
          have := h j v hj
          omega
      · refine ⟨by simp, fun j v hj => ?_⟩
        simp only at hj ⊢
        by_cases e : j = id
        · subst e; rw [store_same] at hj; simp only [Option.some.injEq] at hj; subst hj; omega
        · rw [store_other _ _ e] at hj
          exact h j v hj
    · refine ⟨by simp, fun j v hj => ?_⟩
      by_cases e : j = id
      · subst e; rw [store_same] at hj; simp only [Option.some.injEq] at hj; subst hj; exact Or.inl rfl
      · rw [store_other _ _ e] at hj
        exact h j v hj
  | node id detail ps l r hl hr =>
    simp only [numberLeafs]
    split
    · have h0 : ∀ j v, store st.cluster id st.clusters j = some v → v = -1 ∨ (0 ≤ v ∧ v < ((st.clusters + 1 : Nat) : Int)) := by
        intro j v hj
        by_cases e : j = id
        · subst e; rw [store_same] at hj; simp only [Option.some.injEq] at hj; subst hj; omega
        · rw [store_other _ _ e] at hj
          have := h j v hj
          omega
      obtain ⟨a1, a2⟩ := hl (st.clusters) { st with
        detail := true
        clusters := st.clusters + 1
        cluster := store st.cluster id st.clusters
        portals := st.portals + countPortals id ps } (by simp only; omega) h0
      obtain ⟨b1, b2⟩ := hr (st.clusters) _ (by simp only at a1; omega) a2
      simp only at a1
      exact ⟨by omega, b2⟩
    · obtain ⟨a1, a2⟩ := hl c st hc h
      obtain ⟨b1, b2⟩ := hr c _ (by omega) a2
      exact ⟨by omega, b2⟩

theorem leafnum_range (t : Tree V) (c : Int) (st : Num)
    (h : ∀ j v, st.leafnum j = some v → v = -1 ∨ (0 ≤ v ∧ v < st.leafs)) :
    ∀ j v, (numberLeafs t c st).leafnum j = some v → v = -1 ∨ (0 ≤ v ∧ v < (numberLeafs t c st).leafs) := by
  induction t generalizing c st with
  | leaf id solid ps =>
    cases solid <;> simp only [numberLeafs]
    · split
      all_goals
        intro j v hj
        simp only at hj ⊢
        by_cases e : j = id
        · subst e; rw [store_same] at hj; simp only [Option.some.injEq] at hj; subst hj; omega
        · rw [store_other _ _ e] at hj
          have := h j v hj
          omega
    · intro j v hj
      by_cases e : j = id
      · subst e; rw [store_same] at hj; simp only [Option.some.injEq] at hj; subst hj; exact Or.inl rfl
      · rw [store_other _ _ e] at hj
        exact h j v hj
  | node id detail ps l r hl hr =>
    simp only [numberLeafs]
    split
    · exact hr _ _ (hl _ _ h)
    · exact hr _ _ (hl _ _ h)

/-- The portals that are written start at a cluster. -/
theorem portals_front (t : Tree V) (p : Portal V) (hp : p ∈ portals t) : ∃ g ∈ clusters t, g.1 = p.front := by
  induction t with
  | leaf id solid ps =>
    cases solid
    · simp only [portals, Bool.false_eq_true, if_false, List.mem_filter, Bool.and_eq_true, decide_eq_true_eq] at hp
      exact ⟨(id, [id]), by simp [clusters], hp.2.1.symm⟩
    · simp [portals] at hp
  | node id detail ps l r hl hr =>
    cases detail
    · simp only [portals, Bool.false_eq_true, if_false, List.mem_append] at hp
      simp only [clusters, Bool.false_eq_true, if_false, List.mem_append]
      rcases hp with hp | hp
      · obtain ⟨g, hg, e⟩ := hl hp; exact ⟨g, Or.inl hg, e⟩
      · obtain ⟨g, hg, e⟩ := hr hp; exact ⟨g, Or.inr hg, e⟩
    · simp only [portals, if_true, List.mem_filter, Bool.and_eq_true, decide_eq_true_eq] at hp
      exact ⟨(id, openLeafs l ++ openLeafs r), by simp [clusters], hp.2.1.symm⟩

/-- Without detail every open leaf is a cluster. -/
theorem clusters_no_detail (t : Tree V) (h : hasDetail t = false) : clusters t = (openLeafs t).map fun i => (i, [i]) := by
  induction t with
  | leaf id solid ps => cases solid <;> simp [clusters, openLeafs]
  | node id detail ps l r hl hr =>
    simp only [hasDetail, Bool.or_eq_false_iff] at h
    obtain ⟨⟨rfl, h1⟩, h2⟩ := h
    simp [clusters, openLeafs, hl h1, hr h2]

theorem openLeafs_nodup (t : Tree V) (h : (ids t).Nodup) : (openLeafs t).Nodup := by
  induction t with
  | leaf id solid ps => cases solid <;> simp [openLeafs]
  | node id detail ps l r hl hr =>
    simp only [ids, List.nodup_cons, List.nodup_append] at h
    obtain ⟨_, nl, nr, dj⟩ := h
    simp only [openLeafs, List.nodup_append]
    exact ⟨hl nl, hr nr, fun a ha b hb => dj a (openLeafs_sub l a ha) b (openLeafs_sub r b hb)⟩

/-! ### The table of clusters -/

theorem setAll_length (t : List Int) (xs : List (Nat × Int)) : (setAll t xs).length = t.length := by
  unfold setAll
  induction xs generalizing t with
  | nil => rfl
  | cons x xs ih => rw [List.foldl_cons, ih, List.length_set]

theorem setAll_other (t : List Int) (xs : List (Nat × Int)) (k : Nat) (h : ∀ x ∈ xs, x.1 ≠ k) :
    (setAll t xs)[k + 1]? = t[k + 1]? := by
  unfold setAll
  induction xs generalizing t with
  | nil => rfl
  | cons x xs ih =>
    rw [List.foldl_cons, ih _ (fun y hy => h y (List.mem_cons_of_mem _ hy))]
    rw [List.getElem?_set_ne (by have := h x List.mem_cons_self; omega)]

theorem setAll_mem (t : List Int) (xs : List (Nat × Int)) (hn : (xs.map Prod.fst).Nodup) (k : Nat) (c : Int)
    (h : (k, c) ∈ xs) (hk : k + 1 < t.length) : (setAll t xs)[k + 1]? = some c := by
  induction xs generalizing t with
  | nil => simp at h
  | cons x xs ih =>
    simp only [List.map_cons, List.nodup_cons] at hn
    rcases List.mem_cons.1 h with rfl | h
    · have := setAll_other (t.set (k + 1) c) xs k (fun y hy e => hn.1 (List.mem_map.2 ⟨y, hy, e⟩))
      rw [show setAll t ((k, c) :: xs) = setAll (t.set (k + 1) c) xs from rfl, this]
      simp [hk]
    · rw [show setAll t (x :: xs) = setAll (t.set (x.1 + 1) x.2) xs from rfl]
      exact ih _ hn.2 h (by simpa using hk)

theorem identityMap_ok (n i : Nat) (t : List Int) (h : i + n < t.length) :
    ∃ t', identityMap n i t = .ok t' ∧ t'.length = t.length ∧
      (∀ k, k ≤ i → t'[k]? = t[k]?) ∧ ∀ k, i ≤ k → k < i + n → t'[k + 1]? = some (k : Int) := by
  induction n generalizing i t with
  | zero => exact ⟨t, rfl, rfl, fun _ _ => rfl, fun k h1 h2 => absurd h2 (by omega)⟩
  | succ n ih =>
    obtain ⟨t', e, hl, hold, hnew⟩ := ih (i + 1) (t.set (i + 1) (i : Int)) (by simp; omega)
    refine ⟨t', ?_, by simpa using hl, fun k hk => ?_, fun k h1 h2 => ?_⟩
    · simp only [identityMap, Run.writeAt]
      rw [if_pos (by omega)]
      exact e
    · rw [hold k (by omega), List.getElem?_set_ne (by omega)]
    · by_cases hk : k = i
      · subst hk
        rw [hold (k + 1) (by omega)]
        exact List.getElem?_set_self (by omega)
      · exact hnew k (by omega) (by omega)

/-- As many groups as elements, none empty: every group has one element. -/
theorem singletons {α β : Type} (gs : List (β × List α)) (hne : ∀ g ∈ gs, g.2 ≠ [])
    (hlen : (gs.flatMap Prod.snd).length = gs.length) : ∀ g ∈ gs, ∃ a, g.2 = [a] := by
  have hge : ∀ gs : List (β × List α), (∀ g ∈ gs, g.2 ≠ []) → gs.length ≤ (gs.flatMap Prod.snd).length := by
    intro gs
    induction gs with
    | nil => simp
    | cons g gs ih =>
      intro h
      have h1 := ih (fun g' hg' => h g' (List.mem_cons_of_mem _ hg'))
      have h2 := List.length_pos_iff.2 (h g List.mem_cons_self)
      simp only [List.flatMap_cons, List.length_append, List.length_cons]
      omega
  induction gs with
  | nil => simp
  | cons g gs ih =>
    have h0 := List.length_pos_iff.2 (hne g List.mem_cons_self)
    have h1 := hge gs (fun g' hg' => hne g' (List.mem_cons_of_mem _ hg'))
    simp only [List.flatMap_cons, List.length_append, List.length_cons] at hlen
    intro g' hg'
    rcases List.mem_cons.1 hg' with rfl | hg'
    · have : g'.2.length = 1 := by omega
      exact List.length_eq_one_iff.1 this
    · exact ih (fun g' hg' => hne g' (List.mem_cons_of_mem _ hg')) (by omega) g' hg'

theorem singletons_index {α β : Type} (gs : List (β × List α)) (h : ∀ g ∈ gs, ∃ a, g.2 = [a]) (k : Nat)
    (g : β × List α) (hk : gs[k]? = some g) (a : α) (ha : a ∈ g.2) : (gs.flatMap Prod.snd)[k]? = some a := by
  induction gs generalizing k with
  | nil => simp at hk
  | cons g0 gs ih =>
    obtain ⟨b, hb⟩ := h g0 List.mem_cons_self
    rw [List.flatMap_cons, hb]
    cases k with
    | zero =>
      simp only [List.getElem?_cons_zero, Option.some.injEq] at hk
      subst hk
      rw [hb, List.mem_singleton] at ha
      simp [ha]
    | succ k =>
      simp only [List.getElem?_cons_succ] at hk
      simpa using ih (fun g' hg' => h g' (List.mem_cons_of_mem _ hg')) k hk

theorem getLine_magic (m rest : Text) (h : '\n' ∉ m) : getLine (m ++ '\n' :: rest) = (m, ⟨rest, false, false⟩) := by
  unfold getLine
  obtain ⟨h1, h2⟩ := takeWhile_stop (fun c => decide (c ≠ '\n')) m '\n' rest
    (fun d hd => by simp; intro e; exact h (e ▸ hd)) (by simp)
  rw [h1, h2]

end Verif.Prt
