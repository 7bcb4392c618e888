import Verif.Prt.MainLemmas

/-!
Properties of portal files: C14 (numbering of clusters), C15 (the cluster map survives the file), C16 (loading a portal
file).
-/

namespace Verif.Prt

open Verif Spec

variable {V : Type}

/-! ### C14 -/

/-- C14. Every open leaf belongs to exactly one of the clusters of the tree and gets its number; leafs are numbered in the
order of the tree; solid leafs get no numbers; the counters are the numbers of leafs and clusters. Clusters may be empty
(`empty_cluster`), so not every number is used by a leaf (see `every_cluster_used_partial`). -/
theorem numbering (t : Tree V) (h : (ids t).Nodup) :
    (numberLeafs t (-1) Num.zero).clusters = (clusters t).length ∧
    (numberLeafs t (-1) Num.zero).leafs = (openLeafs t).length ∧
    (∀ i ∈ openLeafs t, ∃ (k : Nat) (g : Id × List Id), (clusters t)[k]? = some g ∧ i ∈ g.2 ∧
      ∀ (k' : Nat) (g' : Id × List Id), (clusters t)[k']? = some g' → i ∈ g'.2 → k' = k) ∧
    (∀ (k : Nat) (g : Id × List Id), (clusters t)[k]? = some g →
      ∀ i ∈ g.2, (numberLeafs t (-1) Num.zero).cluster i = some (k : Int)) ∧
    (∀ (n : Nat) (i : Id), (openLeafs t)[n]? = some i →
      (numberLeafs t (-1) Num.zero).leafnum i = some (n : Int)) ∧
    (∀ i ∈ solidLeafs t, (numberLeafs t (-1) Num.zero).leafnum i = some (-1) ∧
      (numberLeafs t (-1) Num.zero).cluster i = some (-1)) := by
  refine ⟨num_clusters t, num_leafs t, fun i hi => ?_, fun k g hg => (num_cluster t h k g hg).2,
    fun n i hi => num_leafnum t h n i hi, fun i hi => number_solid t _ _ h i hi⟩
  rw [← flatten_clusters] at hi
  obtain ⟨g, hg, hig⟩ := List.mem_flatMap.1 hi
  obtain ⟨k, hk⟩ := List.getElem?_of_mem hg
  refine ⟨k, g, hk, hig, fun k' g' hk' hig' => ?_⟩
  have h1 := (num_cluster t h k g hk).2 i hig
  have h2 := (num_cluster t h k' g' hk').2 i hig'
  rw [h1] at h2
  simp only [Option.some.injEq] at h2
  omega

/-- C14. All leafs below a detail separator that is not itself below one share a cluster, which is also the number of the
separator; leafs of other clusters have other numbers. -/
theorem detail_shares_cluster (t : Tree V) (h : (ids t).Nodup) (g g' : Id × List Id) (hg : g ∈ clusters t)
    (hg' : g' ∈ clusters t) (i j : Id) (hi : i ∈ g.2) (hj : j ∈ g'.2) :
    (numberLeafs t (-1) Num.zero).cluster i = (numberLeafs t (-1) Num.zero).cluster g.1 ∧
    ((numberLeafs t (-1) Num.zero).cluster i = (numberLeafs t (-1) Num.zero).cluster j ↔ g = g') := by
  obtain ⟨k, hk⟩ := List.getElem?_of_mem hg
  obtain ⟨k', hk'⟩ := List.getElem?_of_mem hg'
  have h1 := num_cluster t h k g hk
  have h2 := num_cluster t h k' g' hk'
  rw [h1.2 i hi, h1.1, h2.2 j hj]
  refine ⟨rfl, fun e => ?_, fun e => ?_⟩
  · simp only [Option.some.injEq] at e
    have : k = k' := by omega
    subst this
    rw [hk] at hk'
    exact Option.some.inj hk'
  · subst e
    have := h1.1
    rw [h2.1] at this
    exact this.symm

/-- C14, as far as it holds: when no cluster is empty, every number below the count is the cluster of a leaf. Missing:
a detail separator with only solid leafs below it (`empty_cluster`). -/
theorem every_cluster_used_partial (t : Tree V) (h : (ids t).Nodup) (hne : ∀ g ∈ clusters t, g.2 ≠ []) (k : Nat)
    (hk : k < (numberLeafs t (-1) Num.zero).clusters) :
    ∃ i ∈ openLeafs t, (numberLeafs t (-1) Num.zero).cluster i = some (k : Int) := by
  have hk' : k < (clusters t).length := (num_clusters t) ▸ hk
  have hg := List.getElem?_eq_getElem hk'
  have hm := List.getElem_mem hk'
  obtain ⟨i, hi⟩ := List.exists_mem_of_ne_nil _ (hne _ hm)
  refine ⟨i, ?_, (num_cluster t h k _ hg).2 i hi⟩
  rw [← flatten_clusters]
  exact List.mem_flatMap.2 ⟨_, hm, hi⟩

/-- A tree: a room, a group of detail with a solid and two open leafs, and a room. -/
def sample : Tree Int :=
  .node 0 false [] (.leaf 1 false [])
    (.node 2 false []
      (.node 3 true [] (.leaf 4 true []) (.node 5 true [] (.leaf 6 false []) (.leaf 7 false [])))
      (.leaf 8 false []))

example : (ids sample).Nodup ∧ clusters sample = [(1, [1]), (3, [6, 7]), (8, [8])] ∧ openLeafs sample = [1, 6, 7, 8] ∧
    solidLeafs sample = [4] ∧ ∀ g ∈ clusters sample, g.2 ≠ [] := by decide

/-- A group of detail with only solid leafs still takes a number: cluster 0 has no leaf. -/
theorem empty_cluster :
    let t : Tree Int := .node 0 false [] (.node 1 true [] (.leaf 2 true []) (.leaf 3 true [])) (.leaf 4 false [])
    (ids t).Nodup ∧ (numberLeafs t (-1) Num.zero).clusters = 2 ∧
    ∀ i ∈ openLeafs t, (numberLeafs t (-1) Num.zero).cluster i = some 1 := by
  decide +kernel

/-! ### C15 -/

/-- C15, as far as it holds. A PRT2 file that was written is read back: the numbers of leafs and clusters, every portal
with the clusters it joins, and the cluster of every leaf. Missing: a tree with as many clusters as leafs and an empty
cluster (`mapping_lost`). -/
theorem prt2_roundtrip_partial {c : Coord V} {snap : V → V} (hc : CoordOk c snap) (t : Tree V) (hf : Fits t)
    (hd : hasDetail t = true)
    (hg : (openLeafs t).length ≠ (clusters t).length ∨ ∀ g ∈ clusters t, g.2 ≠ []) (txt : Text)
    (hw : writePrt c false false t = .ok txt) :
    ∃ f, loadPrt c false txt = .ok f ∧ f.portalleafs = (clusters t).length ∧ f.real = (openLeafs t).length ∧
      List.Forall₂ (Joins t snap) (portals t) f.portals ∧ ClusterMap t f.clusters := by
  have e1 := num_leafs t
  have e2 := num_clusters t
  have e3 := num_portals t hf.made
  have e4 := num_detail t
  have l1 := hf.leafs_fit
  have l2 := hf.clusters_fit
  have l3 := hf.portals_fit
  simp only [writePrt, Bool.false_eq_true, if_false] at hw
  rw [show numberLeafs t (-1) Num.zero = num t from rfl] at hw
  rw [e1, e2, e3, e4, if_neg (by simp [hd])] at hw
  obtain ⟨ps, hps, hw⟩ := Run.bind_eq_ok.1 hw
  obtain ⟨m, hm, hw⟩ := Run.bind_eq_ok.1 hw
  split at hw
  · exact absurd hw (by simp)
  rename_i hend
  simp only [Run.pure_eq, Run.ok.injEq] at hw
  subst hw
  have hnum : Numbers t (num t).cluster := fun k g hg => (num_cluster t hf.distinct k g hg).1
  obtain ⟨qs, w', hw', e, rel⟩ := portals_read hc t hf (num t).cluster hnum (clusters t).length l2 (fit_cluster t hf) ps hps
    (m.1 ++ ['-', '1', '\n'])
  have hmap : ∃ r, readMap false .prt2 (clusters t).length (openLeafs t).length
      ⟨w' ++ (m.1 ++ ['-', '1', '\n']), false, false⟩ = .ok r ∧ ClusterMap t r := by
    simp only [readMap, Bool.false_eq_true, if_false]
    by_cases heq : (clusters t).length = (openLeafs t).length
    · have hne := hg.resolve_left (by omega)
      rw [if_pos (by omega)]
      have hs := singletons (clusters t) hne (by rw [flatten_clusters, heq])
      obtain ⟨r, hr, hcm⟩ := identity_is_map t hf.distinct hs heq.symm l1
      exact ⟨r, by rw [show (((clusters t).length : Nat) : Int).toNat = (clusters t).length by omega]; exact hr, hcm⟩
    · rw [if_neg (by omega)]
      obtain ⟨r, hr, hcm⟩ := map_is_map t hf m hm (by simpa using hend) w' hw'
      exact ⟨r, by rw [show (((clusters t).length : Nat) : Int).toNat = (clusters t).length by omega]; exact hr, hcm⟩
  obtain ⟨r, hr, hcm⟩ := hmap
  refine ⟨⟨(clusters t).length, (openLeafs t).length, qs, r⟩, ?_, rfl, rfl, rel, hcm⟩
  unfold loadPrt
  have hline := getLine_magic "PRT2".toList (intText (openLeafs t).length ++ '\n' :: (intText (clusters t).length ++ '\n' ::
    (intText (portals t).length ++ '\n' :: (ps ++ (m.1 ++ ['-', '1', '\n']))))) (by decide)
  rw [show ("PRT2\n".toList ++ intText (openLeafs t).length ++ '\n' :: (intText (clusters t).length ++ '\n' ::
    (intText (portals t).length ++ '\n' :: (ps ++ (m.1 ++ ['-', '1', '\n'])))) : Text) = "PRT2".toList ++ '\n' ::
    (intText (openLeafs t).length ++ '\n' :: (intText (clusters t).length ++ '\n' ::
    (intText (portals t).length ++ '\n' :: (ps ++ (m.1 ++ ['-', '1', '\n']))))) from by
      rw [show "PRT2\n".toList = "PRT2".toList ++ ['\n'] from by decide]; simp, hline]
  have i1 := two_ints (openLeafs t).length (clusters t).length l1 l2
    (intText (portals t).length ++ '\n' :: (ps ++ (m.1 ++ ['-', '1', '\n'])))
  have i2 := (two_ints (clusters t).length (portals t).length l2 l3 (ps ++ (m.1 ++ ['-', '1', '\n']))).2
  simp only [readHeader]
  rw [if_neg (by decide), if_neg (by decide), if_pos trivial]
  simp only [Bool.false_eq_true, if_false, i1.1, i1.2, i2, orZero, Option.getD_some, Run.ok_bind, Run.use]
  rw [show (((portals t).length : Nat) : Int).toNat = (portals t).length by omega, e]
  simp only [Run.ok_bind, hr]
  rfl

/-- C15. The PRT1 file of a tree without detail. -/
theorem prt1_roundtrip {c : Coord V} {snap : V → V} (hc : CoordOk c snap) (t : Tree V) (hf : Fits t)
    (hd : hasDetail t = false) (forceprt1 : Bool) (txt : Text) (hw : writePrt c false forceprt1 t = .ok txt) :
    ∃ f, loadPrt c false txt = .ok f ∧ f.portalleafs = (clusters t).length ∧ f.real = (openLeafs t).length ∧
      List.Forall₂ (Joins t snap) (portals t) f.portals ∧ ClusterMap t f.clusters := by
  have hlen : (openLeafs t).length = (clusters t).length := by rw [clusters_no_detail t hd]; simp
  have e1 := num_leafs t
  have e3 := num_portals t hf.made
  have e4 := num_detail t
  have l2 := hf.clusters_fit
  have l3 := hf.portals_fit
  simp only [writePrt, Bool.false_eq_true, if_false] at hw
  rw [show numberLeafs t (-1) Num.zero = num t from rfl] at hw
  rw [e1, e3, e4, if_pos hd, hlen] at hw
  obtain ⟨ps, hps, hw⟩ := Run.bind_eq_ok.1 hw
  simp only [Run.pure_eq, Run.ok.injEq] at hw
  subst hw
  have hnum := numbers_leafnum t hf.distinct hd
  have hfit := fit_leafnum t hf
  rw [hlen] at hfit
  obtain ⟨qs, w', hw', e, rel⟩ := portals_read hc t hf (num t).leafnum hnum (clusters t).length l2 hfit ps hps []
  have hs : ∀ g ∈ clusters t, ∃ a, g.2 = [a] := by
    rw [clusters_no_detail t hd]
    intro g hg
    obtain ⟨i, _, rfl⟩ := List.mem_map.1 hg
    exact ⟨i, rfl⟩
  obtain ⟨r, hr, hcm⟩ := identity_is_map t hf.distinct hs hlen hf.leafs_fit
  refine ⟨⟨(clusters t).length, (clusters t).length, qs, r⟩, ?_, rfl, by simp [hlen], rel, hcm⟩
  unfold loadPrt
  have hline := getLine_magic "PRT1".toList (intText (clusters t).length ++ '\n' ::
    (intText (portals t).length ++ '\n' :: ps)) (by decide)
  rw [show ("PRT1\n".toList ++ intText (clusters t).length ++ '\n' :: (intText (portals t).length ++ '\n' :: ps) : Text) =
    "PRT1".toList ++ '\n' :: (intText (clusters t).length ++ '\n' ::
    (intText (portals t).length ++ '\n' :: ps)) from by
      rw [show "PRT1\n".toList = "PRT1".toList ++ ['\n'] from by decide]; simp, hline]
  have i1 := two_ints (clusters t).length (portals t).length l2 l3 ps
  simp only [readHeader]
  rw [if_neg (by decide), if_pos trivial]
  simp only [Bool.false_eq_true, if_false, i1.1, i1.2, orZero, Option.getD_some, Run.ok_bind, Run.use]
  rw [List.append_nil] at e
  rw [show (((portals t).length : Nat) : Int).toNat = (portals t).length by omega, e]
  simp only [Run.ok_bind, readMap, Bool.false_eq_true, if_false, if_true]
  rw [show (((clusters t).length : Nat) : Int).toNat = (clusters t).length by omega, hr]
  rfl

/-- C15. The PRT1 file for Quake II: the leafs of the file are the clusters. -/
theorem q2_roundtrip {c : Coord V} {snap : V → V} (hc : CoordOk c snap) (t : Tree V) (hf : Fits t) (forceprt1 : Bool)
    (txt : Text) (hw : writePrt c true forceprt1 t = .ok txt) :
    ∃ f, loadPrt c true txt = .ok f ∧ f.portalleafs = (clusters t).length ∧
      List.Forall₂ (Joins t snap) (portals t) f.portals := by
  have e2 := num_clusters t
  have e3 := num_portals t hf.made
  have l2 := hf.clusters_fit
  have l3 := hf.portals_fit
  simp only [writePrt, if_true] at hw
  rw [show numberLeafs t (-1) Num.zero = num t from rfl] at hw
  rw [e2, e3] at hw
  obtain ⟨ps, hps, hw⟩ := Run.bind_eq_ok.1 hw
  simp only [Run.pure_eq, Run.ok.injEq] at hw
  subst hw
  have hnum : Numbers t (num t).cluster := fun k g hg => (num_cluster t hf.distinct k g hg).1
  obtain ⟨qs, w', hw', e, rel⟩ := portals_read hc t hf (num t).cluster hnum (clusters t).length l2 (fit_cluster t hf) ps hps []
  refine ⟨⟨(clusters t).length, 0, qs, []⟩, ?_, rfl, rel⟩
  unfold loadPrt
  have hline := getLine_magic "PRT1".toList (intText (clusters t).length ++ '\n' ::
    (intText (portals t).length ++ '\n' :: ps)) (by decide)
  rw [show ("PRT1\n".toList ++ intText (clusters t).length ++ '\n' :: (intText (portals t).length ++ '\n' :: ps) : Text) =
    "PRT1".toList ++ '\n' :: (intText (clusters t).length ++ '\n' ::
    (intText (portals t).length ++ '\n' :: ps)) from by
      rw [show "PRT1\n".toList = "PRT1".toList ++ ['\n'] from by decide]; simp, hline]
  have i1 := two_ints (clusters t).length (portals t).length l2 l3 ps
  simp only [readHeader]
  rw [if_neg (by decide), if_pos trivial]
  simp only [if_true, i1.1, i1.2, orZero, Option.getD_some, Run.ok_bind, Run.use]
  rw [List.append_nil] at e
  rw [show (((portals t).length : Nat) : Int).toNat = (portals t).length by omega, e]
  simp [readMap]

/-! ### Writing succeeds -/

theorem lines_ok (c : Coord V) (field : Id → Option Int) (id : Id) (ps : List (Portal V))
    (h : ∀ p ∈ ps, p.front = id → p.flood = true →
      (∃ a : Nat, field p.front = some (a : Int)) ∧ ∃ b : Nat, field p.back = some (b : Int)) :
    ∃ txt, portalLines c field id ps = .ok txt := by
  induction ps with
  | nil => exact ⟨[], rfl⟩
  | cons p ps ih =>
    obtain ⟨r, hr⟩ := ih fun q hq => h q (List.mem_cons_of_mem _ hq)
    simp only [portalLines]
    by_cases hsel : p.points.length = 0 ∨ p.front ≠ id ∨ p.flood = false
    · exact ⟨r, by rw [if_pos hsel]; exact hr⟩
    · rw [if_neg hsel]
      simp only [not_or, ne_eq, Decidable.not_not, Bool.not_eq_false] at hsel
      obtain ⟨⟨a, ha⟩, b, hb⟩ := h p List.mem_cons_self hsel.2.1 hsel.2.2
      simp only [ha, hb, Run.use, Run.ok_bind]
      rw [if_neg (by omega), hr]
      exact ⟨_, rfl⟩

theorem portals_ok (c : Coord V) (field : Id → Option Int) (t : Tree V)
    (h : ∀ p ∈ portals t, (∃ a : Nat, field p.front = some (a : Int)) ∧ ∃ b : Nat, field p.back = some (b : Int)) :
    ∃ txt, writePortals c field t = .ok txt := by
  induction t with
  | leaf id solid ps =>
    cases solid
    · refine lines_ok c field id ps fun p hp h1 h2 => h p ?_
      simp [portals, hp, h1, h2]
    · exact ⟨[], rfl⟩
  | node id detail ps l r hl hr =>
    cases detail
    · simp only [portals, Bool.false_eq_true, if_false, List.mem_append] at h
      obtain ⟨a, ha⟩ := hl fun p hp => h p (Or.inl hp)
      obtain ⟨b, hb⟩ := hr fun p hp => h p (Or.inr hp)
      exact ⟨a ++ b, by simp [writePortals, ha, hb]⟩
    · simp only [writePortals, if_true]
      refine lines_ok c field id ps fun p hp h1 h2 => h p ?_
      simp [portals, hp, h1, h2]

theorem mapList_same (st : Num) (k : Nat) (is : List Id) (hi : ∀ i ∈ is, (∃ n, st.leafnum i = some n) ∧
    st.cluster i = some (k : Int)) : ∃ txt, mapList st is k = .ok (txt, (k : Int)) := by
  induction is with
  | nil => exact ⟨[], rfl⟩
  | cons i is ih =>
    obtain ⟨⟨n, hn⟩, hc⟩ := hi i List.mem_cons_self
    obtain ⟨r, hr⟩ := ih fun j hj => hi j (List.mem_cons_of_mem _ hj)
    exact ⟨_, by simp [mapList, writeMapping, hn, hc, Run.use, hr]; rfl⟩

theorem mapList_groups (st : Num) (gs : List (Id × List Id)) (k : Nat) (vc : Int) (hv : vc = k ∨ vc + 1 = k)
    (hne : ∀ g ∈ gs, g.2 ≠ [])
    (hg : ∀ (j : Nat) (g : Id × List Id), gs[j]? = some g → ∀ i ∈ g.2, (∃ n, st.leafnum i = some n) ∧
      st.cluster i = some ((k + j : Nat) : Int)) :
    ∃ txt, mapList st (gs.flatMap Prod.snd) vc = .ok (txt, if gs = [] then vc else ((k + gs.length : Nat) : Int) - 1) := by
  induction gs generalizing k vc with
  | nil => exact ⟨[], by simp [mapList]⟩
  | cons g gs ih =>
    have h0 : ∀ i ∈ g.2, (∃ n, st.leafnum i = some n) ∧ st.cluster i = some (k : Int) := by
      intro i hi; simpa using hg 0 g rfl i hi
    obtain ⟨r, hr⟩ := ih (k + 1) k (Or.inr (by omega)) (fun g' hg' => hne g' (List.mem_cons_of_mem _ hg'))
      (fun j g' hj i hi => by
        have := hg (j + 1) g' (by simpa using hj) i hi
        rw [show k + 1 + j = k + (j + 1) by omega]; exact this)
    have hfirst : ∃ txt, mapList st g.2 vc = .ok (txt, (k : Int)) := by
      cases hgl : g.2 with
      | nil => exact absurd hgl (hne g List.mem_cons_self)
      | cons i is =>
        rw [hgl] at h0
        obtain ⟨⟨n, hn⟩, hc⟩ := h0 i List.mem_cons_self
        obtain ⟨q, hq⟩ := mapList_same st k is fun j hj => h0 j (List.mem_cons_of_mem _ hj)
        simp only [mapList, writeMapping, hn, hc, Run.use, Run.ok_bind]
        rcases hv with rfl | hv
        · rw [if_neg (by simp)]
          simp only [Run.pure_eq, Run.ok_bind, hq]
          exact ⟨_, rfl⟩
        · rw [if_pos (by omega), if_neg (by omega)]
          simp only [Run.pure_eq, Run.ok_bind]
          rw [hv, hq]
          exact ⟨_, rfl⟩
    obtain ⟨q, hq⟩ := hfirst
    rw [List.flatMap_cons, mapList_append, hq]
    simp only [Run.ok_bind, hr, Run.pure_eq]
    refine ⟨q ++ r, ?_⟩
    congr 2
    simp only [List.cons_ne_nil, if_false, List.length_cons]
    split
    · rename_i h; subst h; simp
    · congr 1; omega

/-- C15. A portal file is written for every tree without empty clusters. -/
theorem write_succeeds (c : Coord V) (q2 forceprt1 : Bool) (t : Tree V) (hf : Fits t)
    (hne : ∀ g ∈ clusters t, g.2 ≠ []) : ∃ txt, writePrt c q2 forceprt1 t = .ok txt := by
  have hnum : Numbers t (num t).cluster := fun k g hg => (num_cluster t hf.distinct k g hg).1
  have hall : ∀ field, Numbers t field → ∃ txt, writePortals c field t = .ok txt := by
    intro field hn
    refine portals_ok c field t fun p hp => ?_
    obtain ⟨ga, hga, ea⟩ := portals_front t p hp
    obtain ⟨gb, hgb, eb⟩ := hf.ends p hp
    obtain ⟨ka, ha'⟩ := List.getElem?_of_mem hga
    obtain ⟨kb, hb'⟩ := List.getElem?_of_mem hgb
    exact ⟨⟨ka, ea ▸ hn ka ga ha'⟩, kb, eb ▸ hn kb gb hb'⟩
  obtain ⟨ps, hps⟩ := hall _ hnum
  have e2 := num_clusters t
  have e4 := num_detail t
  unfold writePrt
  simp only
  rw [show numberLeafs t (-1) Num.zero = num t from rfl]
  cases q2 with
  | true => exact ⟨_, by simp [hps]; rfl⟩
  | false =>
    simp only [Bool.false_eq_true, if_false]
    cases hd : (num t).detail with
    | false =>
      obtain ⟨ps', hps'⟩ := hall _ (numbers_leafnum t hf.distinct (by rw [← e4, hd]))
      exact ⟨_, by simp [hps']; rfl⟩
    | true =>
      cases forceprt1 with
      | true => exact ⟨_, by simp [hps]; rfl⟩
      | false =>
        obtain ⟨m, hm⟩ := mapList_groups (num t) (clusters t) 0 0 (Or.inl rfl) hne (fun j g hj i hi => by
          have hmem : i ∈ openLeafs t := by
            rw [← flatten_clusters]
            exact List.mem_flatMap.2 ⟨g, List.mem_of_getElem? hj, hi⟩
          obtain ⟨n, hn⟩ := List.getElem?_of_mem hmem
          exact ⟨⟨_, num_leafnum t hf.distinct n i hn⟩, by
            rw [Nat.zero_add]; exact (num_cluster t hf.distinct j g hj).2 i hi⟩)
        rw [flatten_clusters, ← writeMapping_list] at hm
        have hcl : clusters t ≠ [] := by
          have : hasDetail t = true := by rw [← e4, hd]
          have : ∀ t : Tree V, hasDetail t = true → clusters t ≠ [] := by
            intro t
            induction t with
            | leaf => simp [hasDetail]
            | node id detail ps l r hl hr =>
              intro h
              cases detail
              · simp only [hasDetail, Bool.false_or, Bool.or_eq_true] at h
                simp only [clusters, Bool.false_eq_true, if_false, ne_eq, List.append_eq_nil_iff, not_and]
                rcases h with h | h
                · intro h0; exact absurd h0 (hl h)
                · intro _; exact hr h
              · simp [clusters]
          exact this t ‹_›
        rw [if_neg hcl] at hm
        simp only [Bool.true_eq_false, if_false, hps, hm, Run.ok_bind, e2]
        simp only [Bool.false_eq_true, if_false, Nat.zero_add, ne_eq, not_true_eq_false]
        exact ⟨_, rfl⟩

/-! ### Non-vacuity and the missing part -/

/-- Integer coordinates, printed without a fraction (qbsp/prtfile.cc:43-44). -/
def intCoord : Coord Int where
  text := intText
  scan s :=
    match getInt ⟨s, false, false⟩ with
    | (some v, s') => if s'.fail then none else some (v, s'.chars)
    | (none, _) => none

/-- Coordinates are limited to `int`. -/
def clampCoord (v : Int) : Int := if v < -2147483648 then -2147483648 else if v > 2147483647 then 2147483647 else v

/-- Coordinates in the range of `int`. -/
def intCoord32 : Coord Int where
  text v := intText (clampCoord v)
  scan := intCoord.scan

theorem intCoord_ok : CoordOk intCoord32 clampCoord where
  starts v := by
    simp only [intCoord32, intText]
    split
    · exact ⟨_, _, rfl, by decide⟩
    · cases h : natText (clampCoord v).natAbs with
      | nil => exact absurd h (natText_ne _)
      | cons d ds => exact ⟨d, ds, rfl, (digit_not_ws (natText_digits (clampCoord v).natAbs d (by rw [h]; exact List.mem_cons_self))).1⟩
  reads v rest := by
    have h1 : -2147483648 ≤ clampCoord v := by unfold clampCoord; split <;> [omega; split <;> omega]
    have h2 : clampCoord v ≤ 2147483647 := by unfold clampCoord; split <;> [omega; split <;> omega]
    have := getInt_text [] ws_nil (clampCoord v) h1 h2 ' ' (by decide) rest
    rw [List.nil_append] at this
    simp [intCoord32, intCoord, this]

/-- A portal between two nodes. -/
def square (a b : Id) (flip : Bool) : Portal Int := ⟨a, b, true, flip, [(0, 0, 0), (64, 0, -8), (64, 64, 0)]⟩

/-- Three clusters in a row, the middle one a group of detail. -/
def sampleP : Tree Int :=
  .node 0 false [] (.leaf 1 false [square 1 3 false])
    (.node 2 false []
      (.node 3 true [square 1 3 false, square 3 8 true] (.leaf 4 true []) (.node 5 true [] (.leaf 6 false []) (.leaf 7 false [])))
      (.leaf 8 false [square 3 8 true]))

example : Fits sampleP ∧ hasDetail sampleP = true ∧ (openLeafs sampleP).length ≠ (clusters sampleP).length ∧
    (∀ g ∈ clusters sampleP, g.2 ≠ []) ∧ (portals sampleP).length = 2 :=
  ⟨⟨by decide, ⟨trivial, ⟨rfl, rfl, rfl⟩, trivial⟩, by decide, by decide, by decide, by decide, by decide⟩, by decide, by decide,
    by decide, by decide⟩

example : writePrt intCoord32 false false sampleP = .ok
    "PRT2\n4\n3\n2\n3 0 1 (0 0 0 ) (64 0 -8 ) (64 64 0 ) \n3 2 1 (0 0 0 ) (64 0 -8 ) (64 64 0 ) \n0 -1\n1 2 -1\n3 -1\n".toList := by
  decide +kernel

example : (match writePrt intCoord32 false false sampleP with
    | .ok txt => (match loadPrt intCoord32 false txt with | .ok f => some (f.clusters, f.portals.map fun p => (p.leaf0, p.leaf1)) | _ => none)
    | _ => none) = some ([0, 0, 1, 1, 2], [(0, 1), (2, 1)]) := by
  decide +kernel

/-- C15 is false of the code: a group of detail with only solid leafs, then one with two open leafs. There are as many
clusters as leafs, so vis ignores the cluster map of the file: it puts leaf 0 in cluster 0 instead of 1. -/
theorem mapping_lost :
    let t : Tree Int := .node 0 false [] (.node 1 true [] (.leaf 2 true []) (.leaf 3 true []))
      (.node 4 true [] (.leaf 5 false []) (.leaf 6 false []))
    Fits t ∧ (openLeafs t)[0]? = some 5 ∧ (numberLeafs t (-1) Num.zero).cluster 5 = some 1 ∧
    ∃ txt f, writePrt intCoord32 false false t = .ok txt ∧ loadPrt intCoord32 false txt = .ok f ∧
      f.clusters[1]? = some 0 := by
  refine ⟨⟨by decide, ⟨⟨rfl, rfl⟩, ⟨rfl, rfl⟩⟩, by decide, by decide, by decide, by decide, by decide⟩, rfl, rfl,
    "PRT2\n2\n2\n0\n-1\n0 1 -1\n".toList, ⟨2, 2, [], [0, 0, 1]⟩, ?_, ?_, rfl⟩ <;> decide +kernel

/-- Elsewhere in the tree, a group of detail with only solid leafs makes writing the file fail. -/
theorem empty_cluster_is_an_error :
    writePrt intCoord32 false false (.node 0 false [] (.leaf 1 false [])
      (.node 2 false [] (.node 3 true [] (.leaf 4 true []) (.leaf 5 true [])) (.leaf 6 false []))) = .error := by
  decide +kernel

end Verif.Prt
