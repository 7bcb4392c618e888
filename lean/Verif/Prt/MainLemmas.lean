import Verif.Prt.LoadLemmas

/-! The round trip of portal files. -/

namespace Verif.Prt

open Verif Spec

variable {V : Type}

/-- The numbering of a tree. -/
abbrev num (t : Tree V) : Num := numberLeafs t (-1) Num.zero

theorem num_leafs (t : Tree V) : (num t).leafs = (openLeafs t).length := by
  rw [num, number_leafs]; simp [Num.zero]

theorem num_clusters (t : Tree V) : (num t).clusters = (clusters t).length := by
  rw [num, (number_clusters_out t _ (by omega) _).1]; simp [Num.zero]

theorem num_detail (t : Tree V) : (num t).detail = hasDetail t := by
  rw [num, (number_clusters_out t _ (by omega) _).2]; simp [Num.zero]

theorem num_portals (t : Tree V) (h : VisPortals t) : (num t).portals = (portals t).length := by
  rw [num, number_portals_out t _ (by omega) _ h]; simp [Num.zero]

theorem num_cluster (t : Tree V) (h : (ids t).Nodup) (k : Nat) (g : Id × List Id) (hg : (clusters t)[k]? = some g) :
    (num t).cluster g.1 = some (k : Int) ∧ ∀ i ∈ g.2, (num t).cluster i = some (k : Int) := by
  have := number_cluster_out t (-1) (by omega) Num.zero h k g hg
  rw [show Num.zero.clusters = 0 from rfl, Nat.zero_add] at this
  exact this

theorem num_leafnum (t : Tree V) (h : (ids t).Nodup) (k : Nat) (i : Id) (hi : (openLeafs t)[k]? = some i) :
    (num t).leafnum i = some (k : Int) := by
  have := number_leafnum t (-1) Num.zero h k i hi
  rw [show Num.zero.leafs = 0 from rfl, Nat.zero_add] at this
  exact this

theorem fit_cluster (t : Tree V) (hf : Fits t) : ∀ p ∈ portals t, PortalFit (num t).cluster (clusters t).length p := by
  intro p hp
  obtain ⟨h0, h64⟩ := hf.points p hp
  have hr := (cluster_range t (-1) Num.zero (by simp [Num.zero]) (by intro j v h; simp [Num.zero] at h)).2
  have e := num_clusters t
  rw [num] at e
  rw [e] at hr
  exact ⟨h0, h64, hr _, hr _⟩

theorem fit_leafnum (t : Tree V) (hf : Fits t) : ∀ p ∈ portals t, PortalFit (num t).leafnum (openLeafs t).length p := by
  intro p hp
  obtain ⟨h0, h64⟩ := hf.points p hp
  have hr := leafnum_range t (-1) Num.zero (by intro j v h; simp [Num.zero] at h)
  have e := num_leafs t
  rw [num] at e
  rw [e] at hr
  exact ⟨h0, h64, hr _, hr _⟩

/-- A field that holds the number of the cluster in every cluster. -/
def Numbers (t : Tree V) (field : Id → Option Int) : Prop :=
  ∀ (k : Nat) (g : Id × List Id), (clusters t)[k]? = some g → field g.1 = some (k : Int)

theorem numbers_leafnum (t : Tree V) (hn : (ids t).Nodup) (hd : hasDetail t = false) : Numbers t (num t).leafnum := by
  intro k g hg
  rw [clusters_no_detail t hd, List.getElem?_map] at hg
  cases h : (openLeafs t)[k]? with
  | none => simp [h] at hg
  | some i =>
    simp only [h, Option.map_some, Option.some.injEq] at hg
    subst hg
    exact num_leafnum t hn k i h

theorem joins_of_rel (t : Tree V) (hf : Fits t) (snap : V → V) (field : Id → Option Int) (hnum : Numbers t field)
    (p : Portal V) (hp : p ∈ portals t) (q : PrtPortal V) (h : PortalRel snap field p q) : Joins t snap p q := by
  obtain ⟨a, b, ha, hb, rfl⟩ := h
  obtain ⟨ga, hga, ea⟩ := portals_front t p hp
  obtain ⟨gb, hgb, eb⟩ := hf.ends p hp
  obtain ⟨ka, ha'⟩ := List.getElem?_of_mem hga
  obtain ⟨kb, hb'⟩ := List.getElem?_of_mem hgb
  have e1 := hnum ka ga ha'
  have e2 := hnum kb gb hb'
  rw [ea, ha] at e1
  rw [eb, hb] at e2
  simp only [Option.some.injEq] at e1 e2
  refine ⟨ka, kb, ga, gb, ha', ea, hb', eb, ?_, rfl⟩
  unfold filePortal
  cases p.flip <;> simp [e1, e2]

theorem forall₂_of_mem {α β : Type} {R S : α → β → Prop} {xs : List α} {ys : List β} (h : List.Forall₂ R xs ys)
    (hi : ∀ x ∈ xs, ∀ y, R x y → S x y) : List.Forall₂ S xs ys := by
  induction h with
  | nil => exact List.Forall₂.nil
  | cons h1 h2 ih =>
    exact List.Forall₂.cons (hi _ List.mem_cons_self _ h1) (ih fun x hx => hi x (List.mem_cons_of_mem _ hx))

theorem ws_nl : AllWs ['\n'] := by intro c hc; rw [List.mem_singleton.1 hc]; decide

theorem ws_nil : AllWs [] := by intro c hc; simp at hc

/-- The portals of a file that was written. -/
theorem portals_read {c : Coord V} {snap : V → V} (hc : CoordOk c snap) (t : Tree V) (hf : Fits t)
    (field : Id → Option Int) (hnum : Numbers t field) (n : Nat) (hn : n < 2147483647)
    (hfit : ∀ p ∈ portals t, PortalFit field n p) (txt : Text) (hw : writePortals c field t = .ok txt) (rest : Text) :
    ∃ qs w', AllWs w' ∧
      getPortals c n (portals t).length ⟨'\n' :: (txt ++ rest), false, false⟩ = .ok (qs, ⟨w' ++ rest, false, false⟩) ∧
      List.Forall₂ (Joins t snap) (portals t) qs := by
  obtain ⟨qs, w', hw', e, rel⟩ := tree_read hc field n (by omega) t txt hfit hw ['\n'] ws_nl rest
  exact ⟨qs, w', hw', e, forall₂_of_mem rel fun p hp q => joins_of_rel t hf snap field hnum p hp q⟩

theorem two_ints (a b : Nat) (ha : a < 2147483647) (hb : b < 2147483647) (rest : Text) :
    getInt ⟨intText a ++ '\n' :: (intText b ++ '\n' :: rest), false, false⟩ =
      (some (a : Int), ⟨'\n' :: (intText b ++ '\n' :: rest), false, false⟩) ∧
    getInt ⟨'\n' :: (intText b ++ '\n' :: rest), false, false⟩ = (some (b : Int), ⟨'\n' :: rest, false, false⟩) := by
  constructor
  · exact getInt_text [] ws_nil a (by omega) (by omega) '\n' (by decide) _
  · exact getInt_text ['\n'] ws_nl b (by omega) (by omega) '\n' (by decide) _

/-- The identity map is the cluster map when every cluster has one leaf. -/
theorem identity_is_map (t : Tree V) (hn : (ids t).Nodup) (hs : ∀ g ∈ clusters t, ∃ a, g.2 = [a])
    (hlen : (openLeafs t).length = (clusters t).length) (hfit : (openLeafs t).length < 2147483647) :
    ∃ m, (do let t' ← table (clusters t).length; identityMap (clusters t).length 0 t') = Run.ok m ∧ ClusterMap t m := by
  have ht : table (clusters t).length = .ok (List.replicate ((clusters t).length + 1) 0) := by
    unfold table
    rw [if_neg (by omega), if_neg (by omega)]
    rfl
  obtain ⟨m, e, hl, _, hnew⟩ := identityMap_ok (clusters t).length 0 (List.replicate ((clusters t).length + 1) 0) (by simp)
  refine ⟨m, by rw [ht]; exact e, by simpa [hlen] using hl, fun n k i g hi hg hig => ?_⟩
  have h1 := singletons_index (clusters t) hs k g hg i hig
  rw [flatten_clusters] at h1
  obtain ⟨l1, e1⟩ := List.getElem?_eq_some_iff.1 hi
  obtain ⟨l2, e2⟩ := List.getElem?_eq_some_iff.1 h1
  have : n = k := (List.getElem_inj (openLeafs_nodup t hn)).1 (e1.trans e2.symm)
  subst this
  exact hnew n (by omega) (by omega)

/-- The cluster map of a PRT2 file. -/
theorem map_is_map (t : Tree V) (hf : Fits t) (m : Text × Int) (hm : writeMapping (num t) t 0 = .ok m)
    (hend : m.2 = ((clusters t).length : Int) - 1) (w : Text) (hw : AllWs w) :
    ∃ r, (do let t' ← table (openLeafs t).length
             readClusters (openLeafs t).length (clusters t).length 0 t' ⟨w ++ (m.1 ++ ['-', '1', '\n']), false, false⟩) =
        Run.ok r ∧ ClusterMap t r := by
  rw [writeMapping_list] at hm
  have hcl : ∀ i ∈ openLeafs t, ∃ (k : Nat) (g : Id × List Id), (clusters t)[k]? = some g ∧ i ∈ g.2 := by
    intro i hi
    rw [← flatten_clusters] at hi
    obtain ⟨g, hg, hig⟩ := List.mem_flatMap.1 hi
    obtain ⟨k, hk⟩ := List.getElem?_of_mem hg
    exact ⟨k, g, hk, hig⟩
  let xs : List (Nat × Int × Id) := (openLeafs t).zipIdx.map fun x => (x.2, ((num t).cluster x.1).getD 0, x.1)
  have hids : xs.map (fun x => x.2.2) = openLeafs t := by
    simp only [xs, List.map_map]
    exact List.zipIdx_map_fst 0 _
  have hfst : (xs.map fun x => (x.1, x.2.1)).map Prod.fst = List.range (openLeafs t).length := by
    simp only [xs, List.map_map]
    rw [show (Prod.fst ∘ (fun x : Nat × Int × Id => (x.1, x.2.1)) ∘ fun x : Id × Nat =>
      (x.2, ((num t).cluster x.1).getD 0, x.1)) = Prod.snd from rfl]
    rw [List.zipIdx_map_snd, List.range_eq_range']
  have hx : ∀ x ∈ xs, (num t).leafnum x.2.2 = some (x.1 : Int) ∧ (num t).cluster x.2.2 = some x.2.1 ∧
      (x.1 : Int) < ((openLeafs t).length : Int) := by
    intro x hx
    obtain ⟨y, hy, rfl⟩ := List.mem_map.1 hx
    obtain ⟨i, n⟩ := y
    have hget := List.mk_mem_zipIdx_iff_getElem?.1 hy
    obtain ⟨k, g, hg, hig⟩ := hcl i (List.mem_of_getElem? hget)
    have hc := (num_cluster t hf.distinct k g hg).2 i hig
    refine ⟨num_leafnum t hf.distinct n i hget, by simp [hc], ?_⟩
    have := (List.getElem?_eq_some_iff.1 hget).1
    simp only
    omega
  obtain ⟨mt, mj⟩ := m
  simp only at hend
  have hpos : 0 < (clusters t).length := by
    have : (0 : Int) ≤ mj := by
      rcases Nat.eq_zero_or_pos (clusters t).length with h0 | h0
      · have : clusters t = [] := List.length_eq_zero_iff.1 h0
        have ho : openLeafs t = [] := by rw [← flatten_clusters, this]; rfl
        rw [ho] at hm
        simp only [mapList, Run.ok.injEq, Prod.mk.injEq] at hm
        omega
      · omega
    omega
  obtain ⟨n, hn⟩ : ∃ n, (clusters t).length = n + 1 := ⟨(clusters t).length - 1, by omega⟩
  have ht : table (openLeafs t).length = .ok (List.replicate ((openLeafs t).length + 1) 0) := by
    have := hf.leafs_fit
    unfold table
    rw [if_neg (by omega), if_neg (by omega)]
    rfl
  have e := map_read (num t) (openLeafs t).length (by have := hf.leafs_fit; omega) xs hx 0 mj mt n
    (by rw [hids]; exact hm) (by omega) (List.replicate ((openLeafs t).length + 1) 0) (by simp) w hw
  refine ⟨setAll (List.replicate ((openLeafs t).length + 1) 0) (xs.map fun x => (x.1, x.2.1)), ?_, ?_, ?_⟩
  · rw [ht, hn]
    exact e
  · rw [setAll_length]; simp
  · intro k j i g hi hg hig
    have hc := (num_cluster t hf.distinct j g hg).2 i hig
    refine setAll_mem _ _ (by rw [hfst]; exact List.nodup_range) k j ?_ ?_
    · refine List.mem_map.2 ⟨(k, ((num t).cluster i).getD 0, i), ?_, ?_⟩
      · exact List.mem_map.2 ⟨(i, k), List.mk_mem_zipIdx_iff_getElem?.2 hi, rfl⟩
      · simp [hc]
    · have := (List.getElem?_eq_some_iff.1 hi).1
      simp; omega

end Verif.Prt
