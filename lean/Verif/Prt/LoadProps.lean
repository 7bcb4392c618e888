import Verif.Prt.Props

/-!
Property C16: loading a portal file. The property is false of the code in several ways; what holds is proved here.
-/

namespace Verif.Prt

open Verif Spec

variable {V : Type}

theorem getInt_range (s : TStream) (v : Int) (s' : TStream) (h : getInt s = (some v, s')) :
    -2147483648 ≤ v ∧ v ≤ 2147483647 := by
  unfold getInt at h
  split at h
  · simp at h
  · split at h
    · simp at h
    · simp only at h
      split at h
      · obtain ⟨h1, _⟩ := Prod.mk.inj h; simp only [Option.some.injEq] at h1; omega
      · generalize (if _ = true then _ else _ : Int) = z at h
        unfold clampInt at h
        split at h
        · obtain ⟨h1, _⟩ := Prod.mk.inj h; simp only [Option.some.injEq] at h1; omega
        · split at h
          · obtain ⟨h1, _⟩ := Prod.mk.inj h; simp only [Option.some.injEq] at h1; omega
          · obtain ⟨h1, _⟩ := Prod.mk.inj h; simp only [Option.some.injEq] at h1; omega

theorem getInt_value (s : TStream) (v : Int) (h : (getInt s).1 = some v) : -2147483648 ≤ v ∧ v ≤ 2147483647 := by
  rcases hg : getInt s with ⟨a, s'⟩
  rw [hg] at h
  simp only at h
  subst h
  exact getInt_range s v s' hg

theorem getPoints_length (c : Coord V) (n : Nat) (s : TStream) (r : List (V × V × V) × TStream)
    (h : getPoints c n s = .ok r) : r.1.length = n := by
  induction n generalizing s r with
  | zero => simp only [getPoints, Run.ok.injEq] at h; subst h; rfl
  | succ n ih =>
    simp only [getPoints] at h
    obtain ⟨p, hp, h⟩ := Run.bind_eq_ok.1 h
    obtain ⟨q, hq, h⟩ := Run.bind_eq_ok.1 h
    simp only [Run.pure_eq, Run.ok.injEq] at h
    subst h
    simp [ih _ _ hq]

theorem getPortal_bounds (c : Coord V) (n : Int) (hn : 0 ≤ n ∧ n ≤ 2147483647) (s : TStream) (r : PrtPortal V × TStream)
    (h : getPortal c n s = .ok r) :
    (0 ≤ r.1.leaf0 ∧ r.1.leaf0 ≤ n) ∧ (0 ≤ r.1.leaf1 ∧ r.1.leaf1 ≤ n) ∧ r.1.points.length ≤ 64 := by
  unfold getPortal at h
  simp only at h
  obtain ⟨np, h0, h⟩ := Run.bind_eq_ok.1 h
  split at h
  · exact absurd h (by simp)
  rename_i h64
  obtain ⟨l0, e0, h⟩ := Run.bind_eq_ok.1 h
  obtain ⟨l1, e1, h⟩ := Run.bind_eq_ok.1 h
  split at h
  · exact absurd h (by simp)
  rename_i hb
  obtain ⟨ps, hps, h⟩ := Run.bind_eq_ok.1 h
  simp only [Run.pure_eq, Run.ok.injEq] at h
  subst h
  rw [Run.use_eq_ok] at h0 e0 e1
  have r0 := getInt_value _ _ h0
  have r1 := getInt_value _ _ e0
  have r2 := getInt_value _ _ e1
  have hl := getPoints_length c _ _ _ hps
  simp only [toUnsigned, not_or] at hb
  simp only
  refine ⟨?_, ?_, ?_⟩ <;> omega

/-- C16. A portal with a negative number of points, or with more than 64, is refused. -/
theorem points_refused (c : Coord V) (n : Int) (s : TStream) (k : Int) (hk : k < 0 ∨ 64 < k)
    (h : (getInt s).1 = some k) : getPortal c n s = .error := by
  have hr := getInt_value s k h
  unfold getPortal
  simp only [h, Run.use, Run.ok_bind]
  rw [if_pos (by omega)]

example : getPortal intCoord32 2 ⟨"-3 0 1 (".toList, false, false⟩ = .error := by decide +kernel

theorem getPortals_bounds (c : Coord V) (n : Int) (hn : 0 ≤ n ∧ n ≤ 2147483647) (k : Nat) (s : TStream)
    (r : List (PrtPortal V) × TStream) (h : getPortals c n k s = .ok r) :
    r.1.length = k ∧ ∀ p ∈ r.1, (0 ≤ p.leaf0 ∧ p.leaf0 ≤ n) ∧ (0 ≤ p.leaf1 ∧ p.leaf1 ≤ n) ∧ p.points.length ≤ 64 := by
  induction k generalizing s r with
  | zero => simp only [getPortals, Run.ok.injEq] at h; subst h; simp
  | succ k ih =>
    simp only [getPortals] at h
    obtain ⟨p, hp, h⟩ := Run.bind_eq_ok.1 h
    obtain ⟨q, hq, h⟩ := Run.bind_eq_ok.1 h
    simp only [Run.pure_eq, Run.ok.injEq] at h
    subst h
    obtain ⟨l, a⟩ := ih _ _ hq
    refine ⟨by simp [l], fun x hx => ?_⟩
    rcases List.mem_cons.1 hx with rfl | hx
    · exact getPortal_bounds c n hn s p hp
    · exact a x hx

theorem orZero_range (s : TStream) : -2147483648 ≤ orZero (getInt s).1 ∧ orZero (getInt s).1 ≤ 2147483647 := by
  rcases h : (getInt s).1 with _ | v
  · simp [orZero]
  · have := getInt_value s v h
    simpa [orZero] using this

theorem readHeader_range (q2 : Bool) (m : Text) (s : TStream) (h : Magic × Int × Int × Option Int × TStream)
    (hh : readHeader q2 m s = .ok h) : h.2.1 ≤ 2147483647 := by
  unfold readHeader at hh
  split at hh
  · simp at hh
  · split at hh
    · simp only [Run.ok.injEq] at hh; subst hh; exact (orZero_range _).2
    · split at hh
      · split at hh
        · simp at hh
        · simp only [Run.ok.injEq] at hh; subst hh; exact (orZero_range _).2
      · split at hh
        · split at hh
          · simp at hh
          · simp only [Run.ok.injEq] at hh; subst hh; exact (orZero_range _).2
        · simp at hh

/-- C16, as far as it holds: every portal that is accepted refers to leafs from 0 up to and including the declared number
of leafs. Missing: the number itself is not refused (`leaf_beyond_table`); broken files are not always refused
(`truncated_hangs`, `short_header_undefined`, `am_map_outside`). -/
theorem portals_in_range_partial (c : Coord V) (q2 : Bool) (txt : Text) (f : PrtFile V) (h : loadPrt c q2 txt = .ok f)
    (hn : 0 ≤ f.portalleafs) :
    ∀ p ∈ f.portals, (0 ≤ p.leaf0 ∧ p.leaf0 ≤ f.portalleafs) ∧ (0 ≤ p.leaf1 ∧ p.leaf1 ≤ f.portalleafs) ∧
      p.points.length ≤ 64 := by
  unfold loadPrt at h
  obtain ⟨hd, hhd, h⟩ := Run.bind_eq_ok.1 h
  obtain ⟨n, _, h⟩ := Run.bind_eq_ok.1 h
  obtain ⟨ps, hps, h⟩ := Run.bind_eq_ok.1 h
  obtain ⟨m, _, h⟩ := Run.bind_eq_ok.1 h
  simp only [Run.pure_eq, Run.ok.injEq] at h
  subst h
  exact (getPortals_bounds c _ ⟨hn, readHeader_range _ _ _ _ hhd⟩ _ _ _ hps).2

/-! ### The cluster map -/

/-- An entry of the cluster map: not assigned (0), or a cluster. -/
def EntryOk (n : Int) (c : Int) : Prop := c = 0 ∨ (0 ≤ c ∧ c < n)

theorem readCluster_entries (n real i : Int) (hi : 0 ≤ i ∧ i < n) (t : List Int) (s : TStream) (r : List Int × TStream)
    (ht : ∀ c ∈ t, EntryOk n c) (h : readCluster real i t s = .ok r) :
    (∀ c ∈ r.1, EntryOk n c) ∧ r.1.length = t.length := by
  fun_induction readCluster real i t s with
  | case1 => simp only [Run.ok.injEq] at h; subst h; exact ⟨ht, rfl⟩
  | case2 => simp at h
  | case3 => simp only [Run.ok.injEq] at h; subst h; exact ⟨ht, rfl⟩
  | case4 => simp only [Run.ok.injEq] at h; subst h; exact ⟨ht, rfl⟩
  | case5 => simp at h
  | case6 t s leafnum s' hg he h0 h1 h2 ih =>
    obtain ⟨a, b⟩ := ih (fun c hc => by
      rcases List.mem_or_eq_of_mem_set hc with hc | rfl
      · exact ht c hc
      · exact Or.inr hi) h
    exact ⟨a, by simpa using b⟩
  | case7 => simp at h

theorem readClusters_entries (n real : Int) (k : Nat) (i : Int) (hi : 0 ≤ i ∧ i + k ≤ n) (t : List Int) (s : TStream)
    (r : List Int) (ht : ∀ c ∈ t, EntryOk n c) (h : readClusters real k i t s = .ok r) :
    (∀ c ∈ r, EntryOk n c) ∧ r.length = t.length := by
  induction k generalizing i t s with
  | zero => simp only [readClusters, Run.ok.injEq] at h; subst h; exact ⟨ht, rfl⟩
  | succ k ih =>
    simp only [readClusters] at h
    obtain ⟨q, hq, h⟩ := Run.bind_eq_ok.1 h
    split at h
    · simp at h
    · obtain ⟨a, b⟩ := readCluster_entries n real i (by omega) t s q ht hq
      obtain ⟨a', b'⟩ := ih (i + 1) (by omega) q.1 q.2 a h
      exact ⟨a', by omega⟩

theorem readAm_entries (n : Int) (k i : Nat) (t : List Int) (s : TStream) (r : List Int) (ht : ∀ c ∈ t, EntryOk n c)
    (h : readAm n k i t s = .ok r) : (∀ c ∈ r, EntryOk n c) ∧ r.length = t.length := by
  induction k generalizing i t s with
  | zero => simp only [readAm, Run.ok.injEq] at h; subst h; exact ⟨ht, rfl⟩
  | succ k ih =>
    simp only [readAm] at h
    split at h
    · simp at h
    · obtain ⟨cl, _, h⟩ := Run.bind_eq_ok.1 h
      split at h
      · simp at h
      · rename_i hc
        obtain ⟨t', ht', h⟩ := Run.bind_eq_ok.1 h
        unfold Run.writeAt at ht'
        split at ht'
        · simp only [Run.ok.injEq] at ht'
          subst ht'
          obtain ⟨a, b⟩ := ih (i + 1) _ _ (fun c hc' => by
            rcases List.mem_or_eq_of_mem_set hc' with hc' | rfl
            · exact ht c hc'
            · exact Or.inr (by omega)) h
          exact ⟨a, by simpa using b⟩
        · simp at ht'

theorem identityMap_entries (n : Int) (k i : Nat) (hk : (i + k : Int) ≤ n) (t : List Int) (r : List Int)
    (ht : ∀ c ∈ t, EntryOk n c) (h : identityMap k i t = .ok r) : (∀ c ∈ r, EntryOk n c) ∧ r.length = t.length := by
  induction k generalizing i t with
  | zero => simp only [identityMap, Run.ok.injEq] at h; subst h; exact ⟨ht, rfl⟩
  | succ k ih =>
    simp only [identityMap] at h
    obtain ⟨t', ht', h⟩ := Run.bind_eq_ok.1 h
    unfold Run.writeAt at ht'
    split at ht'
    · simp only [Run.ok.injEq] at ht'
      subst ht'
      obtain ⟨a, b⟩ := ih (i + 1) (by omega) _ (fun c hc' => by
        rcases List.mem_or_eq_of_mem_set hc' with hc' | rfl
        · exact ht c hc'
        · exact Or.inr (by omega)) h
      exact ⟨a, by simpa using b⟩
    · simp at ht'

theorem table_entries (m n : Int) (t : List Int) (h : table m = .ok t) :
    (∀ c ∈ t, EntryOk n c) ∧ (t.length : Int) = m + 1 := by
  unfold table at h
  split at h
  · simp at h
  · split at h
    · simp at h
    · simp only [Run.ok.injEq] at h
      subst h
      refine ⟨fun c hc => Or.inl (List.eq_of_mem_replicate hc), ?_⟩
      rw [List.length_replicate]
      omega

/-- C16. Every cluster of the map that is loaded is 0 or the number of a cluster, and for PRT1 and PRT2 files the map has
one entry more than the declared number of real leafs. -/
theorem cluster_map_in_range (c : Coord V) (txt : Text) (f : PrtFile V) (h : loadPrt c false txt = .ok f) :
    (∀ cl ∈ f.clusters, cl = 0 ∨ (0 ≤ cl ∧ cl < f.portalleafs)) ∧
    (f.clusters.length = f.real + 1 ∨ f.clusters.length = f.portalleafs + 1) := by
  unfold loadPrt at h
  obtain ⟨hd, hhd, h⟩ := Run.bind_eq_ok.1 h
  obtain ⟨n, _, h⟩ := Run.bind_eq_ok.1 h
  obtain ⟨ps, hps, h⟩ := Run.bind_eq_ok.1 h
  obtain ⟨m, hm, h⟩ := Run.bind_eq_ok.1 h
  simp only [Run.pure_eq, Run.ok.injEq] at h
  subst h
  simp only
  simp only [readMap, Bool.false_eq_true, if_false] at hm
  split at hm
  · obtain ⟨t, ht, hm⟩ := Run.bind_eq_ok.1 hm
    obtain ⟨a, b⟩ := table_entries _ hd.2.1 _ ht
    have hle : ((0 : Nat) + hd.2.1.toNat : Int) ≤ hd.2.1 ∨ hd.2.1 < 0 := by omega
    rcases hle with hle | hle
    · obtain ⟨a', b'⟩ := identityMap_entries hd.2.1 _ 0 (by simpa using hle) _ _ a hm
      exact ⟨a', Or.inr (by omega)⟩
    · rw [show hd.2.1.toNat = 0 by omega] at hm
      simp only [identityMap, Run.ok.injEq] at hm
      subst hm
      exact ⟨a, Or.inr (by omega)⟩
  · split at hm
    · obtain ⟨t, ht, hm⟩ := Run.bind_eq_ok.1 hm
      obtain ⟨a, b⟩ := table_entries _ hd.2.1 _ ht
      by_cases hle : 0 ≤ hd.2.1
      · obtain ⟨a', b'⟩ := readClusters_entries hd.2.1 _ _ 0 (by omega) _ _ _ a hm
        exact ⟨a', Or.inl (by omega)⟩
      · rw [show hd.2.1.toNat = 0 by omega] at hm
        simp only [readClusters, Run.ok.injEq] at hm
        subst hm
        exact ⟨a, Or.inl (by omega)⟩
    · obtain ⟨t, ht, hm⟩ := Run.bind_eq_ok.1 hm
      obtain ⟨a, b⟩ := table_entries _ hd.2.1 _ ht
      obtain ⟨a', b'⟩ := readAm_entries hd.2.1 _ _ _ _ _ a hm
      exact ⟨a', Or.inr (by omega)⟩
    · simp at hm

/-! ### The leafs of vis -/

theorem pushPortal_ok (leafs : List (List Nat)) (l : Int) (p : Nat) :
    (∃ ls, pushPortal leafs l p = .ok ls ∧ ls.length = leafs.length) ∧ 0 ≤ l ∧ l < leafs.length ∨
      pushPortal leafs l p = .ub ∧ ¬ (0 ≤ l ∧ l < leafs.length) := by
  unfold pushPortal
  by_cases h0 : 0 ≤ l
  · rw [if_pos h0]
    by_cases h1 : l.toNat < leafs.length
    · left
      refine ⟨⟨leafs.set l.toNat (leafs[l.toNat] ++ [p]), ?_, by simp⟩, h0, by omega⟩
      simp [Run.readAt, Run.use, h1, Run.writeAt]
    · right
      refine ⟨?_, by omega⟩
      simp [Run.readAt, Run.use, List.getElem?_eq_none (Nat.le_of_not_lt h1)]
  · right
    rw [if_neg h0]
    exact ⟨rfl, by omega⟩

theorem addPortals_iff (ps : List (PrtPortal V)) (v : VisLeafs) :
    ((∃ v', addPortals ps v = .ok v') ↔
      ∀ p ∈ ps, (0 ≤ p.leaf0 ∧ p.leaf0 < v.leafs.length) ∧ (0 ≤ p.leaf1 ∧ p.leaf1 < v.leafs.length)) ∧
    (addPortals ps v ≠ .ub → ∃ v', addPortals ps v = .ok v') := by
  induction ps generalizing v with
  | nil => simp [addPortals]
  | cons p ps ih =>
    simp only [addPortals]
    rcases pushPortal_ok v.leafs p.leaf0 v.dest.length with ⟨⟨l0, e0, n0⟩, b0⟩ | ⟨e0, b0⟩
    · rw [e0]
      simp only [Run.ok_bind]
      rcases pushPortal_ok l0 p.leaf1 (v.dest.length + 1) with ⟨⟨l1, e1, n1⟩, b1⟩ | ⟨e1, b1⟩
      · rw [e1]
        simp only [Run.ok_bind]
        obtain ⟨i1, i2⟩ := ih ⟨l1, v.dest ++ [p.leaf1, p.leaf0]⟩
        refine ⟨?_, i2⟩
        rw [i1]
        simp only [n1, n0]
        rw [n0] at b1
        constructor
        · intro h q hq
          rcases List.mem_cons.1 hq with rfl | hq
          · exact ⟨b0, b1⟩
          · exact h q hq
        · intro h q hq
          exact h q (List.mem_cons_of_mem _ hq)
      · rw [e1]
        simp only [Run.ub_bind]
        rw [n0] at b1
        refine ⟨⟨by rintro ⟨_, h⟩; simp at h, fun h => absurd (h p List.mem_cons_self).2 b1⟩, fun h => absurd rfl h⟩
    · rw [e0]
      simp only [Run.ub_bind]
      refine ⟨⟨by rintro ⟨_, h⟩; simp at h, fun h => absurd (h p List.mem_cons_self).1 b0⟩, fun h => absurd rfl h⟩

theorem copyClusters_iff (i : Nat) (xs : List Int) (d : List Int) (hi : i ≤ d.length) :
    (i + xs.length ≤ d.length → ∃ d', copyClusters i xs d = .ok d') ∧
    (¬ i + xs.length ≤ d.length → copyClusters i xs d = .ub) := by
  induction xs generalizing i d with
  | nil => simp [copyClusters, hi]
  | cons x xs ih =>
    simp only [copyClusters, Run.writeAt, List.length_cons]
    by_cases h : i < d.length
    · rw [if_pos h]
      simp only [Run.ok_bind]
      obtain ⟨h1, h2⟩ := ih (i + 1) (d.set i x) (by rw [List.length_set]; omega)
      rw [List.length_set] at h1 h2
      exact ⟨fun hh => h1 (by omega), fun hh => h2 (by omega)⟩
    · rw [if_neg h]
      exact ⟨fun hh => by omega, fun _ => rfl⟩

/-- C16. Exactly which loaded files are safe: vis stays inside its tables if and only if every leaf number is less than
the declared number of leafs, and the BSP file has a leaf for every entry of the cluster map. -/
theorem vis_safe_iff (q2 : Bool) (f : PrtFile V) (hn : 0 ≤ f.portalleafs) (dleafs : List Int) (hd : dleafs ≠ []) :
    (∃ v, loadPortals q2 f dleafs = .ok v) ↔
      (∀ p ∈ f.portals, (0 ≤ p.leaf0 ∧ p.leaf0 < f.portalleafs) ∧ (0 ≤ p.leaf1 ∧ p.leaf1 < f.portalleafs)) ∧
      (q2 = true ∨ f.clusters.length ≤ dleafs.length) := by
  unfold loadPortals
  rw [if_neg (by omega)]
  obtain ⟨h1, h2⟩ := addPortals_iff f.portals ⟨List.replicate f.portalleafs.toNat [], []⟩
  simp only [List.length_replicate, show ((f.portalleafs.toNat : Nat) : Int) = f.portalleafs by omega] at h1
  have hpos := List.length_pos_iff.2 hd
  obtain ⟨c1, c2⟩ := copyClusters_iff 1 (f.clusters.drop 1) dleafs (by omega)
  constructor
  · rintro ⟨v, hv⟩
    obtain ⟨a, ha, hv⟩ := Run.bind_eq_ok.1 hv
    refine ⟨h1.1 ⟨a, ha⟩, ?_⟩
    cases q2 with
    | true => exact Or.inl rfl
    | false =>
      right
      simp only [Bool.false_eq_true, if_false] at hv
      obtain ⟨d, hd', hv⟩ := Run.bind_eq_ok.1 hv
      by_contra hcon
      rw [c2 (by simp only [List.length_drop]; omega)] at hd'
      simp at hd'
  · rintro ⟨ha, hb⟩
    obtain ⟨a, ha⟩ := h1.2 ha
    rw [ha]
    simp only [Run.ok_bind]
    cases q2 with
    | true => exact ⟨_, rfl⟩
    | false =>
      obtain ⟨d, hd'⟩ := c1 (by simp only [List.length_drop]; have := hb.resolve_left (by simp); omega)
      exact ⟨(a, d), by simp only [Bool.false_eq_true, if_false, hd', Run.ok_bind, Run.pure_eq]⟩

/-- C16. The portal files that qbsp writes are safe in vis: no access outside of the tables, for a BSP file with a leaf
for every open leaf and the common solid leaf. -/
theorem written_file_safe {c : Coord V} {snap : V → V} (hc : CoordOk c snap) (t : Tree V) (hf : Fits t)
    (hd : hasDetail t = true)
    (hg : (openLeafs t).length ≠ (clusters t).length ∨ ∀ g ∈ clusters t, g.2 ≠ []) (txt : Text)
    (hw : writePrt c false false t = .ok txt) (dleafs : List Int) (hl : dleafs.length = (openLeafs t).length + 1) :
    ∃ f v, loadPrt c false txt = .ok f ∧ loadPortals false f dleafs = .ok v := by
  obtain ⟨f, e, hp, hr, hj, hm⟩ := prt2_roundtrip_partial hc t hf hd hg txt hw
  have hbounds : ∀ q ∈ f.portals,
      (0 ≤ q.leaf0 ∧ q.leaf0 < f.portalleafs) ∧ (0 ≤ q.leaf1 ∧ q.leaf1 < f.portalleafs) := by
    intro q hq
    obtain ⟨hlen, hz⟩ := List.forall₂_iff_zip.1 hj
    obtain ⟨i, hi⟩ := List.getElem?_of_mem hq
    have hil := (List.getElem?_eq_some_iff.1 hi).1
    have hmem : ((portals t)[i]'(by omega), q) ∈ (portals t).zip f.portals :=
      List.mem_of_getElem? (i := i) (List.getElem?_zip_eq_some.2 ⟨List.getElem?_eq_getElem (by omega), hi⟩)
    obtain ⟨a, b, ga, gb, ha, _, hb, _, hleaf, _⟩ := hz hmem
    have la := (List.getElem?_eq_some_iff.1 ha).1
    have lb := (List.getElem?_eq_some_iff.1 hb).1
    rw [hp]
    split at hleaf <;> omega
  obtain ⟨v, hv⟩ := (vis_safe_iff false f (by rw [hp]; omega) dleafs (by intro h; simp [h] at hl)).2
    ⟨hbounds, Or.inr (by rw [hm.1, hl]; exact Nat.le_refl _)⟩
  exact ⟨f, v, e, hv⟩

/-! ### What is wrong -/

/-- C16 is false of the code: a portal whose leaf is the number of leafs is accepted, and vis then writes behind its leaf
table. -/
theorem leaf_beyond_table :
    ∃ f, loadPrt intCoord32 false "PRT1\n1\n1\n3 0 1 (0 0 0 ) (1 0 0 ) (0 1 0 ) \n".toList = .ok f ∧
      loadPortals false f [-1, 0] = .ub := by
  refine ⟨⟨1, 1, [⟨0, 1, [(0, 0, 0), (1, 0, 0), (0, 1, 0)]⟩], [0, 0]⟩, ?_, ?_⟩ <;> decide +kernel

/-- A file that ends in the middle of a portal is not refused: loading never ends. -/
theorem truncated_hangs :
    loadPrt intCoord32 false "PRT1\n2\n1\n3 0 1 (0 0 0 ) (1 0 0".toList = .hang := by
  decide +kernel

/-- A file without the number of portals is not refused: an uninitialised variable is used. -/
theorem short_header_undefined : loadPrt intCoord32 false "PRT1\n2\n".toList = .ub := by
  decide +kernel

/-- The cluster map of a PRT1-AM file with more leafs than clusters is written outside of its table. -/
theorem am_map_outside : loadPrt intCoord32 false "PRT1-AM\n1\n0\n2\n0\n0\n".toList = .ub := by
  decide +kernel

/-- A portal file with more leafs than the BSP file makes vis write outside of the leafs of the BSP file. -/
theorem foreign_prt_outside :
    ∃ f, loadPrt intCoord32 false "PRT1\n3\n0\n".toList = .ok f ∧ loadPortals false f [-1, 0] = .ub := by
  refine ⟨⟨3, 3, [], [0, 0, 1, 2]⟩, ?_, ?_⟩ <;> decide +kernel

/-- Every PRT1-AM file that is read with more real leafs than clusters is outside of its table or refused. -/
theorem am_never_loads_more_leafs (n : Int) (k i : Nat) (t : List Int) (s : TStream) (r : List Int)
    (h : readAm n k i t s = .ok r) : k = 0 ∨ i + k < t.length := by
  induction k generalizing i t s with
  | zero => exact Or.inl rfl
  | succ k ih =>
    simp only [readAm] at h
    split at h
    · simp at h
    · obtain ⟨cl, _, h⟩ := Run.bind_eq_ok.1 h
      split at h
      · simp at h
      · obtain ⟨t', ht', h⟩ := Run.bind_eq_ok.1 h
        unfold Run.writeAt at ht'
        split at ht'
        · simp only [Run.ok.injEq] at ht'
          subst ht'
          have := ih (i + 1) _ _ h
          rw [List.length_set] at this
          right
          omega
        · simp at ht'

end Verif.Prt
