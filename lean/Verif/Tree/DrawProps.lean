import Verif.Tree.ClipProps
import Verif.Tree.PruneProps

/-! C57: export of the nodes and leafs of a model. -/

namespace Verif.Tree

open Geom Contents Spec

set_option linter.unusedSectionVars false

variable {K : Type} [Field K] [LinearOrder K] [IsStrictOrderedRing K]

theorem markedFaces_eq (o : Opts) (l : Leaf) : markedFaces o l = marks o l := by
  unfold markedFaces marks
  induction l.markfaces with
  | nil => rfl
  | cons f fs ih =>
    simp only [List.flatMap_cons, List.filter_cons]
    rw [ih]
    by_cases h : (!o.includeskip && f.nodraw && (!o.q2 || !f.light)) = true
    · rw [if_pos h, if_neg, List.nil_append]
      intro h'
      revert h h'
      cases o.includeskip <;> cases f.nodraw <;> cases o.q2 <;> cases f.light <;> decide
    · rw [if_neg h, if_pos]
      · simp
      · revert h
        cases o.includeskip <;> cases f.nodraw <;> cases o.q2 <;> cases f.light <;> decide

theorem leafRecord_mono {o : Opts} {l : Leaf} {d : DLeaf} {faces faces' more : List Nat} (hf : faces' = faces ++ more)
    (h : LeafRecord o l d faces) : LeafRecord o l d faces' := by
  obtain ⟨h1, h2, h3, h4, h5, h6⟩ := h
  refine ⟨h1, h2, h3, h4, ?_, ?_⟩
  · rw [hf, List.length_append]; omega
  · rw [hf, List.drop_append_of_le_length (by omega), List.take_append_of_le_length]
    · exact h6
    · rw [List.length_drop]; omega

/-- What does not change while nodes and leafs are exported, and what only grows. -/
structure Grows (rnd : K → K) (st st' : St K) : Prop where
  recs : recs rnd st' = recs rnd st
  dplanes : ∃ l, st'.dplanes = st.dplanes ++ l
  dleafs : ∃ l, st'.dleafs = st.dleafs ++ l
  dleaffaces : ∃ l, st'.dleaffaces = st.dleaffaces ++ l
  dclipnodes : st'.dclipnodes = st.dclipnodes

theorem Grows.refl (rnd : K → K) (st : St K) : Grows rnd st st :=
  ⟨rfl, ⟨[], by simp⟩, ⟨[], by simp⟩, ⟨[], by simp⟩, rfl⟩

theorem Grows.trans {rnd : K → K} {a b c : St K} (h : Grows rnd a b) (h' : Grows rnd b c) : Grows rnd a c := by
  obtain ⟨h1, ⟨l2, h2⟩, ⟨l3, h3⟩, ⟨l4, h4⟩, h5⟩ := h
  obtain ⟨k1, ⟨m2, k2⟩, ⟨m3, k3⟩, ⟨m4, k4⟩, k5⟩ := h'
  exact ⟨k1.trans h1, ⟨l2 ++ m2, by rw [k2, h2, List.append_assoc]⟩, ⟨l3 ++ m3, by rw [k3, h3, List.append_assoc]⟩,
    ⟨l4 ++ m4, by rw [k4, h4, List.append_assoc]⟩, k5.trans h5⟩

theorem exportLeaf_spec {o : Opts} (rnd : K → K) {l : Leaf} {st st' : St K} (h : exportLeaf o l st = .ok st') :
    Grows rnd st st' ∧ st'.planes = st.planes ∧ st'.dplanes = st.dplanes ∧ st'.dnodes = st.dnodes ∧
      ∃ d, st'.dleafs = st.dleafs ++ [d] ∧ LeafRecord o l d st'.dleaffaces := by
  unfold exportLeaf at h
  obtain ⟨c, hc, h⟩ := Outcome.bind_eq_ok.1 h
  by_cases hb : (!l.bounded) = true
  · rw [if_pos hb] at h; cases h
  · rw [if_neg hb] at h
    simp only [Outcome.ok.injEq] at h
    subst h
    refine ⟨⟨rfl, ⟨[], by simp⟩, ⟨_, rfl⟩, ⟨_, rfl⟩, rfl⟩, rfl, rfl, rfl, _, rfl, ?_⟩
    refine ⟨hc, rfl, ⟨rfl, rfl⟩, ?_, ?_, ?_⟩
    · intro _
      simp only
      by_cases h1 : c % 2 = 1
      · rw [if_pos h1, if_pos (by omega)]
      · rw [if_neg h1, if_neg (by omega)]
    · simp
    · simp only [List.drop_left, List.take_length]
      exact markedFaces_eq o l

/-- The nodes of the file from `n` on represent the tree; the numbers of the nodes are at least `lo`. -/
def RepDraw (o : Opts) (pls dplanes : List (DPlane K)) (dnodes : List DNode) (dleafs : List DLeaf) (faces : List Nat)
    (lo : Nat) : Bsp → Int → Prop
  | .leaf l, n => (o.q2 = false ∧ l.contents.getLsbD 0 = true ∧ n = -1) ∨
      ((o.q2 = true ∨ l.contents.getLsbD 0 = false) ∧
        ∃ (k : Nat) (d : DLeaf), n = -((k : Int) + 1) ∧ dleafs[k]? = some d ∧ LeafRecord o l d faces)
  | .node d f b, n => ∃ (i : Nat) (nd : DNode) (dp : DPlane K), n = (i : Int) ∧ lo ≤ i ∧ dnodes[i]? = some nd ∧
      pls[d.planenum]? = some dp ∧ dplanes[nd.planenum]? = some dp ∧ nd.firstface = d.firstface ∧
      nd.numfaces = d.numfaces ∧
      RepDraw o pls dplanes dnodes dleafs faces lo f nd.c0 ∧ RepDraw o pls dplanes dnodes dleafs faces lo b nd.c1

theorem RepDraw.mono {o : Opts} {pls dplanes dplanes' : List (DPlane K)} {dnodes dnodes' : List DNode}
    {dleafs dleafs' : List DLeaf} {faces faces' : List Nat} {lo lo' : Nat} (hlo : lo' ≤ lo)
    (hd : ∀ (i : Nat) x, dplanes[i]? = some x → dplanes'[i]? = some x)
    (hn : ∀ (i : Nat) x, lo ≤ i → dnodes[i]? = some x → dnodes'[i]? = some x)
    (hl : ∀ (i : Nat) x, dleafs[i]? = some x → dleafs'[i]? = some x)
    (hf : ∃ more, faces' = faces ++ more) {t : Bsp} :
    ∀ {n : Int}, RepDraw o pls dplanes dnodes dleafs faces lo t n →
      RepDraw o pls dplanes' dnodes' dleafs' faces' lo' t n := by
  induction t with
  | leaf l =>
    rintro n (h | ⟨h, k, d, rfl, h2, h3⟩)
    · exact Or.inl h
    · obtain ⟨more, hf⟩ := hf
      exact Or.inr ⟨h, k, d, rfl, hl _ _ h2, leafRecord_mono hf h3⟩
  | node d f b ihf ihb =>
    rintro n ⟨i, nd, dp, rfl, hi, hnd, hp, hdp, h1, h2, hf', hb⟩
    exact ⟨i, nd, dp, rfl, hlo.trans hi, hn i nd hi hnd, hp, hd _ _ hdp, h1, h2, ihf hf', ihb hb⟩

/-- The export of a child (qbsp/writebsp.cc:249-271), leaf or node. -/
def childOf (o : Opts) (rnd : K → K) (idx : Nat) (i : Fin 2) (t : Bsp) (st : St K) : Outcome (St K) :=
  match t with
  | .leaf l => exportLeafChild o idx i l st
  | .node .. => do
    let st' ← setChild idx i st.dnodes.length st
    exportDraw o rnd t st'

theorem exportDraw_node (o : Opts) (rnd : K → K) (d : NodeData) (f b : Bsp) (st : St K) :
    exportDraw o rnd (.node d f b) st = (do
      let idx := st.dnodes.length
      let rp ← exportPlane rnd d.planenum st
      let st1 : St K := { rp.2 with dnodes := rp.2.dnodes ++ [⟨rp.1, 0, 0, d.firstface, d.numfaces⟩] }
      let st2 ← childOf o rnd idx 0 f st1
      let st3 ← childOf o rnd idx 1 b st2
      let dn ← Outcome.readAt st3.dnodes idx
      if dn.c0 = -1 ∧ dn.c1 = -1 then .error
      else if dn.c0 = dn.c1 then .error
      else .ok st3) := by
  cases f <;> cases b <;> rfl

/-- `dn` with a child set. -/
def withChild (dn : DNode) (i : Fin 2) (n : Int) : DNode := if i = 0 then { dn with c0 := n } else { dn with c1 := n }

/-- The number that a child gets. -/
def childNum (o : Opts) (st : St K) : Bsp → Int
  | .leaf l => if !o.q2 && l.contents.getLsbD 0 then -1 else -((st.dleafs.length : Int) + 1)
  | .node .. => st.dnodes.length

/-- The number of leafs that get a record. -/
def own (q2 : Bool) (t : Bsp) : Nat := (ownLeafs q2 t).length

theorem setChild_ok {idx : Nat} {i : Fin 2} {n : Int} {st : St K} {dn : DNode} (h : st.dnodes[idx]? = some dn) :
    setChild idx i n st = .ok { st with dnodes := st.dnodes.set idx (withChild dn i n) } := by
  simp [setChild, Outcome.readAt, h, withChild]

/-- What the export of a tree below a node does. -/
structure DrawSpec (o : Opts) (rnd : K → K) (t : Bsp) (st st' : St K) (n : Int) : Prop where
  exported : Exported rnd st'
  grows : Grows rnd st st'
  leafs : st'.dleafs.length = st.dleafs.length + own o.q2 t
  rep : RepDraw o (recs rnd st) st'.dplanes st'.dnodes st'.dleafs st'.dleaffaces st.dnodes.length t n

theorem childOf_spec {o : Opts} {rnd : K → K} {t : Bsp} {idx : Nat} {i : Fin 2} {st st' : St K} {dn : DNode}
    (hst : Exported rnd st) (hdn : st.dnodes[idx]? = some dn)
    (ih : ∀ (s s' : St K), Exported rnd s → exportDraw o rnd t s = .ok s' →
      DrawSpec o rnd t s s' s.dnodes.length ∧ ∃ l, s'.dnodes = s.dnodes ++ l ∧ l ≠ [])
    (h : childOf o rnd idx i t st = .ok st') :
    DrawSpec o rnd t st st' (childNum o st t) ∧
      ∃ l, st'.dnodes = st.dnodes.set idx (withChild dn i (childNum o st t)) ++ l ∧
        ((∃ d f b, t = .node d f b) → l ≠ []) := by
  cases t with
  | leaf l =>
    simp only [childOf, exportLeafChild] at h
    by_cases hs : (!o.q2 && anySolid l.contents) = true
    · rw [if_pos hs, setChild_ok hdn] at h
      simp only [Outcome.ok.injEq] at h
      subst h
      have hnum : childNum o st (.leaf l) = -1 := by
        simp only [childNum]; rw [anySolid_eq] at hs; rw [if_pos hs]
      rw [hnum]
      simp only [Bool.and_eq_true, Bool.not_eq_true', anySolid_eq] at hs
      refine ⟨⟨hst, ⟨rfl, ⟨[], by simp⟩, ⟨[], by simp⟩, ⟨[], by simp⟩, rfl⟩, ?_, Or.inl ⟨hs.1, hs.2, rfl⟩⟩,
        [], by simp, by rintro ⟨_, _, _, h⟩; cases h⟩
      simp [own, ownLeafs, Spec.leafs, hs.1, hs.2]
    · rw [if_neg hs, setChild_ok hdn] at h
      simp only [Outcome.ok_bind] at h
      obtain ⟨g, hp, hdp, hnn, d, hd, hrec⟩ := exportLeaf_spec rnd h
      have hnum : childNum o st (.leaf l) = -((st.dleafs.length : Int) + 1) := by
        simp only [childNum]; rw [anySolid_eq] at hs; rw [if_neg hs]
      have hown : (o.q2 || !l.contents.getLsbD 0) = true := by
        rw [anySolid_eq] at hs
        revert hs
        cases o.q2 <;> cases l.contents.getLsbD 0 <;> simp
      rw [hnum]
      refine ⟨⟨?_, ?_, ?_, Or.inr ⟨?_, st.dleafs.length, d, rfl, ?_, hrec⟩⟩, [], by simp [hnn], ?_⟩
      · intro n m k hn hk
        rw [hp] at hn
        rw [hdp]
        exact hst n m k hn hk
      · obtain ⟨g1, g2, g3, g4, g5⟩ := g
        exact ⟨g1, g2, g3, g4, g5⟩
      · rw [hd]
        simp only [own, ownLeafs, Spec.leafs, List.length_append, List.filter, hown]
        rfl
      · revert hown
        cases o.q2 <;> cases l.contents.getLsbD 0 <;> simp
      · rw [hd]; simp
      · rintro ⟨_, _, _, h⟩; cases h
  | node d f b =>
    simp only [childOf] at h
    rw [setChild_ok hdn] at h
    simp only [Outcome.ok_bind] at h
    obtain ⟨⟨e, g, hl, hr⟩, l, hn, hne⟩ := ih _ _ (by exact hst) h
    simp only [childNum]
    refine ⟨⟨e, ⟨g.recs, g.dplanes, g.dleafs, g.dleaffaces, g.dclipnodes⟩, hl, ?_⟩, l, hn, fun _ => hne⟩
    simpa [recs] using hr

theorem withChild_other {dn : DNode} (n : Int) : (withChild dn 1 n).c0 = dn.c0 ∧ (withChild dn 1 n).c1 = n ∧
    (withChild dn 0 n).c1 = dn.c1 ∧ (withChild dn 0 n).c0 = n ∧ ∀ i, (withChild dn i n).planenum = dn.planenum ∧
      (withChild dn i n).firstface = dn.firstface ∧ (withChild dn i n).numfaces = dn.numfaces := by
  simp only [withChild]
  refine ⟨rfl, rfl, rfl, rfl, ?_⟩
  intro i
  split <;> exact ⟨rfl, rfl, rfl⟩

theorem exportDraw_spec {o : Opts} {rnd : K → K} {t : Bsp} : ∀ (st st' : St K), Exported rnd st →
    exportDraw o rnd t st = .ok st' →
    DrawSpec o rnd t st st' st.dnodes.length ∧ ∃ l, st'.dnodes = st.dnodes ++ l ∧ l ≠ [] := by
  induction t with
  | leaf l => intro st st' _ h; simp [exportDraw] at h
  | node d f b ihf ihb =>
    intro st st' hst h
    rw [exportDraw_node] at h
    simp only at h
    obtain ⟨⟨pn, s0⟩, h0, h⟩ := Outcome.bind_eq_ok.1 h
    obtain ⟨s2, h2, h⟩ := Outcome.bind_eq_ok.1 h
    obtain ⟨s3, h3, h⟩ := Outcome.bind_eq_ok.1 h
    obtain ⟨dn, h4, h⟩ := Outcome.bind_eq_ok.1 h
    have hres : s3 = st' := by
      by_cases ha : dn.c0 = -1 ∧ dn.c1 = -1
      · rw [if_pos ha] at h; cases h
      · rw [if_neg ha] at h
        by_cases hb : dn.c0 = dn.c1
        · rw [if_pos hb] at h; cases h
        · rw [if_neg hb] at h
          simpa using h
    subst hres
    obtain ⟨e0, r0, p0, ⟨dp, hdp, hdp'⟩, c0, n0, l0, f0⟩ := exportPlane_spec hst h0
    simp only at h2
    rw [n0] at h2
    have hi1 : ({ s0 with dnodes := st.dnodes ++ [⟨pn, 0, 0, d.firstface, d.numfaces⟩] } : St K).dnodes[st.dnodes.length]? =
        some ⟨pn, 0, 0, d.firstface, d.numfaces⟩ := by simp
    obtain ⟨⟨e2, g2, len2, rep2⟩, k2, hk2, -⟩ := childOf_spec
      (st := { s0 with dnodes := st.dnodes ++ [⟨pn, 0, 0, d.firstface, d.numfaces⟩] }) e0 hi1 ihf h2
    simp only at hk2
    generalize hc0 : childNum o ({ s0 with dnodes := st.dnodes ++ [⟨pn, 0, 0, d.firstface, d.numfaces⟩] } : St K) f =
      cn0 at rep2 hk2
    have hk2' : s2.dnodes = st.dnodes ++ [withChild ⟨pn, 0, 0, d.firstface, d.numfaces⟩ 0 cn0] ++ k2 := by
      rw [hk2]; simp
    have hi2 : s2.dnodes[st.dnodes.length]? = some (withChild ⟨pn, 0, 0, d.firstface, d.numfaces⟩ 0 cn0) := by
      rw [hk2']; simp
    obtain ⟨⟨e3, g3, len3, rep3⟩, k3, hk3, -⟩ := childOf_spec e2 hi2 ihb h3
    generalize hc1 : childNum o s2 b = cn1 at rep3 hk3
    have hk3' : s3.dnodes = st.dnodes ++
        ([withChild (withChild ⟨pn, 0, 0, d.firstface, d.numfaces⟩ 0 cn0) 1 cn1] ++ k2 ++ k3) := by
      rw [hk3, hk2']; simp
    obtain ⟨lg2, hlg2⟩ := g2.dplanes
    obtain ⟨lg3, hlg3⟩ := g3.dplanes
    have hg0 : Grows rnd st { s0 with dnodes := st.dnodes ++ [⟨pn, 0, 0, d.firstface, d.numfaces⟩] } :=
      ⟨r0, p0, ⟨[], by simp [l0]⟩, ⟨[], by simp [f0]⟩, c0⟩
    refine ⟨⟨e3, hg0.trans (g2.trans g3), ?_, ?_⟩, _, hk3', by simp⟩
    · rw [len3, len2]
      simp only [l0, own, ownLeafs, Spec.leafs, List.filter_append, List.length_append]
      omega
    · refine ⟨st.dnodes.length, withChild (withChild ⟨pn, 0, 0, d.firstface, d.numfaces⟩ 0 cn0) 1 cn1, dp, rfl, le_rfl,
        by rw [hk3']; simp, hdp, ?_, ?_, ?_, ?_, ?_⟩
      · rw [((withChild_other cn1).2.2.2.2 1).1, ((withChild_other cn0).2.2.2.2 0).1]
        exact append_getElem? hlg3 _ _ (append_getElem? hlg2 _ _ hdp')
      · rw [((withChild_other cn1).2.2.2.2 1).2.1, ((withChild_other cn0).2.2.2.2 0).2.1]
      · rw [((withChild_other cn1).2.2.2.2 1).2.2, ((withChild_other cn0).2.2.2.2 0).2.2]
      · rw [(withChild_other cn1).1, (withChild_other cn0).2.2.2.1]
        have hrep : RepDraw o (recs rnd st) s2.dplanes s2.dnodes s2.dleafs s2.dleaffaces (st.dnodes.length + 1) f cn0 := by
          rw [← r0]
          simpa [recs] using rep2
        obtain ⟨lf, hlf⟩ := g3.dleafs
        refine hrep.mono (by omega) (append_getElem? hlg3) ?_ (append_getElem? hlf) g3.dleaffaces
        intro i x hi hx
        rw [hk3]
        apply append_getElem? rfl
        rw [List.getElem?_set_ne (by omega)]
        exact hx
      · rw [(withChild_other cn1).2.1]
        have hr2 : recs rnd s2 = recs rnd st := g2.recs.trans r0
        rw [hr2] at rep3
        refine rep3.mono (by rw [hk2']; simp only [List.length_append]; omega) (fun _ _ h => h) (fun _ _ _ h => h)
          (fun _ _ h => h) ⟨[], by simp⟩

/-! ## The walk -/

theorem repDraw_walk {o : Opts} {rnd : K → K} {planes : List (MapPlane K)} {dplanes : List (DPlane K)}
    {dnodes : List DNode} {dleafs : List DLeaf} {faces : List Nat} {lo : Nat} {l0 : DLeaf} (h0 : dleafs[0]? = some l0)
    (p : Vec K) {t : Bsp} :
    ∀ {n : Int}, (∀ k ∈ planenums t, ∀ m, planes[k]? = some m → TypeOk (toDPlane rnd m)) →
    RepDraw o (planes.map (toDPlane rnd)) dplanes dnodes dleafs faces lo t n →
    ∃ k d, dleafs[k]? = some d ∧
      (((o.q2 = false ∧ (leafAt (sides rnd planes p) t).contents.getLsbD 0 = true) ∧ k = 0) ∨
        ((o.q2 = true ∨ (leafAt (sides rnd planes p) t).contents.getLsbD 0 = false) ∧
          LeafRecord o (leafAt (sides rnd planes p) t) d faces)) ∧
      ∃ N, ∀ fuel ≥ N, findLeaf dplanes dnodes dleafs p fuel n = some (.ok (k, d)) := by
  induction t with
  | leaf l =>
    rintro n _ (⟨h1, h2, rfl⟩ | ⟨h1, k, d, rfl, h2, h3⟩)
    · refine ⟨0, l0, h0, Or.inl ⟨⟨h1, h2⟩, rfl⟩, 1, ?_⟩
      intro fuel hf
      obtain ⟨m, rfl⟩ : ∃ m, fuel = m + 1 := ⟨fuel - 1, by omega⟩
      simp only [findLeaf]
      rw [if_pos (by omega)]
      simp [leafFromNode, h0]
    · refine ⟨k, d, h2, Or.inr ⟨h1, h3⟩, 1, ?_⟩
      intro fuel hf
      obtain ⟨m, rfl⟩ : ∃ m, fuel = m + 1 := ⟨fuel - 1, by omega⟩
      simp only [findLeaf]
      rw [if_pos (by omega)]
      have hk : (-1 - -((k : Int) + 1)).toNat = k := by omega
      simp only [leafFromNode, hk, h2]
  | node d f b ihf ihb =>
    rintro n ht ⟨i, nd, dp, rfl, -, hnd, hp, hdp, -, -, hf, hb⟩
    rw [List.getElem?_map] at hp
    rcases hm : planes[d.planenum]? with _ | m
    · rw [hm] at hp; cases hp
    · rw [hm] at hp
      simp only [Option.map_some, Option.some.injEq] at hp
      subst hp
      have hfast := distFast_of_typeOk (ht d.planenum (by simp [planenums, nodes]) m hm) p
      have hside : sides rnd planes p d.planenum = decide ((rndPlane rnd m.plane).distTo p ≥ 0) := by
        simp [sides, hm]
      simp only [leafAt, hside, decide_eq_true_eq]
      have htf : ∀ k ∈ planenums f, ∀ m, planes[k]? = some m → TypeOk (toDPlane rnd m) := fun k hk =>
        ht k (by simp only [planenums, nodes, List.map_cons, List.map_append, List.mem_cons, List.mem_append] at hk ⊢
                 exact Or.inr (Or.inl hk))
      have htb : ∀ k ∈ planenums b, ∀ m, planes[k]? = some m → TypeOk (toDPlane rnd m) := fun k hk =>
        ht k (by simp only [planenums, nodes, List.map_cons, List.map_append, List.mem_cons, List.mem_append] at hk ⊢
                 exact Or.inr (Or.inr hk))
      by_cases hd : (rndPlane rnd m.plane).distTo p ≥ 0
      · obtain ⟨k, dl, hk, hr, N, hN⟩ := ihf htf hf
        rw [if_pos hd]
        refine ⟨k, dl, hk, hr, N + 1, ?_⟩
        intro fuel hfu
        obtain ⟨j, rfl⟩ : ∃ j, fuel = j + 1 := ⟨fuel - 1, by omega⟩
        simp only [findLeaf]
        rw [if_neg (by omega)]
        simp only [Int.toNat_natCast, hnd, hdp]
        rw [if_pos (by rw [hfast]; exact hd)]
        exact hN j (by omega)
      · obtain ⟨k, dl, hk, hr, N, hN⟩ := ihb htb hb
        rw [if_neg hd]
        refine ⟨k, dl, hk, hr, N + 1, ?_⟩
        intro fuel hfu
        obtain ⟨j, rfl⟩ : ∃ j, fuel = j + 1 := ⟨fuel - 1, by omega⟩
        simp only [findLeaf]
        rw [if_neg (by omega)]
        simp only [Int.toNat_natCast, hnd, hdp]
        rw [if_neg (by rw [hfast]; exact hd)]
        exact hN j (by omega)

/-- **C57.** The leaf 0 that all solid leafs of Quake share is solid and in no cluster; it marks no faces. -/
theorem leaf_zero (q2 : Bool) : ∃ l, beginLeaf q2 = .ok l ∧ l.cluster = -1 ∧ l.nummark = 0 ∧ l.numbrush = 0 ∧
    l.contents = (if q2 then 1 else -2) := by
  refine ⟨⟨if q2 then 1 else -2, 0, 0, 0, -1, 0, 0⟩, ?_, rfl, rfl, rfl, rfl⟩
  revert q2
  decide +kernel

/-- **C57.** If a model whose tree has at least one node is exported and more is appended to the arrays of the file
afterwards, then looking up any point from the model's head node ends at the record of the leaf of the tree in which the
point lies (the planes being rounded as in the file), or at leaf 0 if that leaf is solid and the game is not Quake II. -/
theorem draw_export_partial {o : Opts} {rnd : K → K} {d : NodeData} {f b : Bsp} {st st' : St K} {head : Int}
    {visleafs : Nat} (hst : Exported rnd st) (h0 : st.dleafs ≠ [])
    (ht : ∀ k ∈ planenums (.node d f b), ∀ m, st.planes[k]? = some m → TypeOk (toDPlane rnd m))
    (h : exportModel o rnd (.node d f b) st = .ok (head, visleafs, st')) (morePlanes : List (DPlane K))
    (moreNodes : List DNode) (moreLeafs : List DLeaf) (moreFaces : List Nat) (p : Vec K) :
    ∃ k dl, (st'.dleafs ++ moreLeafs)[k]? = some dl ∧
      (((o.q2 = false ∧ (leafAt (sides rnd st.planes p) (.node d f b)).contents.getLsbD 0 = true) ∧ k = 0) ∨
        ((o.q2 = true ∨ (leafAt (sides rnd st.planes p) (.node d f b)).contents.getLsbD 0 = false) ∧
          LeafRecord o (leafAt (sides rnd st.planes p) (.node d f b)) dl (st'.dleaffaces ++ moreFaces))) ∧
      ∃ N, ∀ fuel ≥ N, findLeaf (st'.dplanes ++ morePlanes) (st'.dnodes ++ moreNodes) (st'.dleafs ++ moreLeafs) p fuel
        head = some (.ok (k, dl)) := by
  unfold exportModel at h
  simp only at h
  obtain ⟨s, hs, h⟩ := Outcome.bind_eq_ok.1 h
  simp only [Outcome.ok.injEq, Prod.mk.injEq] at h
  obtain ⟨rfl, -, rfl⟩ := h
  obtain ⟨⟨-, g, -, hrep⟩, -⟩ := exportDraw_spec st s hst hs
  obtain ⟨l, hl⟩ := g.dleafs
  obtain ⟨x, xs, hx⟩ := List.exists_cons_of_ne_nil h0
  have hz : (s.dleafs ++ moreLeafs)[0]? = some x := by rw [hl, hx]; simp
  exact repDraw_walk hz p ht (hrep.mono le_rfl (append_getElem? rfl) (fun i x _ => append_getElem? rfl i x)
    (append_getElem? rfl) ⟨_, rfl⟩)

/-- **C57.** The number of leafs recorded in the model is the number of leafs of the tree that have a record of their
own: all of them in Quake II, the ones that are not solid otherwise. They are the ones appended to the array. -/
theorem draw_visleafs {o : Opts} {rnd : K → K} {d : NodeData} {f b : Bsp} {st st' : St K} {head : Int}
    {visleafs : Nat} (hst : Exported rnd st)
    (h : exportModel o rnd (.node d f b) st = .ok (head, visleafs, st')) :
    visleafs = (ownLeafs o.q2 (.node d f b)).length ∧ st'.dleafs.length = st.dleafs.length + visleafs := by
  unfold exportModel at h
  simp only at h
  obtain ⟨s, hs, h⟩ := Outcome.bind_eq_ok.1 h
  simp only [Outcome.ok.injEq, Prod.mk.injEq] at h
  obtain ⟨-, rfl, rfl⟩ := h
  obtain ⟨⟨-, -, hl, -⟩, -⟩ := exportDraw_spec st s hst hs
  rw [hl]
  constructor
  · simp [own]
  · omega

/-- **C57.** What the arrays held before stays where it is. -/
theorem draw_appends {o : Opts} {rnd : K → K} {d : NodeData} {f b : Bsp} {st st' : St K} {head : Int}
    {visleafs : Nat} (hst : Exported rnd st)
    (h : exportModel o rnd (.node d f b) st = .ok (head, visleafs, st')) :
    st.dplanes <+: st'.dplanes ∧ st.dnodes <+: st'.dnodes ∧ st.dleafs <+: st'.dleafs ∧
      st.dleaffaces <+: st'.dleaffaces ∧ st'.dclipnodes = st.dclipnodes ∧ Exported rnd st' := by
  unfold exportModel at h
  simp only at h
  obtain ⟨s, hs, h⟩ := Outcome.bind_eq_ok.1 h
  simp only [Outcome.ok.injEq, Prod.mk.injEq] at h
  obtain ⟨-, -, rfl⟩ := h
  obtain ⟨⟨e, g, -, -⟩, l, hl, -⟩ := exportDraw_spec st s hst hs
  obtain ⟨l1, h1⟩ := g.dplanes
  obtain ⟨l2, h2⟩ := g.dleafs
  obtain ⟨l3, h3⟩ := g.dleaffaces
  exact ⟨⟨l1, h1.symm⟩, ⟨l, hl.symm⟩, ⟨l2, h2.symm⟩, ⟨l3, h3.symm⟩, g.dclipnodes, e⟩

/-- **C57, what fails.** For a model whose tree is a single leaf, the head node is the number of the next node, although
no node is exported: if the file ends there, looking up any point reads beyond the array of nodes. -/
theorem draw_export_leaf_head {o : Opts} {rnd : K → K} {l : Leaf} {st st' : St K} {head : Int} {visleafs : Nat}
    (h : exportModel o rnd (.leaf l) st = .ok (head, visleafs, st')) (p : Vec K) (fuel : Nat) :
    findLeaf st'.dplanes st'.dnodes st'.dleafs p (fuel + 1) head = some .ub := by
  unfold exportModel at h
  simp only at h
  obtain ⟨s, hs, h⟩ := Outcome.bind_eq_ok.1 h
  simp only [Outcome.ok.injEq, Prod.mk.injEq] at h
  obtain ⟨rfl, -, rfl⟩ := h
  obtain ⟨-, -, -, hn, -⟩ := exportLeaf_spec rnd hs
  simp only [findLeaf]
  rw [if_neg (by omega), hn]
  simp

/-- … and if another model follows, its nodes are found instead. -/
theorem draw_export_leaf_head_next {o : Opts} {rnd : K → K} {l : Leaf} {d : NodeData} {f b : Bsp} {st st' st'' : St K}
    {head head' : Int} {visleafs visleafs' : Nat} (h : exportModel o rnd (.leaf l) st = .ok (head, visleafs, st'))
    (h' : exportModel o rnd (.node d f b) st' = .ok (head', visleafs', st'')) : head = head' := by
  unfold exportModel at h h'
  simp only at h h'
  obtain ⟨s, hs, h⟩ := Outcome.bind_eq_ok.1 h
  simp only [Outcome.ok.injEq, Prod.mk.injEq] at h
  obtain ⟨rfl, -, rfl⟩ := h
  obtain ⟨s', hs', h'⟩ := Outcome.bind_eq_ok.1 h'
  simp only [Outcome.ok.injEq, Prod.mk.injEq] at h'
  obtain ⟨rfl, -, rfl⟩ := h'
  obtain ⟨-, -, -, hn, -⟩ := exportLeaf_spec rnd hs
  rw [hn]

theorem exportLeaf_ok {o : Opts} {l : Leaf} (st : St K) (hc : ∃ c, toNative o.q2 (remap o.q2 l.contents) = .ok c)
    (hb : l.bounded = true) : ∃ st', exportLeaf o l st = .ok st' := by
  obtain ⟨c, hc⟩ := hc
  unfold exportLeaf
  rw [hc]
  simp only [Outcome.ok_bind, hb, Bool.not_true, Bool.false_eq_true, if_false]
  exact ⟨_, rfl⟩

theorem exportDraw_ok {o : Opts} {rnd : K → K} {t : Bsp} : ∀ (st : St K), Exported rnd st → st.dleafs ≠ [] →
    (∀ k ∈ planenums t, k < st.planes.length) →
    (∀ l ∈ leafs t, (∃ c, toNative o.q2 (remap o.q2 l.contents) = .ok c) ∧ l.bounded = true) →
    (o.q2 = false → ∀ d f b, (d, f, b) ∈ nodes t → ¬(SolidLeaf f ∧ SolidLeaf b)) →
    (∃ d f b, t = .node d f b) → ∃ st', exportDraw o rnd t st = .ok st' := by
  induction t with
  | leaf l => rintro st _ _ _ _ _ ⟨_, _, _, h⟩; cases h
  | node d f b ihf ihb =>
    intro st hst hne hp hl hs _
    simp only [planenums, nodes, List.map_cons, List.map_append, List.mem_cons, List.mem_append] at hp
    simp only [leafs, List.mem_append] at hl
    -- a child that is a node or a leaf is exported
    have hchild : ∀ (t : Bsp) (s : St K) (i : Fin 2) (dn : DNode), (s.dnodes[st.dnodes.length]? = some dn) →
        (∀ l ∈ leafs t, (∃ c, toNative o.q2 (remap o.q2 l.contents) = .ok c) ∧ l.bounded = true) →
        ((∃ d f b, t = .node d f b) → ∀ n : Int, ∃ s', exportDraw o rnd t
          { s with dnodes := s.dnodes.set st.dnodes.length (withChild dn i n) } = .ok s') →
        ∃ s', childOf o rnd st.dnodes.length i t s = .ok s' := by
      intro t s i dn hdn hl hn
      cases t with
      | leaf l =>
        simp only [childOf, exportLeafChild]
        by_cases hso : (!o.q2 && anySolid l.contents) = true
        · rw [if_pos hso, setChild_ok hdn]; exact ⟨_, rfl⟩
        · rw [if_neg hso, setChild_ok hdn]
          simp only [Outcome.ok_bind]
          obtain ⟨h1, h2⟩ := hl l (by simp [leafs])
          exact exportLeaf_ok _ h1 h2
      | node d' f' b' =>
        simp only [childOf]
        rw [setChild_ok hdn]
        simp only [Outcome.ok_bind]
        exact hn ⟨_, _, _, rfl⟩ _
    obtain ⟨pn, s0, h0, hlen0⟩ := exportPlane_ok (rnd := rnd) (n := d.planenum) (st := st) (hp _ (Or.inl rfl))
    obtain ⟨e0, r0, p0, ⟨dp, hdp, hdp'⟩, c0, n0, l0, f0⟩ := exportPlane_spec hst h0
    have hi1 : ({ s0 with dnodes := st.dnodes ++ [⟨pn, 0, 0, d.firstface, d.numfaces⟩] } : St K).dnodes[st.dnodes.length]? =
        some ⟨pn, 0, 0, d.firstface, d.numfaces⟩ := by simp
    obtain ⟨s2, h2⟩ := hchild f { s0 with dnodes := st.dnodes ++ [⟨pn, 0, 0, d.firstface, d.numfaces⟩] } 0 _ hi1
      (fun l h => hl l (Or.inl h)) (by
        intro hnode n
        refine ihf _ (by exact e0) (by simp only; rw [l0]; exact hne) ?_ (fun l h => hl l (Or.inl h)) ?_ hnode
        · intro k hk
          simp only
          rw [hlen0]
          exact hp k (Or.inr (Or.inl hk))
        · intro hq d' f' b' hm
          exact hs hq d' f' b' (by simp [nodes, hm]))
    obtain ⟨⟨e2, g2, len2, rep2⟩, k2, hk2, hnode2⟩ := childOf_spec
      (st := { s0 with dnodes := st.dnodes ++ [⟨pn, 0, 0, d.firstface, d.numfaces⟩] }) e0 hi1
      (fun s s' h h' => exportDraw_spec s s' h h') h2
    simp only at hk2
    generalize hc0 : childNum o ({ s0 with dnodes := st.dnodes ++ [⟨pn, 0, 0, d.firstface, d.numfaces⟩] } : St K) f =
      cn0 at hk2
    have hk2' : s2.dnodes = st.dnodes ++ [withChild ⟨pn, 0, 0, d.firstface, d.numfaces⟩ 0 cn0] ++ k2 := by
      rw [hk2]; simp
    have hi2 : s2.dnodes[st.dnodes.length]? = some (withChild ⟨pn, 0, 0, d.firstface, d.numfaces⟩ 0 cn0) := by
      rw [hk2']; simp
    have hlen2 : s2.planes.length = st.planes.length := by
      have := congrArg List.length g2.recs
      simp only [recs, List.length_map] at this
      omega
    have hle2 : s2.dleafs ≠ [] := by
      obtain ⟨l, hl⟩ := g2.dleafs
      rw [hl]
      simp only [l0]
      simp [hne]
    obtain ⟨s3, h3⟩ := hchild b s2 1 _ hi2 (fun l h => hl l (Or.inr h)) (by
        intro hnode n
        refine ihb _ (by exact e2) (by exact hle2) ?_ (fun l h => hl l (Or.inr h)) ?_ hnode
        · intro k hk
          simp only
          rw [hlen2]
          exact hp k (Or.inr (Or.inr hk))
        · intro hq d' f' b' hm
          exact hs hq d' f' b' (by simp [nodes, hm]))
    obtain ⟨-, k3, hk3, -⟩ := childOf_spec e2 hi2 (fun s s' h h' => exportDraw_spec s s' h h') h3
    generalize hc1 : childNum o s2 b = cn1 at hk3
    have hi3 : s3.dnodes[st.dnodes.length]? =
        some (withChild (withChild ⟨pn, 0, 0, d.firstface, d.numfaces⟩ 0 cn0) 1 cn1) := by
      rw [hk3, hk2']; simp
    have hpos : 0 < st.dleafs.length := List.length_pos_of_ne_nil hne
    -- the two children have different numbers
    have hdiff : cn0 ≠ cn1 := by
      subst hc0; subst hc1
      simp only at len2
      cases f with
      | leaf lf =>
        cases b with
        | leaf lb =>
          simp only [childNum]
          rw [len2, l0]
          have hs' : o.q2 = false → ¬(lf.contents.getLsbD 0 = true ∧ lb.contents.getLsbD 0 = true) := by
            rintro hq ⟨h1, h2⟩
            exact hs hq d (.leaf lf) (.leaf lb) (by simp [nodes]) ⟨⟨lf, rfl, h1⟩, ⟨lb, rfl, h2⟩⟩
          by_cases hf : (!o.q2 && lf.contents.getLsbD 0) = true
          · rw [if_pos hf]
            simp only [Bool.and_eq_true, Bool.not_eq_true'] at hf
            rw [if_neg]
            · omega
            · simp only [Bool.and_eq_true, Bool.not_eq_true']
              intro hb
              exact hs' hf.1 ⟨hf.2, hb.2⟩
          · rw [if_neg hf]
            have hown : own o.q2 (.leaf lf) = 1 := by
              have : (o.q2 || !lf.contents.getLsbD 0) = true := by
                revert hf
                cases o.q2 <;> cases lf.contents.getLsbD 0 <;> simp
              simp only [own, ownLeafs, leafs, List.filter, this]
              rfl
            rw [hown]
            split <;> omega
        | node d' f' b' =>
          simp only [childNum]
          split <;> omega
      | node d' f' b' =>
        cases b with
        | leaf lb =>
          simp only [childNum]
          split <;> omega
        | node d'' f'' b'' =>
          simp only [childNum]
          have hk := congrArg List.length hk2'
          have hk2n : k2 ≠ [] := hnode2 ⟨_, _, _, rfl⟩
          have := List.length_pos_of_ne_nil hk2n
          simp only [List.length_append, List.length_cons, List.length_nil] at hk ⊢
          omega
    have hneg : ¬(cn0 = -1 ∧ cn1 = -1) := fun h => hdiff (h.1.trans h.2.symm)
    refine ⟨s3, ?_⟩
    rw [exportDraw_node]
    simp only
    rw [h0]
    simp only [Outcome.ok_bind]
    rw [n0, h2]
    simp only [Outcome.ok_bind]
    rw [h3]
    simp only [Outcome.ok_bind, Outcome.readAt]
    rw [hi3]
    simp only [Outcome.ok_bind]
    rw [(withChild_other cn1).1, (withChild_other cn0).2.2.2.1, (withChild_other cn1).2.1, if_neg hneg, if_neg hdiff]

/-- **C57.** The export of a pruned tree with at least one node never fails: the checks for equal children hold, if the
contents of the leafs can be written, their bounds are assigned and the plane numbers exist. -/
theorem draw_export_total {o : Opts} {rnd : K → K} {t : Bsp} {st : St K} (sort : List Brush → List Brush)
    (hst : Exported rnd st) (h0 : st.dleafs ≠ [])
    (hp : ∀ k ∈ planenums (prune o.q2 sort t).1, k < st.planes.length)
    (hl : ∀ l ∈ leafs (prune o.q2 sort t).1, (∃ c, toNative o.q2 (remap o.q2 l.contents) = .ok c) ∧ l.bounded = true) :
    ∃ r, exportModel o rnd (prune o.q2 sort t).1 st = .ok r := by
  have hs := prune_no_two_solid o.q2 sort t
  generalize (prune o.q2 sort t).1 = u at hp hl hs
  cases u with
  | leaf l =>
    obtain ⟨h1, h2⟩ := hl l (by simp [leafs])
    obtain ⟨st', h⟩ := exportLeaf_ok (o := o) st h1 h2
    simp only [exportModel, h, Outcome.ok_bind]
    exact ⟨_, rfl⟩
  | node d f b =>
    obtain ⟨st', h⟩ := exportDraw_ok (o := o) (rnd := rnd) st hst h0 hp hl (fun _ => hs) ⟨_, _, _, rfl⟩
    simp only [exportModel, h, Outcome.ok_bind]
    exact ⟨_, rfl⟩

/-- A tree with two solid leafs below one node cannot be exported (not Quake II). -/
example : exportModel ⟨false, false, false⟩ (id : ℚ → ℚ) (.node ⟨0, 0, 0, 0, true⟩ (.leaf (exampleLeaf SOLID []))
    (.leaf (exampleLeaf SOLID []))) ⟨[⟨⟨⟨1, 0, 0⟩, 4⟩, .x, none⟩], [], [], [], [⟨-2, 0, 0, 0, -1, 0, 0⟩], []⟩ = .error :=
  rfl

/-- Non-vacuity: a model with two nodes; its first leaf marks two of three fragments; one leaf is solid. -/
example :
    let st : St ℚ := ⟨[⟨⟨⟨1, 0, 0⟩, 4⟩, .x, none⟩, ⟨⟨⟨-1, 0, 0⟩, -4⟩, .x, none⟩, ⟨⟨⟨3/5, 4/5, 0⟩, 3⟩, .anyY, some 0⟩,
        ⟨⟨⟨-3/5, -4/5, 0⟩, -3⟩, .anyY, none⟩], [⟨⟨⟨3/5, 4/5, 0⟩, 3⟩, .anyY⟩], [], [⟨0, -1, -2, 0, 0⟩],
        [⟨-2, 0, 0, 0, -1, 0, 0⟩], [9]⟩
    let t : Bsp := .node ⟨0, 7, 2, 0, true⟩
      (.node ⟨2, 0, 0, 0, true⟩ (.leaf ⟨WATER, [⟨false, false, [some 4, none, some 5]⟩, ⟨true, false, [some 6]⟩],
        [], 0, 0, 0, 3, true⟩) (.leaf (exampleLeaf SOLID [])))
      (.leaf (exampleLeaf EMPTY []))
    Exported id st ∧ (∀ k ∈ planenums t, ∀ m, st.planes[k]? = some m → TypeOk (toDPlane id m)) ∧
      ∃ st', exportModel ⟨false, false, false⟩ id t st = .ok (1, 2, st') ∧
        st'.dnodes = [⟨0, -1, -2, 0, 0⟩, ⟨1, 2, -3, 7, 2⟩, ⟨0, -2, -1, 0, 0⟩] ∧ st'.dleaffaces = [9, 4, 5] ∧
        findLeaf st'.dplanes st'.dnodes st'.dleafs ⟨5, 2, 0⟩ 5 1 = some (.ok (1, ⟨-3, 1, 2, 0, 3, 0, 0⟩)) ∧
        findLeaf st'.dplanes st'.dnodes st'.dleafs ⟨5, -2, 0⟩ 5 1 = some (.ok (0, ⟨-2, 0, 0, 0, -1, 0, 0⟩)) := by
  intro st t
  refine ⟨?_, ?_, ?_⟩
  · intro n m k hn hk
    have hlt := (List.getElem?_eq_some_iff.1 hn).1
    have : n < 4 := hlt
    have : n = 0 ∨ n = 1 ∨ n = 2 ∨ n = 3 := by omega
    rcases this with rfl | rfl | rfl | rfl <;> simp [st] at hn <;> subst hn <;> simp at hk
    subst hk
    rfl
  · intro k hk m hm
    simp only [planenums, nodes, t, List.map_cons, List.map_nil, List.append_nil,
      List.mem_cons, List.not_mem_nil, or_false] at hk
    rcases hk with rfl | rfl <;> simp [st] at hm <;> subst hm <;> simp [TypeOk, toDPlane, rndPlane]
  · exact ⟨_, rfl, by decide +kernel, by decide +kernel, by decide +kernel, by decide +kernel⟩

end Verif.Tree
