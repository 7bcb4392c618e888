import Verif.Tree.Spec
import Verif.Tree.PlaneProps

/-! C56: export of a clip hull. -/

namespace Verif.Tree

open Geom Contents Spec

set_option linter.unusedSectionVars false

variable {K : Type} [Field K] [LinearOrder K] [IsStrictOrderedRing K]

/-- The planes that have a number in the file are there. -/
def Spec.Exported (rnd : K → K) (st : St K) : Prop :=
  ∀ (n : Nat) m k, st.planes[n]? = some m → m.outputnum = some k → st.dplanes[k]? = some (toDPlane rnd m)

/-- The records of all planes of the map, whether exported or not. -/
abbrev recs (rnd : K → K) (st : St K) : List (DPlane K) := st.planes.map (toDPlane rnd)

/-- What `exportPlane` does. -/
theorem exportPlane_spec {rnd : K → K} {n : Nat} {st st' : St K} {k : Nat} (hst : Exported rnd st)
    (h : exportPlane rnd n st = .ok (k, st')) :
    Exported rnd st' ∧ recs rnd st' = recs rnd st ∧ (∃ l, st'.dplanes = st.dplanes ++ l) ∧
      (∃ dp, (recs rnd st)[n]? = some dp ∧ st'.dplanes[k]? = some dp) ∧
      st'.dclipnodes = st.dclipnodes ∧ st'.dnodes = st.dnodes ∧ st'.dleafs = st.dleafs ∧
      st'.dleaffaces = st.dleaffaces := by
  unfold exportPlane at h
  obtain ⟨m, hm, h⟩ := Outcome.bind_eq_ok.1 h
  unfold Outcome.readAt at hm
  rcases hg : st.planes[n]? with _ | m'
  · rw [hg] at hm; cases hm
  · rw [hg] at hm
    simp only [Outcome.ok.injEq] at hm
    subst hm
    have hrec : (recs rnd st)[n]? = some (toDPlane rnd m') := by simp [recs, hg]
    rcases ho : m'.outputnum with _ | k'
    · rw [ho] at h
      simp only [Outcome.ok.injEq, Prod.mk.injEq] at h
      obtain ⟨rfl, rfl⟩ := h
      have hn := (List.getElem?_eq_some_iff.1 hg).1
      refine ⟨?_, ?_, ⟨_, rfl⟩, ⟨_, hrec, by simp⟩, rfl, rfl, rfl, rfl⟩
      · intro i m k hi hk
        simp only at hi ⊢
        by_cases hin : i = n
        · subst hin
          rw [List.getElem?_set_self hn] at hi
          simp only [Option.some.injEq] at hi
          subst hi
          simp only [Option.some.injEq] at hk
          subst hk
          simp [toDPlane]
        · rw [List.getElem?_set_ne (Ne.symm hin)] at hi
          have := hst i m k hi hk
          rw [List.getElem?_append_left (List.getElem?_eq_some_iff.1 this).1]
          exact this
      · apply List.ext_getElem?
        intro i
        simp only [recs, List.getElem?_map]
        by_cases hin : i = n
        · subst hin
          rw [List.getElem?_set_self hn, hg]
          simp [toDPlane]
        · rw [List.getElem?_set_ne (Ne.symm hin)]
    · rw [ho] at h
      simp only [Outcome.ok.injEq, Prod.mk.injEq] at h
      obtain ⟨rfl, rfl⟩ := h
      exact ⟨hst, rfl, ⟨[], by simp⟩, ⟨_, hrec, hst n m' k' hg ho⟩, rfl, rfl, rfl, rfl⟩

/-- The clip nodes from `n` on represent the tree; the numbers of the nodes are at least `lo`. -/
def RepClip (pls dplanes : List (DPlane K)) (clips : List ClipNode) (lo : Nat) : Bsp → Int → Prop
  | .leaf l, n => Q1.toNative l.contents = .ok n
  | .node d f b, n => ∃ (i : Nat) (nd : ClipNode) (dp : DPlane K), n = (i : Int) ∧ lo ≤ i ∧ clips[i]? = some nd ∧
      pls[d.planenum]? = some dp ∧ dplanes[nd.planenum]? = some dp ∧
      RepClip pls dplanes clips lo f nd.c0 ∧ RepClip pls dplanes clips lo b nd.c1

theorem RepClip.mono {pls dplanes dplanes' : List (DPlane K)} {clips clips' : List ClipNode} {lo lo' : Nat}
    (hlo : lo' ≤ lo) (hd : ∀ (i : Nat) x, dplanes[i]? = some x → dplanes'[i]? = some x)
    (hc : ∀ (i : Nat) x, lo ≤ i → clips[i]? = some x → clips'[i]? = some x) {t : Bsp} :
    ∀ {n : Int}, RepClip pls dplanes clips lo t n → RepClip pls dplanes' clips' lo' t n := by
  induction t with
  | leaf l => intro n h; exact h
  | node d f b ihf ihb =>
    rintro n ⟨i, nd, dp, rfl, hi, hnd, hp, hdp, hf, hb⟩
    exact ⟨i, nd, dp, rfl, hlo.trans hi, hc i nd hi hnd, hp, hd _ _ hdp, ihf hf, ihb hb⟩

theorem append_getElem? {α : Type} {a b l : List α} (h : b = a ++ l) :
    ∀ (i : Nat) x, a[i]? = some x → b[i]? = some x := by
  intro i x hx
  rw [h, List.getElem?_append_left (List.getElem?_eq_some_iff.1 hx).1]
  exact hx

theorem exportClip_spec {rnd : K → K} {t : Bsp} : ∀ {st st' : St K} {n : Int}, Exported rnd st →
    exportClip false rnd t st = .ok (n, st') →
    Exported rnd st' ∧ recs rnd st' = recs rnd st ∧ (∃ l, st'.dplanes = st.dplanes ++ l) ∧
      (∃ l, st'.dclipnodes = st.dclipnodes ++ l) ∧
      (st'.dnodes = st.dnodes ∧ st'.dleafs = st.dleafs ∧ st'.dleaffaces = st.dleaffaces) ∧
      RepClip (recs rnd st) st'.dplanes st'.dclipnodes st.dclipnodes.length t n := by
  induction t with
  | leaf l =>
    intro st st' n hst h
    simp only [exportClip] at h
    obtain ⟨c, hc, h⟩ := Outcome.bind_eq_ok.1 h
    simp only [Outcome.ok.injEq, Prod.mk.injEq] at h
    obtain ⟨rfl, rfl⟩ := h
    exact ⟨hst, rfl, ⟨[], by simp⟩, ⟨[], by simp⟩, ⟨rfl, rfl, rfl⟩, hc⟩
  | node d f b ihf ihb =>
    intro st st' n hst h
    simp only [exportClip] at h
    obtain ⟨⟨c0, s0⟩, h0, h⟩ := Outcome.bind_eq_ok.1 h
    obtain ⟨⟨c1, s1⟩, h1, h⟩ := Outcome.bind_eq_ok.1 h
    obtain ⟨⟨pn, s2⟩, h2, h⟩ := Outcome.bind_eq_ok.1 h
    obtain ⟨cl, h3, h⟩ := Outcome.bind_eq_ok.1 h
    simp only [Outcome.ok.injEq, Prod.mk.injEq] at h
    obtain ⟨rfl, rfl⟩ := h
    simp only at h1 h2 h3
    obtain ⟨e0, r0, ⟨l0, p0⟩, ⟨k0, q0⟩, o0, rep0⟩ := ihf (st := { st with dclipnodes := st.dclipnodes ++ [⟨0, 0, 0⟩] })
      hst h0
    obtain ⟨e1, r1, ⟨l1, p1⟩, ⟨k1, q1⟩, o1, rep1⟩ := ihb e0 h1
    obtain ⟨e2, r2, ⟨l2, p2⟩, ⟨dp, hdp, hdp'⟩, q2, o2⟩ := exportPlane_spec e1 h2
    have hr0 : recs rnd s0 = recs rnd st := r0
    have hr1 : recs rnd s1 = recs rnd st := r1.trans hr0
    have hq0 : s0.dclipnodes = (st.dclipnodes ++ [⟨0, 0, 0⟩]) ++ k0 := q0
    unfold Outcome.writeAt at h3
    have hlen : st.dclipnodes.length < s2.dclipnodes.length := by
      rw [q2, q1, hq0]; simp only [List.length_append, List.length_cons, List.length_nil]; omega
    rw [if_pos hlen] at h3
    simp only [Outcome.ok.injEq] at h3
    subst h3
    have hset : s2.dclipnodes.set st.dclipnodes.length ⟨pn, c0, c1⟩ =
        st.dclipnodes ++ ([⟨pn, c0, c1⟩] ++ k0 ++ k1) := by
      rw [q2, q1, hq0]
      simp
    have hge : ∀ (i : Nat) x, st.dclipnodes.length + 1 ≤ i → s2.dclipnodes[i]? = some x →
        (s2.dclipnodes.set st.dclipnodes.length ⟨pn, c0, c1⟩)[i]? = some x := by
      intro i x hi hx
      rw [List.getElem?_set_ne (by omega)]
      exact hx
    refine ⟨e2, r2.trans hr1, ⟨l0 ++ l1 ++ l2, ?_⟩, ⟨_, hset⟩, ?_, ?_⟩
    · simp only; rw [p2, p1, p0]; simp
    · exact ⟨o2.1.trans (o1.1.trans o0.1), o2.2.1.trans (o1.2.1.trans o0.2.1),
        o2.2.2.trans (o1.2.2.trans o0.2.2)⟩
    · refine ⟨st.dclipnodes.length, ⟨pn, c0, c1⟩, dp, rfl, le_rfl, ?_, ?_, ?_, ?_, ?_⟩
      · simp only; rw [hset]; simp
      · rw [← hr1]; exact hdp
      · exact hdp'
      · refine RepClip.mono (by simp) ?_ ?_ rep0
        · intro i x hx
          exact append_getElem? p2 i x (append_getElem? p1 i x hx)
        · intro i x hi hx
          simp only [List.length_append, List.length_cons, List.length_nil] at hi
          exact hge i x hi (by rw [q2]; exact append_getElem? q1 i x hx)
      · rw [hr0] at rep1
        refine RepClip.mono (by rw [hq0]; simp only [List.length_append]; omega) (append_getElem? p2) ?_ rep1
        intro i x hi hx
        rw [hq0] at hi
        simp only [List.length_append, List.length_cons, List.length_nil] at hi
        exact hge i x (by omega) (by rw [q2]; exact hx)

theorem toNative_neg {c : Contents} {n : Int} (h : Q1.toNative c = .ok n) : n < 0 := by
  unfold Q1.toNative at h
  repeat' split at h
  all_goals first
    | (cases h; done)
    | (simp only [Outcome.ok.injEq] at h; omega)

/-- The plane numbers of a tree. -/
def Spec.planenums (t : Bsp) : List Nat := (nodes t).map fun x => x.1.planenum

theorem repClip_walk {rnd : K → K} {planes : List (MapPlane K)} {dplanes : List (DPlane K)} {clips : List ClipNode}
    {lo : Nat} (p : Vec K) {t : Bsp} :
    ∀ {n : Int}, (∀ k ∈ planenums t, ∀ m, planes[k]? = some m → TypeOk (toDPlane rnd m)) →
    RepClip (planes.map (toDPlane rnd)) dplanes clips lo t n →
    ∃ c, Q1.toNative (leafAt (sides rnd planes p) t).contents = .ok c ∧
      ∃ N, ∀ fuel ≥ N, ∀ parent side, ∃ parent' side', findClip dplanes clips p fuel parent side n =
        some (.ok ⟨parent', side', c⟩) := by
  induction t with
  | leaf l =>
    intro n _ h
    have hn : n < 0 := toNative_neg h
    refine ⟨n, h, 1, ?_⟩
    intro fuel hf parent side
    obtain ⟨m, rfl⟩ : ∃ m, fuel = m + 1 := ⟨fuel - 1, by omega⟩
    simp only [findClip]
    rw [if_pos hn]
    exact ⟨parent, side, rfl⟩
  | node d f b ihf ihb =>
    rintro n ht ⟨i, nd, dp, rfl, -, hnd, hp, hdp, hf, hb⟩
    rw [List.getElem?_map] at hp
    rcases hm : planes[d.planenum]? with _ | m
    · rw [hm] at hp; cases hp
    · rw [hm] at hp
      simp only [Option.map_some, Option.some.injEq] at hp
      subst hp
      have hfast := distFast_of_typeOk (ht d.planenum (by simp [planenums, nodes]) m hm) p
      have hside : sides rnd planes p d.planenum = decide ((rndPlane rnd m.plane).distTo p ≥ 0) := by
        simp [sides, hm]
      simp only [leafAt, hside, decide_eq_true_eq]
      have htf : ∀ k ∈ planenums f, ∀ m, planes[k]? = some m → TypeOk (toDPlane rnd m) := fun k hk =>
        ht k (by simp only [planenums, nodes, List.map_cons, List.map_append, List.mem_cons, List.mem_append] at hk ⊢
                 exact Or.inr (Or.inl hk))
      have htb : ∀ k ∈ planenums b, ∀ m, planes[k]? = some m → TypeOk (toDPlane rnd m) := fun k hk =>
        ht k (by simp only [planenums, nodes, List.map_cons, List.map_append, List.mem_cons, List.mem_append] at hk ⊢
                 exact Or.inr (Or.inr hk))
      by_cases hd : (rndPlane rnd m.plane).distTo p ≥ 0
      · obtain ⟨c, hc, N, hN⟩ := ihf htf hf
        rw [if_pos hd]
        refine ⟨c, hc, N + 1, ?_⟩
        intro fuel hfu parent side
        obtain ⟨k, rfl⟩ : ∃ k, fuel = k + 1 := ⟨fuel - 1, by omega⟩
        simp only [findClip]
        rw [if_neg (by omega)]
        simp only [Int.toNat_natCast, hnd, hdp]
        rw [if_pos (by rw [hfast]; exact hd)]
        exact hN k (by omega) _ _
      · obtain ⟨c, hc, N, hN⟩ := ihb htb hb
        rw [if_neg hd]
        refine ⟨c, hc, N + 1, ?_⟩
        intro fuel hfu parent side
        obtain ⟨k, rfl⟩ : ∃ k, fuel = k + 1 := ⟨fuel - 1, by omega⟩
        simp only [findClip]
        rw [if_neg (by omega)]
        simp only [Int.toNat_natCast, hnd, hdp]
        rw [if_neg (by rw [hfast]; exact hd)]
        exact hN k (by omega) _ _

/-- **C56.** If a clip hull is exported and more is appended to the arrays of the file afterwards, then for every point
the walk from the exported head node ends with the contents of the leaf of the tree in which the point lies (the planes
being rounded as in the file), whatever the arrays held before. -/
theorem clip_export {rnd : K → K} {t : Bsp} {st st' : St K} {n : Int} (hst : Exported rnd st)
    (ht : ∀ k ∈ planenums t, ∀ m, st.planes[k]? = some m → TypeOk (toDPlane rnd m))
    (h : exportClip false rnd t st = .ok (n, st')) (morePlanes : List (DPlane K)) (moreNodes : List ClipNode)
    (p : Vec K) :
    ∃ c, Q1.toNative (leafAt (sides rnd st.planes p) t).contents = .ok c ∧
      ∃ N, ∀ fuel ≥ N, ∀ parent side, ∃ parent' side',
        findClip (st'.dplanes ++ morePlanes) (st'.dclipnodes ++ moreNodes) p fuel parent side n =
          some (.ok ⟨parent', side', c⟩) := by
  obtain ⟨-, -, -, -, -, hrep⟩ := exportClip_spec hst h
  exact repClip_walk p ht (hrep.mono le_rfl (append_getElem? rfl) fun i x _ => append_getElem? rfl i x)

theorem exportPlane_keeps {rnd : K → K} {n : Nat} {st st' : St K} {k : Nat}
    (h2 : exportPlane rnd n st = .ok (k, st')) :
    st'.planes.map (fun m => (m.plane, m.type)) = st.planes.map (fun m => (m.plane, m.type)) := by
  unfold exportPlane at h2
  obtain ⟨m, hm, h⟩ := Outcome.bind_eq_ok.1 h2
  unfold Outcome.readAt at hm
  split at hm
  · rename_i m' hg
    simp only [Outcome.ok.injEq] at hm
    subst hm
    split at h
    · simp only [Outcome.ok.injEq, Prod.mk.injEq] at h
      rw [h.2]
    · simp only [Outcome.ok.injEq, Prod.mk.injEq] at h
      obtain ⟨-, rfl⟩ := h
      apply List.ext_getElem?
      intro i
      simp only [List.getElem?_map]
      by_cases hin : i = n
      · subst hin
        rw [List.getElem?_set_self (List.getElem?_eq_some_iff.1 hg).1, hg]
        rfl
      · rw [List.getElem?_set_ne (Ne.symm hin)]
  · cases hm

/-- **C56.** The export keeps what the arrays held before, the planes with a number are in the file, and the planes of
the map stay the same. -/
theorem clip_export_appends {rnd : K → K} {t : Bsp} {st st' : St K} {n : Int} (hst : Exported rnd st)
    (h : exportClip false rnd t st = .ok (n, st')) :
    st.dplanes <+: st'.dplanes ∧ st.dclipnodes <+: st'.dclipnodes ∧ st'.dnodes = st.dnodes ∧
      st'.dleafs = st.dleafs ∧ Exported rnd st' ∧
      st'.planes.map (fun m => (m.plane, m.type)) = st.planes.map (fun m => (m.plane, m.type)) := by
  have hpl : ∀ {t : Bsp} {st st' : St K} {n : Int}, exportClip false rnd t st = .ok (n, st') →
      st'.planes.map (fun m => (m.plane, m.type)) = st.planes.map (fun m => (m.plane, m.type)) := by
    intro t
    induction t with
    | leaf l =>
      intro st st' n h
      simp only [exportClip] at h
      obtain ⟨c, hc, h⟩ := Outcome.bind_eq_ok.1 h
      simp only [Outcome.ok.injEq, Prod.mk.injEq] at h
      rw [h.2]
    | node d f b ihf ihb =>
      intro st st' n h
      simp only [exportClip] at h
      obtain ⟨⟨c0, s0⟩, h0, h⟩ := Outcome.bind_eq_ok.1 h
      obtain ⟨⟨c1, s1⟩, h1, h⟩ := Outcome.bind_eq_ok.1 h
      obtain ⟨⟨pn, s2⟩, h2, h⟩ := Outcome.bind_eq_ok.1 h
      obtain ⟨cl, h3, h⟩ := Outcome.bind_eq_ok.1 h
      simp only [Outcome.ok.injEq, Prod.mk.injEq] at h
      obtain ⟨-, rfl⟩ := h
      have e0 := ihf h0
      simp only at e0 ⊢
      rw [← e0, ← ihb h1]
      exact exportPlane_keeps h2
  obtain ⟨h1, -, ⟨l, h3⟩, ⟨l', h4⟩, h5, -⟩ := exportClip_spec hst h
  exact ⟨⟨l, h3.symm⟩, ⟨l', h4.symm⟩, h5.1, h5.2.1, h1, hpl h⟩

theorem exportPlane_ok {rnd : K → K} {n : Nat} {st : St K} (h : n < st.planes.length) :
    ∃ k st', exportPlane rnd n st = .ok (k, st') ∧ st'.planes.length = st.planes.length := by
  unfold exportPlane Outcome.readAt
  rw [List.getElem?_eq_getElem h]
  simp only [Outcome.ok_bind]
  split
  · exact ⟨_, _, rfl, rfl⟩
  · exact ⟨_, _, rfl, by simp⟩

/-- **C56.** The export succeeds if every leaf has contents that can be written and the plane numbers exist. -/
theorem clip_export_total {rnd : K → K} {t : Bsp} : ∀ (st : St K) (_ : Exported rnd st)
    (_ : ∀ l ∈ leafs t, ∃ c, Q1.toNative l.contents = .ok c) (_ : ∀ k ∈ planenums t, k < st.planes.length),
    ∃ n st', exportClip false rnd t st = .ok (n, st') := by
  induction t with
  | leaf l =>
    intro st _ hl _
    obtain ⟨c, hc⟩ := hl l (by simp [leafs])
    refine ⟨c, st, ?_⟩
    simp only [exportClip, toNative, Bool.false_eq_true, if_false, hc, Outcome.ok_bind]
  | node d f b ihf ihb =>
    intro st hst hl hp
    simp only [leafs, List.mem_append] at hl
    simp only [planenums, nodes, List.map_cons, List.map_append, List.mem_cons, List.mem_append] at hp
    obtain ⟨c0, s0, h0⟩ := ihf { st with dclipnodes := st.dclipnodes ++ [⟨0, 0, 0⟩] } hst
      (fun l h => hl l (Or.inl h)) (fun k h => hp k (Or.inr (Or.inl h)))
    obtain ⟨e0, r0, -, ⟨k0, q0⟩, -, -⟩ := exportClip_spec
      (st := { st with dclipnodes := st.dclipnodes ++ [⟨0, 0, 0⟩] }) hst h0
    have hlen0 : s0.planes.length = st.planes.length := by
      have := congrArg List.length r0
      simpa [recs] using this
    obtain ⟨c1, s1, h1⟩ := ihb s0 e0 (fun l h => hl l (Or.inr h))
      (fun k h => by rw [hlen0]; exact hp k (Or.inr (Or.inr h)))
    obtain ⟨e1, r1, -, ⟨k1, q1⟩, -, -⟩ := exportClip_spec e0 h1
    have hlen1 : s1.planes.length = st.planes.length := by
      have := congrArg List.length r1
      simp only [recs, List.length_map] at this
      omega
    obtain ⟨pn, s2, h2, -⟩ := exportPlane_ok (rnd := rnd) (n := d.planenum) (st := s1)
      (by rw [hlen1]; exact hp _ (Or.inl rfl))
    obtain ⟨-, -, -, -, q2, -⟩ := exportPlane_spec e1 h2
    refine ⟨(st.dclipnodes.length : Int),
      { s2 with dclipnodes := s2.dclipnodes.set st.dclipnodes.length ⟨pn, c0, c1⟩ }, ?_⟩
    simp only [exportClip]
    rw [h0]
    simp only [Outcome.ok_bind]
    rw [h1]
    simp only [Outcome.ok_bind]
    rw [h2]
    simp only [Outcome.ok_bind, Outcome.writeAt]
    rw [if_pos (by
      rw [q2, q1, q0]
      simp only [List.length_append, List.length_cons, List.length_nil]; omega)]
    simp only [Outcome.ok_bind]

/-- The hypotheses of `clip_export` hold at the beginning for the planes that qbsp collected, with even plane numbers
in the tree. -/
theorem start_exported {rnd : K → K} (hr : RndOk rnd) {epsN epsD : K} (h0 : 0 ≤ epsN) (h1 : 0 ≤ epsD)
    (pick : List Nat → Nat) (ps : List (Plane K)) (hu : ∀ p ∈ ps, Geom.Spec.UnitNormal p) (st : St K)
    (hst : st.planes = (addAll epsN epsD pick PlaneDb.empty ps).2.planes)
    (hnone : ∀ m ∈ st.planes, m.outputnum = none) (t : Bsp) (heven : ∀ k ∈ planenums t, k % 2 = 0) :
    Exported rnd st ∧ ∀ k ∈ planenums t, ∀ m, st.planes[k]? = some m → TypeOk (toDPlane rnd m) := by
  constructor
  · intro n m k hn hk
    rw [hnone m (List.mem_of_getElem? hn)] at hk; cases hk
  · intro k hk m hm
    obtain ⟨hd, -, -⟩ := addAll_ok h0 h1 (pick := pick) ps PlaneDb.empty dbOk_empty hu
    rw [hst] at hm
    obtain ⟨j, rfl⟩ : ∃ j, k = 2 * j := ⟨k / 2, by have := heven k hk; omega⟩
    have hlt := (List.getElem?_eq_some_iff.1 hm).1
    have hev := hd.even
    have hb := List.getElem?_eq_getElem
      (show 2 * j + 1 < (addAll epsN epsD pick PlaneDb.empty ps).2.planes.length by omega)
    exact pair_typeOk hr (hd.pairs j m _ hm hb)

/-- Non-vacuity: a clip hull with two nodes, exported after another one; the second plane is used twice. -/
example :
    let st : St ℚ := ⟨[⟨⟨⟨1, 0, 0⟩, 4⟩, .x, none⟩, ⟨⟨⟨-1, 0, 0⟩, -4⟩, .x, none⟩, ⟨⟨⟨3/5, 4/5, 0⟩, 3⟩, .anyY, some 0⟩,
        ⟨⟨⟨-3/5, -4/5, 0⟩, -3⟩, .anyY, none⟩], [⟨⟨⟨3/5, 4/5, 0⟩, 3⟩, .anyY⟩], [⟨0, -1, -2⟩], [], [], []⟩
    let t : Bsp := .node ⟨0, 0, 0, 0, true⟩
      (.node ⟨2, 0, 0, 0, true⟩ (.leaf ⟨SOLID, [], [], 0, 0, 0, 0, true⟩) (.leaf ⟨WATER, [], [], 0, 0, 0, 0, true⟩))
      (.leaf ⟨EMPTY, [], [], 0, 0, 0, 0, true⟩)
    Exported id st ∧ (∀ k ∈ planenums t, ∀ m, st.planes[k]? = some m → TypeOk (toDPlane id m)) ∧
      ∃ st', exportClip false id t st = .ok (1, st') ∧ st'.dclipnodes = [⟨0, -1, -2⟩, ⟨1, 2, -1⟩, ⟨0, -2, -3⟩] ∧
        findClip st'.dplanes st'.dclipnodes ⟨5, -2, 0⟩ 5 (-1) true 1 = some (.ok ⟨2, false, -3⟩) := by
  intro st t
  refine ⟨?_, ?_, ?_⟩
  · intro n m k hn hk
    have hlt := (List.getElem?_eq_some_iff.1 hn).1
    have : n < 4 := hlt
    have : n = 0 ∨ n = 1 ∨ n = 2 ∨ n = 3 := by omega
    rcases this with rfl | rfl | rfl | rfl <;> simp [st] at hn <;> subst hn <;> simp at hk
    subst hk
    rfl
  · intro k hk m hm
    simp only [planenums, nodes, t, List.map_cons, List.map_nil, List.append_nil,
      List.mem_cons, List.not_mem_nil, or_false] at hk
    rcases hk with rfl | rfl <;> simp [st] at hm <;> subst hm <;> simp [TypeOk, toDPlane, rndPlane]
  · exact ⟨_, rfl, by decide +kernel, by decide +kernel⟩

end Verif.Tree
