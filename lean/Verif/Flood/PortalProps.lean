import Verif.Flood.Portals
import Mathlib.Data.List.Nodup
import Mathlib.Tactic.Set

/-! C78, C79: the portals of a tree and their lists. -/

namespace Verif.Flood

variable {W : Type}

namespace Spec

/-- The addresses of a tree. -/
def ids : PTree → List Nat
  | .leaf i => [i]
  | .node i _ f b => i :: (ids f ++ ids b)

/-- The nodes between which portals are made: the leafs, or (for vis) the leafs and the topmost detail separators. -/
def ends (vis : Bool) : PTree → List Nat
  | .leaf i => [i]
  | .node i detail f b => if vis && detail then [i] else ends vis f ++ ends vis b

/-- The subtrees at which portals are made: the nodes that are neither detail separators nor below one (for vis). -/
def splits (vis : Bool) : PTree → List (Nat × PTree × PTree)
  | .leaf _ => []
  | .node i detail f b => if vis && detail then [] else (i, f, b) :: (splits vis f ++ splits vis b)

/-- The portal lies on the plane of a node, with an end of its front child in front and an end of its back child
behind. -/
def Joins (vis : Bool) (t : PTree) (p : BuildPortal W) : Prop :=
  ∃ i f b, (i, f, b) ∈ splits vis t ∧ p.onnode = some i ∧ p.n0 ∈ ends vis f ∧ p.n1 ∈ ends vis b

end Spec

open Spec

/-- A portal on the boundary of a tree: the tree is on one side of it, and the other side is not part of the tree. -/
def Bd (t : PTree) (p : BuildPortal W) : Prop :=
  (p.n0 = t.id ∧ p.n1 ∉ ids t) ∨ (p.n1 = t.id ∧ p.n0 ∉ ids t)

/-- `q` is `p` with the side of the tree replaced by an end of the tree. -/
def From (vis : Bool) (t : PTree) (p q : BuildPortal W) : Prop :=
  q.onnode = p.onnode ∧ ((p.n0 = t.id ∧ q.n0 ∈ ends vis t ∧ q.n1 = p.n1) ∨
    (p.n1 = t.id ∧ q.n1 ∈ ends vis t ∧ q.n0 = p.n0))

/-- `q` is `p` with the side of node `i` replaced by `n`. -/
def Rep (i n : Nat) (p q : BuildPortal W) : Prop :=
  q.onnode = p.onnode ∧ ((p.n0 = i ∧ q.n0 = n ∧ q.n1 = p.n1) ∨ (p.n1 = i ∧ q.n1 = n ∧ q.n0 = p.n0))

theorem id_mem (t : PTree) : t.id ∈ ids t := by
  cases t <;> simp [PTree.id, ids]

theorem ends_sub {vis : Bool} {t : PTree} {n : Nat} (h : n ∈ ends vis t) : n ∈ ids t := by
  induction t with
  | leaf i => exact h
  | node i d f b ihf ihb =>
    simp only [ends] at h
    simp only [ids, List.mem_cons, List.mem_append]
    split at h
    · exact Or.inl (by simpa using h)
    · rcases List.mem_append.1 h with h | h
      · exact Or.inr (Or.inl (ihf h))
      · exact Or.inr (Or.inr (ihb h))

theorem rep_attach {p : BuildPortal W} {i n : Nat} (h : p.n0 = i ∨ p.n1 = i) :
    Rep i n p (attach p (decide (p.n0 = i)) n) := by
  by_cases h0 : p.n0 = i
  · simp [attach, Rep, h0]
  · have h1 : p.n1 = i := h.resolve_left h0
    simp [attach, Rep, h0, h1]

theorem splitOne_ok (ops : Ops W) {i f b : Nat} {p : BuildPortal W} (h : p.n0 = i ∨ p.n1 = i) :
    ∃ l r, splitOne ops i f b p = .ok (l, r) ∧ (∀ q ∈ l, Rep i f p q) ∧ ∀ q ∈ r, Rep i b p q := by
  unfold splitOne
  rw [if_pos h]
  have hf := rep_attach (n := f) h
  have hb := rep_attach (n := b) h
  simp only
  split
  · exact ⟨_, _, rfl, by simp, by simp⟩
  · exact ⟨_, _, rfl, by simp, by simpa using hb⟩
  · exact ⟨_, _, rfl, by simpa using hf, by simp⟩
  · refine ⟨_, _, rfl, ?_, ?_⟩ <;> intro q hq <;> simp only [List.mem_singleton] at hq <;> subst hq
    · exact hf
    · exact hb

theorem split_ok (ops : Ops W) {i f b : Nat} : ∀ {ps : List (BuildPortal W)}, (∀ p ∈ ps, p.n0 = i ∨ p.n1 = i) →
    ∃ l r, splitNodePortals ops i f b ps = .ok (l, r) ∧ (∀ q ∈ l, ∃ p ∈ ps, Rep i f p q) ∧
      ∀ q ∈ r, ∃ p ∈ ps, Rep i b p q := by
  intro ps
  induction ps with
  | nil => intro _; exact ⟨[], [], rfl, by simp, by simp⟩
  | cons p ps ih =>
    intro h
    obtain ⟨l, r, h1, h2, h3⟩ := splitOne_ok ops (f := f) (b := b) (h p (by simp))
    obtain ⟨l', r', h1', h2', h3'⟩ := ih fun q hq => h q (by simp [hq])
    refine ⟨l ++ l', r ++ r', ?_, ?_, ?_⟩
    · simp only [splitNodePortals]
      rw [h1, h1']
      rfl
    · intro q hq
      rcases List.mem_append.1 hq with hq | hq
      · exact ⟨p, by simp, h2 q hq⟩
      · obtain ⟨p', hp', hr⟩ := h2' q hq
        exact ⟨p', by simp [hp'], hr⟩
    · intro q hq
      rcases List.mem_append.1 hq with hq | hq
      · exact ⟨p, by simp, h3 q hq⟩
      · obtain ⟨p', hp', hr⟩ := h3' q hq
        exact ⟨p', by simp [hp'], hr⟩

theorem bd_rep {i : Nat} {d : Bool} {f b c : PTree} (hn : (ids (.node i d f b)).Nodup) (hc : c = f ∨ c = b)
    {p q : BuildPortal W} (hp : Bd (.node i d f b) p) (hr : Rep i c.id p q) : Bd c q := by
  simp only [ids, List.nodup_cons, List.mem_append, not_or] at hn
  have hsub : ∀ n, n ∉ ids (.node i d f b) → n ∉ ids c := by
    intro n h h'
    simp only [ids, List.mem_cons, List.mem_append, not_or] at h
    rcases hc with rfl | rfl
    · exact h.2.1 h'
    · exact h.2.2 h'
  have hic : i ∉ ids c := by
    rcases hc with rfl | rfl
    · exact hn.1.1
    · exact hn.1.2
  obtain ⟨-, hr⟩ := hr
  rcases hr with ⟨h1, h2, h3⟩ | ⟨h1, h2, h3⟩
  · refine Or.inl ⟨h2, ?_⟩
    rw [h3]
    rcases hp with ⟨-, h⟩ | ⟨h, h'⟩
    · exact hsub _ h
    · exact absurd (h1 ▸ id_mem (.node i d f b)) h'
  · refine Or.inr ⟨h2, ?_⟩
    rw [h3]
    rcases hp with ⟨h, h'⟩ | ⟨-, h⟩
    · exact absurd (h1 ▸ id_mem (.node i d f b)) h'
    · exact hsub _ h

theorem from_rep {vis : Bool} {i : Nat} {d : Bool} {f b c : PTree} (hv : (vis && d) = false) (hc : c = f ∨ c = b)
    {p q r : BuildPortal W} (hr : Rep i c.id p q) (hbd : Bd c q) (hq : From vis c q r)
    (hp : Bd (.node i d f b) p) : From vis (.node i d f b) p r := by
  have hends : ∀ n, n ∈ ends vis c → n ∈ ends vis (.node i d f b) := by
    intro n h
    simp only [ends, hv, Bool.false_eq_true, if_false, List.mem_append]
    rcases hc with rfl | rfl
    · exact Or.inl h
    · exact Or.inr h
  obtain ⟨ho, hr⟩ := hr
  obtain ⟨ho', hq⟩ := hq
  refine ⟨ho'.trans ho, ?_⟩
  have hcid := id_mem c
  rcases hr with ⟨h1, h2, h3⟩ | ⟨h1, h2, h3⟩
  · rcases hq with ⟨-, h5, h6⟩ | ⟨h4, -, -⟩
    · exact Or.inl ⟨h1, hends _ h5, h6.trans h3⟩
    · exfalso
      rcases hbd with ⟨-, hb⟩ | ⟨-, hb⟩
      · exact hb (h4 ▸ hcid)
      · exact hb (h2 ▸ hcid)
  · rcases hq with ⟨h4, -, -⟩ | ⟨-, h5, h6⟩
    · exfalso
      rcases hbd with ⟨-, hb⟩ | ⟨-, hb⟩
      · exact hb (h2 ▸ hcid)
      · exact hb (h4 ▸ hcid)
    · exact Or.inr ⟨h1, hends _ h5, h6.trans h3⟩

theorem from_self {vis : Bool} {t : PTree} (he : ends vis t = [t.id]) {p : BuildPortal W} (hp : Bd t p) :
    From vis t p p := by
  refine ⟨rfl, ?_⟩
  rcases hp with ⟨h, -⟩ | ⟨h, -⟩
  · exact Or.inl ⟨h, by simp [he, h], rfl⟩
  · exact Or.inr ⟨h, by simp [he, h], rfl⟩

theorem clipToTree_ok (ops : Ops W) (vis : Bool) {t : PTree} : ∀ {ps : List (BuildPortal W)}, (ids t).Nodup →
    (∀ p ∈ ps, Bd t p) → ∃ out, clipToTree ops vis t ps = .ok out ∧ ∀ q ∈ out, ∃ p ∈ ps, From vis t p q := by
  induction t with
  | leaf i => intro ps _ hb; exact ⟨ps, rfl, fun q hq => ⟨q, hq, from_self rfl (hb q hq)⟩⟩
  | node i d f b ihf ihb =>
    intro ps hn hb
    simp only [clipToTree]
    by_cases he : ps.isEmpty = true
    · rw [if_pos he]
      have : ps = [] := by simpa using he
      subst this
      exact ⟨[], rfl, by simp⟩
    · rw [if_neg he]
      by_cases hv : (vis && d) = true
      · rw [if_pos hv]
        refine ⟨ps, rfl, fun q hq => ⟨q, hq, from_self ?_ (hb q hq)⟩⟩
        simp only [ends, hv, if_true, PTree.id]
      · rw [if_neg hv]
        have hv' : (vis && d) = false := by simpa using hv
        obtain ⟨l, r, h1, h2, h3⟩ := split_ok ops (i := i) (f := f.id) (b := b.id) (ps := ps) fun p hp => by
          rcases hb p hp with ⟨h, -⟩ | ⟨h, -⟩
          · exact Or.inl h
          · exact Or.inr h
        have hn' := hn
        simp only [ids, List.nodup_cons, List.nodup_append] at hn'
        have hbf : ∀ q ∈ l, Bd f q := fun q hq => by
          obtain ⟨p, hp, hr⟩ := h2 q hq
          exact bd_rep hn (Or.inl rfl) (hb p hp) hr
        have hbb : ∀ q ∈ r, Bd b q := fun q hq => by
          obtain ⟨p, hp, hr⟩ := h3 q hq
          exact bd_rep hn (Or.inr rfl) (hb p hp) hr
        obtain ⟨fs, hf1, hf2⟩ := ihf hn'.2.1 hbf
        obtain ⟨bs, hb1, hb2⟩ := ihb hn'.2.2.1 hbb
        refine ⟨fs ++ bs, ?_, ?_⟩
        · rw [h1]; simp only [Outcome.ok_bind]; rw [hf1, hb1]; rfl
        · intro q hq
          rcases List.mem_append.1 hq with hq | hq
          · obtain ⟨p', hp', hfr⟩ := hf2 q hq
            obtain ⟨p, hp, hr⟩ := h2 p' hp'
            exact ⟨p, hp, from_rep hv' (Or.inl rfl) hr (hbf p' hp') hfr (hb p hp)⟩
          · obtain ⟨p', hp', hfr⟩ := hb2 q hq
            obtain ⟨p, hp, hr⟩ := h3 p' hp'
            exact ⟨p, hp, from_rep hv' (Or.inr rfl) hr (hbb p' hp') hfr (hb p hp)⟩

theorem joins_sub {vis : Bool} {i : Nat} {d : Bool} {f b c : PTree} (hv : (vis && d) = false) (hc : c = f ∨ c = b)
    {q : BuildPortal W} (h : Joins vis c q) : Joins vis (.node i d f b) q := by
  obtain ⟨j, f', b', hm, h⟩ := h
  refine ⟨j, f', b', ?_, h⟩
  simp only [splits, hv, Bool.false_eq_true, if_false, List.mem_cons, List.mem_append]
  rcases hc with rfl | rfl
  · exact Or.inr (Or.inl hm)
  · exact Or.inr (Or.inr hm)

theorem makeTreePortals_ok (ops : Ops W) (vis : Bool) {t : PTree} : ∀ {ps : List (BuildPortal W)}, (ids t).Nodup →
    (∀ p ∈ ps, Bd t p) → ∃ out, makeTreePortals ops vis t ps = .ok out ∧
      ∀ q ∈ out, (∃ p ∈ ps, From vis t p q) ∨ Joins vis t q := by
  induction t with
  | leaf i => intro ps _ hb; exact ⟨ps, rfl, fun q hq => Or.inl ⟨q, hq, from_self rfl (hb q hq)⟩⟩
  | node i d f b ihf ihb =>
    intro ps hn hb
    simp only [makeTreePortals]
    by_cases hv : (vis && d) = true
    · rw [if_pos hv]
      refine ⟨ps, rfl, fun q hq => Or.inl ⟨q, hq, from_self ?_ (hb q hq)⟩⟩
      simp only [ends, hv, if_true, PTree.id]
    · rw [if_neg hv]
      have hv' : (vis && d) = false := by simpa using hv
      have hside : ∀ p ∈ ps, p.n0 = i ∨ p.n1 = i := fun p hp => by
        rcases hb p hp with ⟨h, -⟩ | ⟨h, -⟩
        · exact Or.inl h
        · exact Or.inr h
      obtain ⟨l, r, h1, h2, h3⟩ := split_ok ops (i := i) (f := f.id) (b := b.id) hside
      have hn' := hn
      simp only [ids, List.nodup_cons, List.nodup_append] at hn'
      have hbf : ∀ q ∈ l, Bd f q := fun q hq => by
        obtain ⟨p, hp, hr⟩ := h2 q hq
        exact bd_rep hn (Or.inl rfl) (hb p hp) hr
      have hbb : ∀ q ∈ r, Bd b q := fun q hq => by
        obtain ⟨p, hp, hr⟩ := h3 q hq
        exact bd_rep hn (Or.inr rfl) (hb p hp) hr
      obtain ⟨fs, hf1, hf2⟩ := ihf hn'.2.1 hbf
      obtain ⟨bs, hb1, hb2⟩ := ihb hn'.2.2.1 hbb
      have hnp : ∃ np, makeNodePortal ops i f.id b.id ps = .ok np ∧
          ∀ p, np = some p → p.n0 = f.id ∧ p.n1 = b.id ∧ p.onnode = some i := by
        unfold makeNodePortal
        rw [if_pos (by simpa using hside)]
        split
        · exact ⟨none, rfl, by simp⟩
        · split
          · exact ⟨none, rfl, by simp⟩
          · exact ⟨_, rfl, by intro p hp; cases hp; exact ⟨rfl, rfl, rfl⟩⟩
      obtain ⟨np, hnp1, hnp2⟩ := hnp
      have hdis : ∀ n, n ∈ ids f → n ∉ ids b := fun n h h' => hn'.2.2.2 n h n h' rfl
      have hon : ∃ on : List (BuildPortal W), (match np with
          | none => (.ok [] : Outcome (List (BuildPortal W)))
          | some p => do
            let half ← clipToTree ops vis f [p]
            clipToTree ops vis b half) = .ok on ∧ ∀ q ∈ on, Joins vis (.node i d f b) q := by
        cases np with
        | none => exact ⟨[], rfl, by simp⟩
        | some p =>
          obtain ⟨hp0, hp1, hpo⟩ := hnp2 p rfl
          obtain ⟨half, hh1, hh2⟩ := clipToTree_ok ops vis (t := f) (ps := [p]) hn'.2.1 (fun q hq => by
            simp only [List.mem_singleton] at hq
            subst hq
            exact Or.inl ⟨hp0, hp1 ▸ fun h => hdis _ h (id_mem b)⟩)
          have hhalf : ∀ q ∈ half, q.onnode = some i ∧ q.n0 ∈ ends vis f ∧ q.n1 = b.id := by
            intro q hq
            obtain ⟨p', hp', ho, hfr⟩ := hh2 q hq
            simp only [List.mem_singleton] at hp'
            subst hp'
            refine ⟨ho.trans hpo, ?_⟩
            rcases hfr with ⟨-, h5, h6⟩ | ⟨h4, -, -⟩
            · exact ⟨h5, h6.trans hp1⟩
            · exact absurd (id_mem b) (hdis _ ((hp1.symm.trans h4) ▸ id_mem f))
          obtain ⟨on, ho1, ho2⟩ := clipToTree_ok ops vis (t := b) (ps := half) hn'.2.2.1 (fun q hq =>
            Or.inr ⟨(hhalf q hq).2.2, hdis _ (ends_sub (hhalf q hq).2.1)⟩)
          refine ⟨on, ?_, ?_⟩
          · simp only [hh1, Outcome.ok_bind, ho1]
          · intro q hq
            obtain ⟨p', hp', ho, hfr⟩ := ho2 q hq
            obtain ⟨g1, g2, g3⟩ := hhalf p' hp'
            refine ⟨i, f, b, ?_, ho.trans g1, ?_⟩
            · simp [splits, hv']
            · rcases hfr with ⟨h4, -, -⟩ | ⟨-, h5, h6⟩
              · exact absurd (id_mem b) (hdis _ (h4 ▸ ends_sub g2))
              · exact ⟨h6 ▸ g2, h5⟩
      obtain ⟨on, hon1, hon2⟩ := hon
      refine ⟨fs ++ bs ++ on, ?_, ?_⟩
      · rw [hnp1]
        simp only [Outcome.ok_bind]
        rw [h1]
        simp only [Outcome.ok_bind]
        rw [hf1, hb1]
        simp only [Outcome.ok_bind]
        cases np with
        | none => simp only at hon1 ⊢; rw [hon1]; rfl
        | some p => simp only at hon1 ⊢; rw [hon1]; rfl
      · intro q hq
        rcases List.mem_append.1 hq with hq | hq
        · rcases List.mem_append.1 hq with hq | hq
          · rcases hf2 q hq with ⟨p', hp', hfr⟩ | hj
            · obtain ⟨p, hp, hr⟩ := h2 p' hp'
              exact Or.inl ⟨p, hp, from_rep hv' (Or.inl rfl) hr (hbf p' hp') hfr (hb p hp)⟩
            · exact Or.inr (joins_sub hv' (Or.inl rfl) hj)
          · rcases hb2 q hq with ⟨p', hp', hfr⟩ | hj
            · obtain ⟨p, hp, hr⟩ := h3 p' hp'
              exact Or.inl ⟨p, hp, from_rep hv' (Or.inr rfl) hr (hbb p' hp') hfr (hb p hp)⟩
            · exact Or.inr (joins_sub hv' (Or.inr rfl) hj)
        · exact Or.inr (hon2 q hq)

/-- **C78.** Whatever the windings are, making the portals of a tree succeeds, and every portal either lies on the plane
of a node, with a leaf of its front child in front and a leaf of its back child behind, or is one of the portals around
the map and joins a leaf with the outside. -/
theorem tree_portals (ops : Ops W) {t : PTree} (hn : (ids t).Nodup) {outside : Nat} (ho : outside ∉ ids t)
    (sides : List (Bool × W)) :
    ∃ out, makeTreePortals ops false t (headnodePortals t.id outside sides) = .ok out ∧
      ∀ q ∈ out, Joins false t q ∨
        (q.onnode = none ∧ ((q.n0 ∈ ends false t ∧ q.n1 = outside) ∨ (q.n0 = outside ∧ q.n1 ∈ ends false t))) := by
  have hbd : ∀ p ∈ headnodePortals t.id outside sides, Bd t p := by
    intro p hp
    simp only [headnodePortals, List.mem_map] at hp
    obtain ⟨s, -, rfl⟩ := hp
    by_cases hs : s.1 = true
    · rw [if_pos hs]; exact Or.inr ⟨rfl, ho⟩
    · rw [if_neg hs]; exact Or.inl ⟨rfl, ho⟩
  obtain ⟨out, h1, h2⟩ := makeTreePortals_ok ops false hn hbd
  refine ⟨out, h1, fun q hq => ?_⟩
  rcases h2 q hq with ⟨p, hp, hoq, hfr⟩ | hj
  · refine Or.inr ?_
    simp only [headnodePortals, List.mem_map] at hp
    obtain ⟨s, -, rfl⟩ := hp
    have hne : outside ≠ t.id := fun h => ho (h ▸ id_mem t)
    by_cases hs : s.1 = true
    · rw [if_pos hs] at hoq hfr
      refine ⟨hoq, Or.inr ?_⟩
      rcases hfr with ⟨h, -, -⟩ | ⟨-, h5, h6⟩
      · exact absurd h hne
      · exact ⟨h6, h5⟩
    · rw [if_neg hs] at hoq hfr
      refine ⟨hoq, Or.inl ?_⟩
      rcases hfr with ⟨-, h5, h6⟩ | ⟨h, -, -⟩
      · exact ⟨h5, h6⟩
      · exact absurd h hne
  · exact Or.inl hj

/-- **C78, portals for vis.** They join leafs and whole detail clusters, and none leads outside. -/
theorem vis_portals (ops : Ops W) {t : PTree} (hn : (ids t).Nodup) :
    ∃ out, makeTreePortals ops true t [] = .ok out ∧ ∀ q ∈ out, Joins true t q := by
  obtain ⟨out, h1, h2⟩ := makeTreePortals_ok ops true hn (ps := []) (by simp)
  exact ⟨out, h1, fun q hq => by simpa using h2 q hq⟩

/-- The two ends of a portal that lies on the plane of a node are different. -/
theorem joins_ne {vis : Bool} {t : PTree} (hn : (ids t).Nodup) {q : BuildPortal W} (h : Joins vis t q) :
    q.n0 ∈ ends vis t ∧ q.n1 ∈ ends vis t ∧ q.n0 ≠ q.n1 := by
  induction t with
  | leaf i => obtain ⟨_, _, _, hm, -⟩ := h; simp [splits] at hm
  | node i d f b ihf ihb =>
    obtain ⟨j, f', b', hm, ho, h0, h1⟩ := h
    simp only [ids, List.nodup_cons, List.nodup_append] at hn
    by_cases hv : (vis && d) = true
    · simp [splits, hv] at hm
    · simp only [splits, hv, if_false, List.mem_cons, List.mem_append, Prod.mk.injEq, Bool.false_eq_true] at hm
      simp only [ends, hv, if_false, List.mem_append, Bool.false_eq_true]
      rcases hm with ⟨rfl, rfl, rfl⟩ | hm | hm
      · exact ⟨Or.inl h0, Or.inr h1, hn.2.2.2 _ (ends_sub h0) _ (ends_sub h1)⟩
      · obtain ⟨a, b, c⟩ := ihf hn.2.1 ⟨j, f', b', hm, ho, h0, h1⟩
        exact ⟨Or.inl a, Or.inl b, c⟩
      · obtain ⟨a, b, c⟩ := ihb hn.2.2.1 ⟨j, f', b', hm, ho, h0, h1⟩
        exact ⟨Or.inr a, Or.inr b, c⟩

/-! ## The lists -/

/-- A chain of `next` pointers for the node `v`. -/
inductive Linked (s : Links) (v : Nat) : Option Nat → List Nat → Prop
  | nil : Linked s v none []
  | cons (k : Nat) (p : LPortal) (l : List Nat) : s.portals[k]? = some p →
      Linked s v (if p.nodes.map (·.1) = some v then p.next0 else p.next1) l → Linked s v (some k) (k :: l)

theorem walk_of_linked {s : Links} {v : Nat} {h : Option Nat} {l : List Nat} (hl : Linked s v h l) :
    ∀ fuel ≥ l.length, walkList s v fuel h = some (.ok l) := by
  induction hl with
  | nil => intro fuel _; cases fuel <;> rfl
  | cons k p l hk _ ih =>
    intro fuel hf
    obtain ⟨m, rfl⟩ : ∃ m, fuel = m + 1 := ⟨fuel - 1, by simp at hf; omega⟩
    simp only [walkList, hk]
    rw [ih m (by simp at hf; omega)]

/-- The numbers of the portals at `v`, the last one first. -/
def touching (ps : List Portal) (v : Nat) : List Nat := (portalsOf ps v).map (·.1)

theorem touching_append (ps : List Portal) (p : Portal) (v : Nat) :
    touching (ps ++ [p]) v = if p.n0 = v ∨ p.n1 = v then ps.length :: touching ps v else touching ps v := by
  unfold touching portalsOf
  rw [List.zipIdx_append]
  by_cases h : p.n0 = v ∨ p.n1 = v
  · rw [if_pos h]
    rcases h with h | h <;> simp [List.filter_append, h]
  · rw [if_neg h]
    rw [not_or] at h
    simp [List.filter_append, h.1, h.2]

/-- What the lists look like after the portals `ps` have been added. -/
structure LinkInv (s : Links) (ps : List Portal) : Prop where
  len : s.portals.length = ps.length
  nodes : ∀ (k : Nat) (p : Portal), ps[k]? = some p →
    ∃ q, s.portals[k]? = some q ∧ q.nodes = some (p.n0, p.n1) ∧ q.onnode = p.onnode
  lists : ∀ v, Linked s v (s.heads v) (touching ps v)

theorem addPortal_ok {s : Links} {ps : List Portal} (hi : LinkInv s ps) (p : Portal) :
    ∃ s', addPortal s.portals.length p.n0 p.n1 { s with portals := s.portals ++ [⟨none, none, none, p.onnode⟩] } = .ok s' ∧
      LinkInv s' (ps ++ [p]) := by
  have hread : (s.portals ++ [(⟨none, none, none, p.onnode⟩ : LPortal)])[s.portals.length]? =
      some ⟨none, none, none, p.onnode⟩ := by simp
  set heads1 : Nat → Option Nat := fun v => if v = p.n0 then some s.portals.length else s.heads v with hh1
  set new : LPortal := ⟨some (p.n0, p.n1), s.heads p.n0, heads1 p.n1, p.onnode⟩ with hnew
  set s' : Links := ⟨s.portals ++ [new], fun v => if v = p.n1 then some s.portals.length else heads1 v⟩ with hs'
  have hset : (s.portals ++ [(⟨none, none, none, p.onnode⟩ : LPortal)]).set s.portals.length new =
      s.portals ++ [new] := by simp
  refine ⟨s', ?_, ?_⟩
  · simp only [addPortal, Outcome.readAt, hread, Outcome.ok_bind]
    rw [hs', ← hset]
  · have hmono : ∀ {v : Nat} {h : Option Nat} {l : List Nat}, Linked s v h l → Linked s' v h l := by
      intro v h l hl
      induction hl with
      | nil => exact .nil
      | cons k q l hk _ ih =>
        exact .cons k q l (by
          show (s.portals ++ [new])[k]? = some q
          rw [List.getElem?_append_left (List.getElem?_eq_some_iff.1 hk).1]; exact hk) ih
    refine ⟨by simp [hs', hi.len], ?_, ?_⟩
    · intro k q hk
      by_cases hlt : k < ps.length
      · rw [List.getElem?_append_left hlt] at hk
        obtain ⟨r, hr, h⟩ := hi.nodes k q hk
        exact ⟨r, by
          show (s.portals ++ [new])[k]? = some r
          rw [List.getElem?_append_left (List.getElem?_eq_some_iff.1 hr).1]; exact hr, h⟩
      · have hkl := (List.getElem?_eq_some_iff.1 hk).1
        simp only [List.length_append, List.length_cons, List.length_nil] at hkl
        have : k = ps.length := by omega
        subst this
        rw [List.getElem?_append_right (Nat.le_refl _)] at hk
        simp only [Nat.sub_self, List.getElem?_cons_zero, Option.some.injEq] at hk
        subst hk
        exact ⟨new, by show (s.portals ++ [new])[ps.length]? = some new; rw [← hi.len]; simp, rfl, rfl⟩
    · intro v
      rw [touching_append]
      have hget : s'.portals[s.portals.length]? = some new := by
        show (s.portals ++ [new])[s.portals.length]? = some new
        simp
      have hold := hmono (hi.lists v)
      show Linked s' v (if v = p.n1 then some s.portals.length else heads1 v) _
      rw [← hi.len]
      by_cases h0 : p.n0 = v
      · rw [if_pos (Or.inl h0)]
        have hhead : (if v = p.n1 then some s.portals.length else heads1 v) = some s.portals.length := by
          simp [hh1, h0]
        rw [hhead]
        refine .cons _ new _ hget ?_
        rw [if_pos (by simp [hnew, h0])]
        simpa [hnew, h0] using hold
      · by_cases h1 : p.n1 = v
        · rw [if_pos (Or.inr h1), if_pos h1.symm]
          refine .cons _ new _ hget ?_
          rw [if_neg (by simp [hnew, h0])]
          have : new.next1 = s.heads v := by
            simp only [hnew, hh1]
            rw [if_neg (by rw [h1]; exact fun h => h0 h.symm), h1]
          rw [this]; exact hold
        · rw [if_neg (not_or.2 ⟨h0, h1⟩), if_neg (fun h => h1 h.symm)]
          simp only [hh1]
          rw [if_neg (fun h => h0 h.symm)]
          exact hold

theorem linkAll_ok : ∀ (bps : List (BuildPortal W)) {s : Links} {ps : List Portal}, LinkInv s ps →
    ∃ s', linkAll bps s = .ok s' ∧ LinkInv s' (ps ++ toPortals bps) := by
  intro bps
  induction bps with
  | nil => intro s ps hi; exact ⟨s, rfl, by simpa [toPortals] using hi⟩
  | cons p bps ih =>
    intro s ps hi
    obtain ⟨s1, h1, h2⟩ := addPortal_ok hi ⟨p.n0, p.n1, p.onnode⟩
    obtain ⟨s2, h3, h4⟩ := ih h2
    refine ⟨s2, ?_, ?_⟩
    · simp only [linkAll]
      rw [h1]
      exact h3
    · simpa [toPortals] using h4

/-- **C79.** After the portals of a tree have been linked, the list of every node ends, visits exactly the portals
that have the node on one of their sides, each once, and from each visited portal the two sides are the ones it was made
with. -/
theorem link_lists (bps : List (BuildPortal W)) :
    ∃ s, linkAll bps Links.empty = .ok s ∧
      (∀ v, ∃ l, (∃ N, ∀ fuel ≥ N, walkList s v fuel (s.heads v) = some (.ok l)) ∧ l.Nodup ∧
        (∀ k, k ∈ l ↔ ∃ p, bps[k]? = some p ∧ (p.n0 = v ∨ p.n1 = v)) ∧ l = touching (toPortals bps) v) ∧
      ∀ (k : Nat) p, bps[k]? = some p → ∃ q, s.portals[k]? = some q ∧ q.nodes = some (p.n0, p.n1) ∧
        q.onnode = p.onnode := by
  have h0 : LinkInv Links.empty [] := ⟨rfl, by simp, fun v => by
    simp only [touching, portalsOf, List.zipIdx_nil, List.filter_nil, List.reverse_nil, List.map_nil]; exact .nil⟩
  obtain ⟨s, h1, h2⟩ := linkAll_ok bps h0
  simp only [List.nil_append] at h2
  refine ⟨s, h1, ?_, ?_⟩
  · intro v
    refine ⟨_, ⟨_, walk_of_linked (h2.lists v)⟩, ?_, ?_, rfl⟩
    · unfold touching portalsOf
      rw [List.map_map, List.map_reverse, List.nodup_reverse]
      have : List.Sublist (((toPortals bps).zipIdx.filter fun x => x.1.n0 = v || x.1.n1 = v).map (·.2))
          (((toPortals bps).zipIdx).map (·.2)) := List.filter_sublist.map _
      refine this.nodup ?_
      rw [List.zipIdx_map_snd]
      exact List.nodup_range'
    · intro k
      simp only [touching, portalsOf, List.map_map, List.map_reverse, List.mem_reverse, List.mem_map, List.mem_filter,
        Function.comp]
      constructor
      · rintro ⟨⟨p, i⟩, ⟨hm, hv⟩, rfl⟩
        rw [List.mem_zipIdx_iff_getElem?] at hm
        simp only [toPortals, List.getElem?_map, Option.map_eq_some_iff] at hm
        obtain ⟨q, hq, rfl⟩ := hm
        exact ⟨q, hq, by simpa using hv⟩
      · rintro ⟨p, hp, hv⟩
        refine ⟨(⟨p.n0, p.n1, p.onnode⟩, k), ⟨?_, by simpa using hv⟩, rfl⟩
        rw [List.mem_zipIdx_iff_getElem?]
        simp [toPortals, hp]
  · intro k p hp
    exact h2.nodes k ⟨p.n0, p.n1, p.onnode⟩ (by simp [toPortals, hp])

/-- Non-vacuity: a tree with two nodes and three leafs; no winding is ever clipped away. -/
example :
    let t : PTree := .node 10 false (.node 11 true (.leaf 0) (.leaf 1)) (.leaf 2)
    let ops : Ops Nat := ⟨fun i _ => some i, fun i w => (some (w + i), some w), fun _ => false⟩
    (Spec.ids t).Nodup ∧ 3 ∉ Spec.ids t ∧
      makeTreePortals ops false t (headnodePortals 10 3 [(true, 7)]) =
        .ok [⟨3, 0, none, 28⟩, ⟨3, 1, none, 17⟩, ⟨0, 1, some 11, 11⟩, ⟨3, 2, none, 7⟩, ⟨0, 2, some 10, 21⟩,
          ⟨1, 2, some 10, 10⟩] ∧
      makeTreePortals ops true t [] = .ok [⟨11, 2, some 10, 10⟩] ∧
      touching (toPortals [(⟨3, 0, none, 28⟩ : BuildPortal Nat), ⟨3, 1, none, 17⟩, ⟨0, 1, some 11, 11⟩]) 0 = [2, 0] := by
  decide +kernel

end Verif.Flood
