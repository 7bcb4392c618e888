import Verif.LeafBrush.Spec

/-! Lemmas on the list of brushes. -/

namespace Verif.LeafBrush

open Contents Spec

variable {A D S : Type}

/-- What is needed of the export of a side: an invariant, an order of states, and a relation that it keeps. -/
structure Sound (side : A → S → Outcome (D × S)) (Inv : S → Prop) (le : S → S → Prop) (R : S → A → D → Prop) : Prop where
  refl : ∀ s, le s s
  trans : ∀ a b c, le a b → le b c → le a c
  mono : ∀ s s' a d, le s s' → R s a d → R s' a d
  step : ∀ s a d s', Inv s → side a s = .ok (d, s') → Inv s' ∧ le s s' ∧ R s' a d

theorem forall₂_mono {α β : Type} {P Q : α → β → Prop} (h : ∀ a b, P a b → Q a b) {l : List α} {m : List β}
    (hl : List.Forall₂ P l m) : List.Forall₂ Q l m := hl.imp h

theorem exportSides_spec {side : A → S → Outcome (D × S)} {Inv : S → Prop} {le : S → S → Prop} {R : S → A → D → Prop}
    (hs : Sound side Inv le R) : ∀ (l : List A) {s s' : S} {ds : List D}, Inv s → exportSides side l s = .ok (ds, s') →
    Inv s' ∧ le s s' ∧ List.Forall₂ (R s') l ds := by
  intro l
  induction l with
  | nil =>
    intro s s' ds hi h
    simp only [exportSides, Outcome.ok.injEq, Prod.mk.injEq] at h
    obtain ⟨rfl, rfl⟩ := h
    exact ⟨hi, hs.refl _, .nil⟩
  | cons a l ih =>
    intro s s' ds hi h
    simp only [exportSides] at h
    obtain ⟨⟨d, s1⟩, h1, h⟩ := Outcome.bind_eq_ok.1 h
    obtain ⟨⟨ds', s2⟩, h2, h⟩ := Outcome.bind_eq_ok.1 h
    simp only [Outcome.ok.injEq, Prod.mk.injEq] at h
    obtain ⟨rfl, rfl⟩ := h
    obtain ⟨a1, a2, a3⟩ := hs.step _ _ _ _ hi h1
    obtain ⟨b1, b2, b3⟩ := ih a1 h2
    exact ⟨b1, hs.trans _ _ _ a2 b2, .cons (hs.mono _ _ _ _ b2 a3) b3⟩

/-- What later steps keep. -/
structure Le (le : S → S → Prop) (st st' : St A D S) : Prop where
  dbrushes : st.dbrushes <+: st'.dbrushes
  dsides : st.dsides <+: st'.dsides
  dleafbrushes : st.dleafbrushes <+: st'.dleafbrushes
  rest : le st.rest st'.rest
  length : st'.mbrushes.length = st.mbrushes.length
  brush : ∀ (b : Nat) m, st.mbrushes[b]? = some m → ∃ m', st'.mbrushes[b]? = some m' ∧ m'.contents = m.contents ∧ m'.sides = m.sides ∧
    ∀ n, m.out = some n → m'.out = some n

theorem Le.refl {le : S → S → Prop} (h : ∀ s, le s s) (st : St A D S) : Le le st st :=
  ⟨List.prefix_refl _, List.prefix_refl _, List.prefix_refl _, h _, rfl, fun _ m hm => ⟨m, hm, rfl, rfl, fun _ h => h⟩⟩

theorem Le.trans {le : S → S → Prop} (ht : ∀ a b c, le a b → le b c → le a c) {a b c : St A D S} (h : Le le a b) (h' : Le le b c) :
    Le le a c := by
  refine ⟨h.1.trans h'.1, h.2.trans h'.2, h.3.trans h'.3, ht _ _ _ h.4 h'.4, h'.5.trans h.5, ?_⟩
  intro i m hm
  obtain ⟨m1, a1, a2, a3, a4⟩ := h.brush i m hm
  obtain ⟨m2, b1, b2, b3, b4⟩ := h'.brush i m1 a1
  exact ⟨m2, b1, b2.trans a2, b3.trans a3, fun n hn => b4 n (a4 n hn)⟩

theorem forall₂_get {α β : Type} {P : α → β → Prop} {a : List α} {b : List β} (h : List.Forall₂ P a b) {i : Nat} {x : α}
    (hx : a[i]? = some x) : ∃ y, b[i]? = some y ∧ P x y := by
  induction h generalizing i with
  | nil => simp at hx
  | cons r _ ih =>
    cases i with
    | zero =>
      simp only [List.getElem?_cons_zero, Option.some.injEq] at hx
      subst hx
      exact ⟨_, rfl, r⟩
    | succ i =>
      simp only [List.getElem?_cons_succ] at hx ⊢
      exact ih hx

theorem get_prefix {α : Type} {l l' : List α} (h : l <+: l') {n : Nat} {x : α} (hx : l[n]? = some x) : l'[n]? = some x :=
  Emit.get_of_prefix h hx

theorem slice_prefix {α : Type} {l l' : List α} (h : l <+: l') {a b : Nat} (hb : a + b ≤ l.length) : slice l' a b = slice l a b := by
  obtain ⟨r, rfl⟩ := h
  unfold slice
  rw [List.drop_append_of_le_length (by omega), List.take_append_of_le_length (by simp; omega)]

theorem IsBrush.mono {le : S → S → Prop} {R : S → A → D → Prop} (hm : ∀ s s' a d, le s s' → R s a d → R s' a d) {st st' : St A D S}
    (h : Le le st st') {b n : Nat} (hb : IsBrush (R st.rest) st b n) : IsBrush (R st'.rest) st' b n := by
  obtain ⟨m, d, h1, h2, h3, h4, h5, h6⟩ := hb
  obtain ⟨m', a1, a2, a3, a4⟩ := h.brush b m h1
  refine ⟨m', d, a1, a4 n h2, get_prefix h.dbrushes h3, by rw [a2]; exact h4, h5.trans h.dsides.length_le, ?_⟩
  rw [a3, slice_prefix h.dsides h5]
  exact forall₂_mono (fun a d => hm _ _ a d h.rest) h6

/-- The invariant. -/
structure Good (Inv : S → Prop) (R : S → A → D → Prop) (st : St A D S) : Prop where
  inv : Inv st.rest
  brushes : Brushes (R st.rest) st

theorem sum_take {l : List DBrush} {d : DBrush} : (((l ++ [d]).map (·.num)).sum) = (l.map (·.num)).sum + d.num := by simp

theorem exportBrush_spec {side : A → S → Outcome (D × S)} {Inv : S → Prop} {le : S → S → Prop} {R : S → A → D → Prop}
    (hs : Sound side Inv le R) {b n : Nat} {st st' : St A D S} (hg : Good Inv R st) (h : exportBrush side b st = .ok (n, st')) :
    Good Inv R st' ∧ Le le st st' ∧ IsBrush (R st'.rest) st' b n ∧ st'.dleafbrushes = st.dleafbrushes := by
  unfold exportBrush at h
  obtain ⟨m, hm, h⟩ := Outcome.bind_eq_ok.1 h
  have hm' : st.mbrushes[b]? = some m := by
    unfold Outcome.readAt at hm
    split at hm
    · rename_i x hx; simp only [Outcome.ok.injEq] at hm; rw [hx, hm]
    · cases hm
  clear hm
  split at h
  · rename_i k hk
    simp only [Outcome.ok.injEq, Prod.mk.injEq] at h
    obtain ⟨rfl, rfl⟩ := h
    exact ⟨hg, Le.refl hs.refl _, hg.brushes.shown b m k hm' hk, rfl⟩
  · rename_i hnone
    obtain ⟨c, hc, h2⟩ := Outcome.bind_eq_ok.1 h
    obtain ⟨⟨ds, s'⟩, hds, h3⟩ := Outcome.bind_eq_ok.1 h2
    simp only [Outcome.ok.injEq, Prod.mk.injEq] at h3
    clear h h2
    obtain ⟨a1, a2, a3⟩ := exportSides_spec hs _ hg.inv hds
    obtain ⟨rfl, hst⟩ := h3
    have hlt := (List.getElem?_eq_some_iff.1 hm').1
    have hlen : ds.length = m.sides.length := (a3.length_eq).symm
    have hle : Le le st st' := by
      subst hst
      refine ⟨List.prefix_append _ _, List.prefix_append _ _, List.prefix_refl _, a2, by simp, ?_⟩
      intro b' m' hm'2
      by_cases hb : b = b'
      · subst hb
        rw [hm'] at hm'2
        cases hm'2
        refine ⟨{ m with out := some st.dbrushes.length }, by simp only [List.getElem?_set, if_true, hlt], rfl, rfl, ?_⟩
        intro k hk
        rw [hnone] at hk
        cases hk
      · exact ⟨m', by simp only [List.getElem?_set, if_neg hb, hm'2], rfl, rfl, fun _ h => h⟩
    have hnew : IsBrush (R st'.rest) st' b st.dbrushes.length := by
      subst hst
      refine ⟨{ m with out := some st.dbrushes.length }, ⟨st.dsides.length, ds.length, c⟩, by simp only [List.getElem?_set, if_true, hlt], rfl, by simp, hc, by simp, ?_⟩
      have : slice (st.dsides ++ ds) st.dsides.length ds.length = ds := by simp [slice]
      rw [this]
      exact a3
    have hbr : ∀ b' k, IsBrush (R st'.rest) st' b' k → (b' = b ∧ k = st.dbrushes.length) ∨ IsBrush (R st.rest) st b' k := by
      rintro b' k ⟨m', d, h1, h2, -⟩
      by_cases hb : b = b'
      · left
        subst hb
        subst hst
        simp only [List.getElem?_set, if_true, hlt, Option.some.injEq] at h1
        subst h1
        simp only [Option.some.injEq] at h2
        exact ⟨rfl, h2.symm⟩
      · right
        subst hst
        simp only [List.getElem?_set, if_neg hb] at h1
        exact hg.brushes.shown b' m' k h1 h2
    have hltk : ∀ b' k, IsBrush (R st.rest) st b' k → k < st.dbrushes.length := by
      rintro b' k ⟨m', d, -, -, h3, -⟩
      exact (List.getElem?_eq_some_iff.1 h3).1
    have hold : ∀ b' k, IsBrush (R st.rest) st b' k → IsBrush (R st'.rest) st' b' k := fun b' k hk => IsBrush.mono hs.mono hle hk
    refine ⟨⟨by subst hst; exact a1, ?_⟩, hle, hnew, by subst hst; rfl⟩
    refine ⟨?_, ?_, ?_, ?_, ?_⟩
    · intro b' m' k h1 h2
      by_cases hb : b = b'
      · subst hb
        have : k = st.dbrushes.length := by
          subst hst
          simp only [List.getElem?_set, if_true, hlt, Option.some.injEq] at h1
          subst h1
          simp only [Option.some.injEq] at h2
          exact h2.symm
        rw [this]
        exact hnew
      · refine hold _ _ (hg.brushes.shown b' m' k ?_ h2)
        subst hst
        simpa only [List.getElem?_set, if_neg hb] using h1
    · intro k hk
      by_cases hk' : k < st.dbrushes.length
      · obtain ⟨b', hb'⟩ := hg.brushes.onto k hk'
        exact ⟨b', hold _ _ hb'⟩
      · have : k = st.dbrushes.length := by
          subst hst
          simp only [List.length_append, List.length_cons, List.length_nil] at hk
          omega
        rw [this]
        exact ⟨b, hnew⟩
    · intro x y k hx hy
      rcases hbr x k hx with ⟨rfl, hk⟩ | hx'
      · rcases hbr y k hy with ⟨rfl, -⟩ | hy'
        · rfl
        · have := hltk _ _ hy'; omega
      · rcases hbr y k hy with ⟨rfl, hk⟩ | hy'
        · have := hltk _ _ hx'; omega
        · exact hg.brushes.once x y k hx' hy'
    · intro i d hd
      subst hst
      simp only at hd ⊢
      by_cases hi : i < st.dbrushes.length
      · rw [List.getElem?_append_left hi] at hd
        rw [hg.brushes.firsts i d hd, List.take_append_of_le_length (by omega)]
      · have hi2 : i = st.dbrushes.length := by
          have := (List.getElem?_eq_some_iff.1 hd).1
          simp only [List.length_append, List.length_cons, List.length_nil] at this
          omega
        subst hi2
        simp only [List.getElem?_append_right (le_refl _), Nat.sub_self, List.getElem?_cons_zero, Option.some.injEq] at hd
        subst hd
        simp only [List.take_left', hg.brushes.total]
    · subst hst
      simp only [List.length_append, sum_take, hg.brushes.total]

theorem exportBrushes_spec {side : A → S → Outcome (D × S)} {Inv : S → Prop} {le : S → S → Prop} {R : S → A → D → Prop}
    (hs : Sound side Inv le R) : ∀ (l : List Nat) {st st' : St A D S}, Good Inv R st → exportBrushes side l st = .ok st' →
    Good Inv R st' ∧ Le le st st' ∧
      ∃ ns, st'.dleafbrushes = st.dleafbrushes ++ ns ∧ List.Forall₂ (IsBrush (R st'.rest) st') l ns := by
  intro l
  induction l with
  | nil =>
    intro st st' hg h
    simp only [exportBrushes, Outcome.ok.injEq] at h
    subst h
    exact ⟨hg, Le.refl hs.refl _, [], by simp, .nil⟩
  | cons b l ih =>
    intro st st' hg h
    simp only [exportBrushes] at h
    obtain ⟨⟨n, s1⟩, h1, h⟩ := Outcome.bind_eq_ok.1 h
    obtain ⟨a1, a2, a3, a4⟩ := exportBrush_spec hs hg h1
    simp only at h
    have hg1 : Good Inv R ({ s1 with dleafbrushes := s1.dleafbrushes ++ [n] } : St A D S) :=
      ⟨a1.inv, ⟨a1.brushes.shown, a1.brushes.onto, a1.brushes.once, a1.brushes.firsts, a1.brushes.total⟩⟩
    have hl1 : Le le s1 { s1 with dleafbrushes := s1.dleafbrushes ++ [n] } :=
      ⟨List.prefix_refl _, List.prefix_refl _, List.prefix_append _ _, hs.refl _, rfl, fun _ m hm => ⟨m, hm, rfl, rfl, fun _ h => h⟩⟩
    obtain ⟨b1, b2, ns, b3, b4⟩ := ih hg1 h
    refine ⟨b1, (a2.trans hs.trans hl1).trans hs.trans b2, n :: ns, ?_, .cons ?_ b4⟩
    · rw [b3]
      simp only [a4, List.append_assoc, List.singleton_append]
    · exact IsBrush.mono hs.mono (hl1.trans hs.trans b2) a3

theorem LeafOk.mono {le : S → S → Prop} {R : S → A → D → Prop} (hm : ∀ s s' a d, le s s' → R s a d → R s' a d) {st st' : St A D S}
    (h : Le le st st') {l l' : Leaf} (hb : LeafOk (R st.rest) st l l') : LeafOk (R st'.rest) st' l l' := by
  obtain ⟨c, h1, h2⟩ := hb
  refine ⟨c, h1, ?_⟩
  split at h2
  · rename_i hc
    rw [if_pos hc]
    obtain ⟨a1, a2, a3, a4, a5⟩ := h2
    refine ⟨a1, a2, a3, a4.trans h.dleafbrushes.length_le, ?_⟩
    rw [slice_prefix h.dleafbrushes a4]
    exact forall₂_mono (fun b n => IsBrush.mono hm h) a5
  · rename_i hc
    rw [if_neg hc]
    exact h2

theorem exportLeaf_spec {side : A → S → Outcome (D × S)} {Inv : S → Prop} {le : S → S → Prop} {R : S → A → D → Prop}
    (hs : Sound side Inv le R) {l l' : Leaf} {st st' : St A D S} (hg : Good Inv R st) (h : exportLeaf side l st = .ok (l', st')) :
    Good Inv R st' ∧ Le le st st' ∧ LeafOk (R st'.rest) st' l l' := by
  unfold exportLeaf at h
  obtain ⟨c, hc, h⟩ := Outcome.bind_eq_ok.1 h
  by_cases h0 : c = 0
  · rw [if_pos h0] at h
    simp only [Outcome.ok.injEq, Prod.mk.injEq] at h
    obtain ⟨rfl, rfl⟩ := h
    exact ⟨hg, Le.refl hs.refl _, c, hc, by rw [if_neg (fun hn => hn.1 h0)]⟩
  · rw [if_neg h0] at h
    by_cases hn : l.brushes = []
    · rw [if_pos hn] at h
      simp only [Outcome.ok.injEq, Prod.mk.injEq] at h
      obtain ⟨rfl, rfl⟩ := h
      exact ⟨hg, Le.refl hs.refl _, c, hc, by rw [if_neg (fun hx => hx.2 hn)]⟩
    · rw [if_neg hn] at h
      obtain ⟨s1, h1, h⟩ := Outcome.bind_eq_ok.1 h
      simp only [Outcome.ok.injEq, Prod.mk.injEq] at h
      obtain ⟨rfl, rfl⟩ := h
      obtain ⟨a1, a2, ns, a3, a4⟩ := exportBrushes_spec hs _ hg h1
      refine ⟨a1, a2, c, hc, ?_⟩
      have hlen := a4.length_eq
      rw [if_pos ⟨h0, hn⟩]
      refine ⟨rfl, rfl, rfl, by simp only [a3, List.length_append, hlen]; exact le_refl _, ?_⟩
      have : slice s1.dleafbrushes st.dleafbrushes.length l.brushes.length = ns := by
        rw [a3, hlen]; simp [slice]
      simp only [this]
      exact a4

theorem exportTree_spec {side : A → S → Outcome (D × S)} {Inv : S → Prop} {le : S → S → Prop} {R : S → A → D → Prop}
    (hs : Sound side Inv le R) : ∀ (t : Tree) {t' : Tree} {st st' : St A D S}, Good Inv R st → exportTree side t st = .ok (t', st') →
    Good Inv R st' ∧ Le le st st' ∧ List.Forall₂ (LeafOk (R st'.rest) st') (leafs t) (leafs t') := by
  intro t
  induction t with
  | leaf l =>
    intro t' st st' hg h
    simp only [exportTree] at h
    obtain ⟨⟨l', s1⟩, h1, h⟩ := Outcome.bind_eq_ok.1 h
    simp only [Outcome.ok.injEq, Prod.mk.injEq] at h
    obtain ⟨rfl, rfl⟩ := h
    obtain ⟨a1, a2, a3⟩ := exportLeaf_spec hs hg h1
    exact ⟨a1, a2, .cons a3 .nil⟩
  | node f b ihf ihb =>
    intro t' st st' hg h
    simp only [exportTree] at h
    obtain ⟨⟨f', s1⟩, h1, h⟩ := Outcome.bind_eq_ok.1 h
    obtain ⟨⟨b', s2⟩, h2, h⟩ := Outcome.bind_eq_ok.1 h
    simp only [Outcome.ok.injEq, Prod.mk.injEq] at h
    obtain ⟨rfl, rfl⟩ := h
    obtain ⟨a1, a2, a3⟩ := ihf hg h1
    obtain ⟨b1, b2, b3⟩ := ihb a1 h2
    exact ⟨b1, a2.trans hs.trans b2, List.rel_append (forall₂_mono (fun _ _ => LeafOk.mono hs.mono b2) a3) b3⟩

theorem Good.rest {Inv : S → Prop} {le : S → S → Prop} {R : S → A → D → Prop}
    (hm : ∀ s s' a d, le s s' → R s a d → R s' a d) {st : St A D S} (hg : Good Inv R st) {s : S} (hi : Inv s) (hle : le st.rest s) :
    Good Inv R { st with rest := s } ∧ Le le st { st with rest := s } := by
  have hl : Le le st { st with rest := s } :=
    ⟨List.prefix_refl _, List.prefix_refl _, List.prefix_refl _, hle, rfl, fun _ m hm => ⟨m, hm, rfl, rfl, fun _ h => h⟩⟩
  have hback : ∀ b n, IsBrush (R s) { st with rest := s } b n → IsBrush (R st.rest) st b n := by
    rintro b n ⟨m, d, h1, h2, -⟩
    exact hg.brushes.shown b m n h1 h2
  refine ⟨⟨hi, ⟨?_, ?_, ?_, hg.brushes.firsts, hg.brushes.total⟩⟩, hl⟩
  · intro b m n h1 h2
    exact IsBrush.mono hm hl (hg.brushes.shown b m n h1 h2)
  · intro n hn
    obtain ⟨b, hb⟩ := hg.brushes.onto n hn
    exact ⟨b, IsBrush.mono hm hl hb⟩
  · intro b b' n h1 h2
    exact hg.brushes.once b b' n (hback _ _ h1) (hback _ _ h2)

theorem exportTrees_spec {side : A → S → Outcome (D × S)} {Inv : S → Prop} {le : S → S → Prop} {R : S → A → D → Prop}
    (hs : Sound side Inv le R) : ∀ (ts : List ((S → Outcome S) × Tree)) {ts' : List Tree} {st st' : St A D S},
    (∀ p ∈ ts, ∀ s s', Inv s → p.1 s = .ok s' → Inv s' ∧ le s s') → Good Inv R st →
    exportTrees side ts st = .ok (ts', st') →
    Good Inv R st' ∧ Le le st st' ∧ List.Forall₂ (LeafOk (R st'.rest) st') (ts.flatMap fun p => leafs p.2) (ts'.flatMap leafs) := by
  intro ts
  induction ts with
  | nil =>
    intro ts' st st' _ hg h
    simp only [exportTrees, Outcome.ok.injEq, Prod.mk.injEq] at h
    obtain ⟨rfl, rfl⟩ := h
    exact ⟨hg, Le.refl hs.refl _, .nil⟩
  | cons t l ih =>
    intro ts' st st' ho hg h
    simp only [exportTrees] at h
    obtain ⟨s0, h0, h⟩ := Outcome.bind_eq_ok.1 h
    obtain ⟨⟨f', s1⟩, h1, h⟩ := Outcome.bind_eq_ok.1 h
    obtain ⟨⟨b', s2⟩, h2, h⟩ := Outcome.bind_eq_ok.1 h
    simp only [Outcome.ok.injEq, Prod.mk.injEq] at h
    obtain ⟨rfl, rfl⟩ := h
    obtain ⟨c1, c2⟩ := ho t List.mem_cons_self _ _ hg.inv h0
    obtain ⟨hg0, hl0⟩ := hg.rest hs.mono c1 c2
    obtain ⟨a1, a2, a3⟩ := exportTree_spec hs _ hg0 h1
    obtain ⟨b1, b2, b3⟩ := ih (fun p hp => ho p (List.mem_cons_of_mem _ hp)) a1 h2
    refine ⟨b1, (hl0.trans hs.trans a2).trans hs.trans b2, ?_⟩
    simp only [List.flatMap_cons]
    exact List.rel_append (forall₂_mono (fun _ _ => LeafOk.mono hs.mono b2) a3) b3

/-- Which brushes have a number behind a step: those that had one, and those of a list. -/
def Adds (l : List Nat) (st st' : St A D S) : Prop :=
  ∀ (b : Nat) m n, st'.mbrushes[b]? = some m → m.out = some n → (∃ m0, st.mbrushes[b]? = some m0 ∧ m0.out = some n) ∨ b ∈ l

theorem Adds.refl (st : St A D S) : Adds [] st st := fun _ m _ h1 h2 => .inl ⟨m, h1, h2⟩

theorem Adds.trans {l l' : List Nat} {a b c : St A D S} (h : Adds l a b) (h' : Adds l' b c) : Adds (l ++ l') a c := by
  intro i m n h1 h2
  rcases h' i m n h1 h2 with ⟨m0, g1, g2⟩ | g
  · rcases h i m0 n g1 g2 with g | g
    · exact .inl g
    · exact .inr (List.mem_append_left _ g)
  · exact .inr (List.mem_append_right _ g)

theorem exportBrush_adds {side : A → S → Outcome (D × S)} {b n : Nat} {st st' : St A D S} (h : exportBrush side b st = .ok (n, st')) :
    Adds [b] st st' := by
  unfold exportBrush at h
  obtain ⟨m, -, h1⟩ := Outcome.bind_eq_ok.1 h
  clear h
  split at h1
  · simp only [Outcome.ok.injEq, Prod.mk.injEq] at h1
    obtain ⟨-, rfl⟩ := h1
    exact fun _ m _ h1 h2 => .inl ⟨m, h1, h2⟩
  · obtain ⟨c, -, h2⟩ := Outcome.bind_eq_ok.1 h1
    obtain ⟨⟨ds, s'⟩, -, h3⟩ := Outcome.bind_eq_ok.1 h2
    simp only [Outcome.ok.injEq, Prod.mk.injEq] at h3
    obtain ⟨-, rfl⟩ := h3
    intro i m' k g1 g2
    by_cases hb : b = i
    · exact .inr (by simp [hb])
    · simp only [List.getElem?_set, if_neg hb] at g1
      exact .inl ⟨m', g1, g2⟩

theorem exportBrushes_adds {side : A → S → Outcome (D × S)} : ∀ (l : List Nat) {st st' : St A D S}, exportBrushes side l st = .ok st' →
    Adds l st st' := by
  intro l
  induction l with
  | nil =>
    intro st st' h
    simp only [exportBrushes, Outcome.ok.injEq] at h
    subst h
    exact Adds.refl _
  | cons b l ih =>
    intro st st' h
    simp only [exportBrushes] at h
    obtain ⟨⟨n, s1⟩, h1, h⟩ := Outcome.bind_eq_ok.1 h
    have a := exportBrush_adds h1
    have b2 := ih h
    exact Adds.trans (l := [b]) a b2

/-- The brushes named in the leafs that are not empty in the file. -/
def named (l : Leaf) : List Nat := if native l.contents true = .ok 0 then [] else l.brushes

theorem exportLeaf_adds {side : A → S → Outcome (D × S)} {l l' : Leaf} {st st' : St A D S} (h : exportLeaf side l st = .ok (l', st')) :
    Adds (named l) st st' := by
  unfold exportLeaf at h
  obtain ⟨c, hc, h⟩ := Outcome.bind_eq_ok.1 h
  have weak : ∀ l, Adds l st st := fun _ _ m _ h1 h2 => .inl ⟨m, h1, h2⟩
  by_cases h0 : c = 0
  · rw [if_pos h0] at h
    simp only [Outcome.ok.injEq, Prod.mk.injEq] at h
    obtain ⟨rfl, rfl⟩ := h
    exact weak _
  · rw [if_neg h0] at h
    by_cases hn : l.brushes = []
    · rw [if_pos hn] at h
      simp only [Outcome.ok.injEq, Prod.mk.injEq] at h
      obtain ⟨rfl, rfl⟩ := h
      exact weak _
    · rw [if_neg hn] at h
      obtain ⟨s1, h1, h⟩ := Outcome.bind_eq_ok.1 h
      simp only [Outcome.ok.injEq, Prod.mk.injEq] at h
      obtain ⟨-, rfl⟩ := h
      have : named l = l.brushes := by
        unfold named
        rw [if_neg]
        rw [hc]
        intro hx
        exact h0 (Outcome.ok.inj hx)
      rw [this]
      exact exportBrushes_adds _ h1

theorem exportTree_adds {side : A → S → Outcome (D × S)} : ∀ (t : Tree) {t' : Tree} {st st' : St A D S},
    exportTree side t st = .ok (t', st') → Adds ((leafs t).flatMap named) st st' := by
  intro t
  induction t with
  | leaf l =>
    intro t' st st' h
    simp only [exportTree] at h
    obtain ⟨⟨l', s1⟩, h1, h⟩ := Outcome.bind_eq_ok.1 h
    simp only [Outcome.ok.injEq, Prod.mk.injEq] at h
    obtain ⟨-, rfl⟩ := h
    simpa [leafs] using exportLeaf_adds h1
  | node f b ihf ihb =>
    intro t' st st' h
    simp only [exportTree] at h
    obtain ⟨⟨f', s1⟩, h1, h⟩ := Outcome.bind_eq_ok.1 h
    obtain ⟨⟨b', s2⟩, h2, h⟩ := Outcome.bind_eq_ok.1 h
    simp only [Outcome.ok.injEq, Prod.mk.injEq] at h
    obtain ⟨-, rfl⟩ := h
    simp only [leafs, List.flatMap_append]
    exact (ihf h1).trans (ihb h2)

theorem exportTrees_adds {side : A → S → Outcome (D × S)} : ∀ (ts : List ((S → Outcome S) × Tree)) {ts' : List Tree} {st st' : St A D S},
    exportTrees side ts st = .ok (ts', st') → Adds ((ts.flatMap fun p => leafs p.2).flatMap named) st st' := by
  intro ts
  induction ts with
  | nil =>
    intro ts' st st' h
    simp only [exportTrees, Outcome.ok.injEq, Prod.mk.injEq] at h
    obtain ⟨-, rfl⟩ := h
    exact Adds.refl _
  | cons t l ih =>
    intro ts' st st' h
    simp only [exportTrees] at h
    obtain ⟨s0, h0, h⟩ := Outcome.bind_eq_ok.1 h
    obtain ⟨⟨f', s1⟩, h1, h⟩ := Outcome.bind_eq_ok.1 h
    obtain ⟨⟨b', s2⟩, h2, h⟩ := Outcome.bind_eq_ok.1 h
    simp only [Outcome.ok.injEq, Prod.mk.injEq] at h
    obtain ⟨-, rfl⟩ := h
    simp only [List.flatMap_cons, List.flatMap_append]
    have : Adds ((leafs t.2).flatMap named) st s1 := fun b m n g1 g2 => exportTree_adds t.2 h1 b m n g1 g2
    exact this.trans (ih h2)

/-! ### Sides -/

variable {K V F : Type} [Field K] [LinearOrder K] [IsStrictOrderedRing K] [DecidableEq V] [DecidableEq F]

theorem sideOk_mono {e : Env K V F} {s s' : Rest K V F} {a : Side} {d : Nat × Option Nat} (h : RestLe e s s') (ho : SideOk e s a d) :
    SideOk e s' a d := by
  obtain ⟨⟨p, h1, h2⟩, t, k, h3, h4, h5, h6⟩ := ho
  obtain ⟨g1, g2, g3⟩ := h
  refine ⟨?_, ?_⟩
  · have := congrArg (fun l => l[a.plane]?) g1
    simp only [List.getElem?_map, h1, Option.map_some] at this
    rcases hp : s'.planes.planes[a.plane]? with _ | p'
    · rw [hp] at this; cases this
    · rw [hp] at this
      simp only [Option.map_some, Option.some.injEq] at this
      exact ⟨p', rfl, by rw [this]; exact get_prefix g2 h2⟩
  · obtain ⟨t', a1, a2⟩ := g3.get h3
    refine ⟨t', k, a1, by rw [a2]; exact h4, by rw [a2]; exact h5, ?_⟩
    rcases d with ⟨d1, _ | i⟩
    · simp only [a2] at h6 ⊢
      exact h6
    · simp only at h6 ⊢
      obtain ⟨x, b1, b2⟩ := h6
      exact ⟨x, get_prefix g3.out b1, b2⟩

theorem exportSide_spec {e : Env K V F} {s s' : Rest K V F} {a : Side} {d : Nat × Option Nat} (hi : RestOk e s)
    (h : exportSide e a s = .ok (d, s')) : RestOk e s' ∧ RestLe e s s' ∧ SideOk e s' a d := by
  unfold exportSide at h
  obtain ⟨t, ht, h⟩ := Outcome.bind_eq_ok.1 h
  obtain ⟨⟨pn, ps⟩, hp, h⟩ := Outcome.bind_eq_ok.1 h
  have ht' : s.tex.infos[a.tex]? = some t := by
    unfold Outcome.readAt at ht
    split at ht
    · rename_i x hx; simp only [Outcome.ok.injEq] at ht; rw [hx, ht]
    · cases ht
  split at h
  · cases h
  rename_i r hr
  obtain ⟨⟨i, xs⟩, hx, h⟩ := Outcome.bind_eq_ok.1 h
  subst hx
  simp only [Outcome.ok.injEq, Prod.mk.injEq] at h
  obtain ⟨rfl, rfl⟩ := h
  obtain ⟨p1, p2, ⟨pl, p3⟩, ⟨dp, p4, p5⟩, -⟩ := Tree.exportPlane_spec hi.planes hp
  obtain ⟨x1, x2, x3, -⟩ := Emit.exportTexinfo_spec _ _ hi.tex hr
  have hlook : ∀ k n, (k, n) ∈ e.lookup → ∃ t, xs.infos[n]? = some t ∧ Emit.Spec.SameTex t.key k := by
    intro k n hk
    obtain ⟨t1, a1, a2⟩ := hi.lookup k n hk
    obtain ⟨t2, b1, b2⟩ := x2.get a1
    exact ⟨t2, b1, by rw [b2]; exact a2⟩
  refine ⟨⟨p1, x1, hlook⟩, ⟨p2, ⟨pl, p3.symm⟩, x2⟩, ?_, ?_⟩
  · have hp4 : (Tree.recs e.rnd ps)[a.plane]? = some dp := by rw [p2]; exact p4
    simp only [List.getElem?_map] at hp4
    rcases hq : ps.planes[a.plane]? with _ | p'
    · rw [hq] at hp4; cases hp4
    · rw [hq] at hp4
      simp only [Option.map_some, Option.some.injEq] at hp4
      exact ⟨p', rfl, by rw [hp4]; exact p5⟩
  · obtain ⟨t1, a1, a2⟩ := x2.get ht'
    obtain ⟨t2, b1, b2, b3, b4⟩ := x3
    have hk : (t2.key.flags = t1.key.flags ∧ t2.key.miptex = t1.key.miptex ∧ t2.key.value = t1.key.value) ∧
        (t2.key.vecs = t1.key.vecs ∨ t2.key.vecs = e.aligned a.plane) := by
      have hsame : chooseTex e a t = a.tex → t2 = t1 := by
        intro hc
        rw [hc, a1] at b1
        exact (Option.some.inj b1).symm
      unfold chooseTex at hsame b1
      split at hsame
      · rw [hsame rfl]; exact ⟨⟨rfl, rfl, rfl⟩, .inl rfl⟩
      · rename_i hnone
        split at hsame
        · rename_i n hn
          simp only [hnone, hn] at b1
          obtain ⟨t3, c1, c2⟩ := hlook _ _ (Emit.findKey_some hn)
          rw [b1] at c1
          cases c1
          obtain ⟨d1, d2, d3, d4⟩ := c2
          rw [a2]
          exact ⟨⟨d3, d2, d4⟩, .inr d1⟩
        · rw [hsame rfl]; exact ⟨⟨rfl, rfl, rfl⟩, .inl rfl⟩
    refine ⟨t1, t2.key, a1, hk.1, hk.2, ?_⟩
    rcases hi2 : i with _ | i'
    · simp only
      rw [← hk.1.1]
      exact b3 hi2
    · simp only
      rw [hi2] at b2
      exact (x1.record _ _ _ b1 b2).2

theorem side_sound (e : Env K V F) : Sound (exportSide e) (RestOk e) (RestLe e) (SideOk e) :=
  ⟨fun _ => ⟨rfl, List.prefix_refl _, Emit.Grows.refl _⟩,
   fun _ _ _ h h' => ⟨h'.1.trans h.1, h.2.1.trans h'.2.1, h.2.2.trans h'.2.2⟩,
   fun _ _ _ _ h => sideOk_mono h, fun _ _ _ _ hi h => exportSide_spec hi h⟩

end Verif.LeafBrush
