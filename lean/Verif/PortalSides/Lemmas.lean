import Verif.PortalSides.Spec
import Mathlib.Tactic.Linarith
import Mathlib.Algebra.Order.Field.Basic

/-!
Lemmas: the search for sides as one pass over a list.
-/

namespace Verif.PortalSides

open Verif.Geom

variable {C K : Type} [Field K] [LinearOrder K]

theorem offPlane_le [IsStrictOrderedRing K] (w : List (Vec K)) (p : Plane K) {c : K} (hc : 0 ≤ c) :
    offPlane w p ≤ c ↔ ∀ v ∈ w, |p.distTo v| ≤ c := by
  have key : ∀ (l : List (Vec K)) (m : K),
      l.foldl (fun m v => if |p.distTo v| > m then |p.distTo v| else m) m ≤ c ↔ m ≤ c ∧ ∀ v ∈ l, |p.distTo v| ≤ c := by
    intro l
    induction l with
    | nil => intro m; simp
    | cons v l ih =>
      intro m
      rw [List.foldl_cons, ih]
      by_cases h : |p.distTo v| > m
      · rw [if_pos h]
        constructor
        · rintro ⟨a, b⟩
          refine ⟨le_trans (le_of_lt h) a, ?_⟩
          intro u hu
          rcases List.mem_cons.1 hu with rfl | hu
          · exact a
          · exact b u hu
        · rintro ⟨-, b⟩
          exact ⟨b v List.mem_cons_self, fun u hu => b u (List.mem_cons_of_mem _ hu)⟩
      · rw [if_neg h]
        have h := not_lt.1 h
        constructor
        · rintro ⟨a, b⟩
          refine ⟨a, ?_⟩
          intro u hu
          rcases List.mem_cons.1 hu with rfl | hu
          · exact le_trans h a
          · exact b u hu
        · rintro ⟨a, b⟩
          exact ⟨a, fun u hu => b u (List.mem_cons_of_mem _ hu)⟩
  unfold offPlane
  rw [key]
  exact ⟨fun h => h.2, fun h => ⟨hc, h⟩⟩

/-- A side is passed over. -/
def skipped (w : List (Vec K)) (s : Side K) : Bool := s.bevel || decide (offPlane w s.plane > 1 / 10)

/-- A side is an exact match. -/
def isExact (n : Node K) (s : Side K) : Bool := decide (s.num / 2 * 2 = n.num)

/-- The sides of a brush that are looked at. -/
def visit (w : List (Vec K)) (n : Node K) : List (Side K) → List (Side K)
  | [] => []
  | s :: ss => if skipped w s then visit w n ss else if isExact n s then [s] else s :: visit w n ss

/-- A side that is looked at, with the leaf and the faces its brush makes. -/
structure Entry (K : Type) where
  j : Bool
  out : Bool
  inn : Bool
  s : Side K

def Entry.serves (e : Entry K) (i : Bool) : Bool := if i = e.j then e.inn else e.out

/-- One step. -/
def take (n : Node K) (st : St K) (e : Entry K) : St K :=
  if isExact n e.s then takeExact e.j e.out e.inn e.s st else takeBest n e.j e.out e.inn e.s st

theorem scanSides_ok (w : List (Vec K)) (n : Node K) (j out inn : Bool) (ss : List (Side K)) (st st' : St K)
    (h : scanSides w n j out inn ss st = .ok st') :
    st' = ((visit w n ss).map fun s => (⟨j, out, inn, s⟩ : Entry K)).foldl (take n) st := by
  induction ss generalizing st with
  | nil => cases h; rfl
  | cons s ss ih =>
    unfold scanSides at h
    unfold visit skipped isExact
    by_cases h1 : s.bevel = true
    · rw [if_pos h1] at h
      rw [if_pos (by simp [h1])]
      exact ih st h
    · rw [if_neg h1] at h
      by_cases h2 : offPlane w s.plane > 1 / 10
      · rw [if_pos h2] at h
        rw [if_pos (by rw [Bool.or_eq_true]; exact Or.inr (decide_eq_true h2))]
        exact ih st h
      · rw [if_neg h2] at h
        rw [if_neg (by rw [Bool.or_eq_true, decide_eq_true_iff]; exact fun h => h.elim h1 h2)]
        by_cases h3 : s.num / 2 * 2 = n.num
        · rw [if_pos h3] at h
          rw [if_pos (by simp [h3])]
          split at h
          · cases h
            simp [take, isExact, h3]
          · cases h
        · rw [if_neg h3] at h
          rw [if_neg (by simp [h3])]
          rw [List.map_cons, List.foldl_cons, ih _ h]
          have : take n st ⟨j, out, inn, s⟩ = takeBest n j out inn s st := by simp [take, isExact, h3]
          rw [this]

/-- What is looked at in a leaf. -/
def entries (g : Game C) (vis : C) (w : List (Vec K)) (n : Node K) (j : Bool) (bs : List (Brush C K)) : List (Entry K) :=
  bs.flatMap fun b =>
    if g.generates vis b.contents false || g.generates vis b.contents true then
      (visit w n b.sides).map fun s => ⟨j, g.generates vis b.contents false, g.generates vis b.contents true, s⟩
    else []

theorem scanBrushes_ok (g : Game C) (vis : C) (w : List (Vec K)) (n : Node K) (j : Bool) (bs : List (Brush C K))
    (st st' : St K) (h : scanBrushes g vis w n j bs st = .ok st') :
    st' = (entries g vis w n j bs).foldl (take n) st := by
  induction bs generalizing st with
  | nil => cases h; rfl
  | cons b bs ih =>
    unfold scanBrushes at h
    simp only at h
    unfold entries
    rw [List.flatMap_cons]
    by_cases h1 : (g.generates vis b.contents false || g.generates vis b.contents true) = true
    · rw [if_neg (by simp [h1])] at h
      obtain ⟨a, h2, h3⟩ := Outcome.bind_eq_ok.1 h
      rw [if_pos h1, List.foldl_append, ← scanSides_ok w n j _ _ b.sides st a h2]
      exact ih a h3
    · rw [if_pos (by simpa using h1)] at h
      rw [if_neg h1, List.nil_append]
      exact ih st h

/-- All that is looked at for a portal. -/
def all (g : Game C) (w : List (Vec K)) (n : Node K) (leaf : Bool → Leaf C K) : List (Entry K) :=
  let vis := g.visible (leaf false).contents (leaf true).contents
  entries g vis w n false (leaf false).brushes.reverse ++ entries g vis w n true (leaf true).brushes.reverse

def start : St K := ⟨fun _ => none, fun _ => none, 0⟩

theorem findSides_ok (g : Game C) (w : List (Vec K)) (n : Node K) (leaf : Bool → Leaf C K) (r : Bool → Option (Side K))
    (h : findSides g w n leaf = .ok (some r)) :
    ∃ st, st = (all g w n leaf).foldl (take n) start ∧
      ∀ i, r i = if (st.exact i).isSome then st.exact i else st.best i := by
  unfold findSides at h
  simp only at h
  split at h
  · cases h
  · obtain ⟨a, h1, h2⟩ := Outcome.bind_eq_ok.1 h
    obtain ⟨b, h3, h4⟩ := Outcome.bind_eq_ok.1 h2
    have e1 := scanBrushes_ok g _ w n false _ _ a h1
    have e2 := scanBrushes_ok g _ w n true _ _ b h3
    refine ⟨b, ?_, ?_⟩
    · unfold all
      simp only
      rw [List.foldl_append, e2, e1]
      rfl
    · intro i
      cases h4
      rfl

theorem takeExact_exact (j out inn : Bool) (s : Side K) (st : St K) (i : Bool) :
    (takeExact j out inn s st).exact i
      = if (st.exact i).isSome then st.exact i else if (⟨j, out, inn, s⟩ : Entry K).serves i then some s else none := by
  have h0 : ∀ k, (st.exact k).isSome = false → st.exact k = none := by
    intro k hk
    cases h : st.exact k with
    | none => rfl
    | some a => rw [h] at hk; cases hk
  unfold takeExact put Entry.serves
  simp only
  cases hx : st.exact i with
  | none =>
    cases hy : st.exact (!i) <;> cases j <;> cases i <;> cases out <;> cases inn <;> simp_all
  | some a =>
    cases j <;> cases i <;> cases out <;> cases inn <;> simp [hx] <;>
      split <;> simp_all

theorem fold_exact (n : Node K) (es : List (Entry K)) (st : St K) (i : Bool) :
    (es.foldl (take n) st).exact i
      = if (st.exact i).isSome then st.exact i else (es.find? fun e => isExact n e.s && e.serves i).map (·.s) := by
  induction es generalizing st with
  | nil =>
    cases h : st.exact i with
    | none => simp [h]
    | some a => simp [h]
  | cons e es ih =>
    rw [List.foldl_cons, ih, List.find?_cons]
    cases hx : isExact n e.s with
    | true =>
      have ht : take n st e = takeExact e.j e.out e.inn e.s st := by
        unfold take
        rw [hx]
        rfl
      rw [ht, takeExact_exact]
      have he : (⟨e.j, e.out, e.inn, e.s⟩ : Entry K) = e := rfl
      rw [he]
      cases h : st.exact i with
      | some a => simp
      | none => cases hs : e.serves i <;> simp
    | false =>
      have ht : take n st e = takeBest n e.j e.out e.inn e.s st := by
        unfold take
        rw [hx]
        rfl
      have : (takeBest n e.j e.out e.inn e.s st).exact i = st.exact i := by
        unfold takeBest
        split <;> rfl
      rw [ht, this]
      simp

/-- The other matches. -/
structure BestInv (n : Node K) (es : List (Entry K)) (st : St K) : Prop where
  from' : ∀ i s, st.best i = some s → ∃ e ∈ es, isExact n e.s = false ∧ e.serves i = true ∧ e.s = s ∧ 0 < match' n s
  nonneg : 0 ≤ st.dot
  most : ∀ e ∈ es, isExact n e.s = false → match' n e.s ≤ st.dot
  top : st.dot = 0 ∨ ∃ e ∈ es, isExact n e.s = false ∧ match' n e.s = st.dot ∧
    ∀ i, e.serves i = true → st.best i = some e.s

theorem takeBest_best (n : Node K) (e : Entry K) (st : St K) (h : match' n e.s > st.dot) (i : Bool) :
    (takeBest n e.j e.out e.inn e.s st).best i = if e.serves i then some e.s else st.best i := by
  unfold takeBest put Entry.serves
  rw [if_pos h]
  simp only
  obtain ⟨j, out, inn, s⟩ := e
  cases j <;> cases i <;> cases out <;> cases inn <;> simp

theorem bestInv_step [IsStrictOrderedRing K] (n : Node K) (es : List (Entry K)) (st : St K) (h : BestInv n es st) (e : Entry K) :
    BestInv n (es ++ [e]) (take n st e) := by
  unfold take
  cases hx : isExact n e.s with
  | true =>
    rw [if_pos rfl]
    have hb : (takeExact e.j e.out e.inn e.s st).best = st.best := rfl
    have hd : (takeExact e.j e.out e.inn e.s st).dot = st.dot := rfl
    refine ⟨?_, by rw [hd]; exact h.nonneg, ?_, ?_⟩
    · intro i s hs
      rw [hb] at hs
      obtain ⟨e', a, b⟩ := h.from' i s hs
      exact ⟨e', List.mem_append_left _ a, b⟩
    · intro e' he' hne
      rw [hd]
      rcases List.mem_append.1 he' with he' | he'
      · exact h.most e' he' hne
      · rw [List.mem_singleton] at he'
        subst he'
        rw [hx] at hne
        cases hne
    · rw [hd, hb]
      rcases h.top with h0 | ⟨e', a, b⟩
      · exact Or.inl h0
      · exact Or.inr ⟨e', List.mem_append_left _ a, b⟩
  | false =>
    rw [if_neg (by simp)]
    by_cases hm : match' n e.s > st.dot
    · have hd : (takeBest n e.j e.out e.inn e.s st).dot = match' n e.s := by
        unfold takeBest
        rw [if_pos hm]
      have hb := takeBest_best n e st hm
      refine ⟨?_, by rw [hd]; exact le_trans h.nonneg (le_of_lt hm), ?_, ?_⟩
      · intro i s hs
        rw [hb] at hs
        by_cases hv : e.serves i = true
        · rw [if_pos hv] at hs
          cases hs
          exact ⟨e, by simp, hx, hv, rfl, lt_of_le_of_lt h.nonneg hm⟩
        · rw [if_neg hv] at hs
          obtain ⟨e', a, b⟩ := h.from' i s hs
          exact ⟨e', List.mem_append_left _ a, b⟩
      · intro e' he' hne
        rw [hd]
        rcases List.mem_append.1 he' with he' | he'
        · exact le_trans (h.most e' he' hne) (le_of_lt hm)
        · rw [List.mem_singleton] at he'
          rw [he']
      · refine Or.inr ⟨e, by simp, hx, hd.symm, ?_⟩
        intro i hv
        rw [hb, if_pos hv]
    · have hst : takeBest n e.j e.out e.inn e.s st = st := by
        unfold takeBest
        rw [if_neg hm]
      rw [hst]
      refine ⟨?_, h.nonneg, ?_, ?_⟩
      · intro i s hs
        obtain ⟨e', a, b⟩ := h.from' i s hs
        exact ⟨e', List.mem_append_left _ a, b⟩
      · intro e' he' hne
        rcases List.mem_append.1 he' with he' | he'
        · exact h.most e' he' hne
        · rw [List.mem_singleton] at he'
          rw [he']
          exact not_lt.1 hm
      · rcases h.top with h0 | ⟨e', a, b⟩
        · exact Or.inl h0
        · exact Or.inr ⟨e', List.mem_append_left _ a, b⟩

theorem bestInv_fold [IsStrictOrderedRing K] (n : Node K) (es pre : List (Entry K)) (st : St K) (h : BestInv n pre st) :
    BestInv n (pre ++ es) (es.foldl (take n) st) := by
  induction es generalizing pre st with
  | nil => rw [List.append_nil]; exact h
  | cons e es ih =>
    have := ih (pre ++ [e]) (take n st e) (bestInv_step n pre st h e)
    rw [List.append_assoc] at this
    exact this

theorem bestInv_start [IsStrictOrderedRing K] (n : Node K) : BestInv n ([] : List (Entry K)) start :=
  ⟨fun i s h => (by cases h), le_refl _, fun e he => (by cases he), Or.inl rfl⟩

theorem mem_visit {w : List (Vec K)} {n : Node K} {ss : List (Side K)} {s : Side K} (h : s ∈ visit w n ss) :
    s ∈ ss ∧ skipped w s = false := by
  induction ss with
  | nil => cases h
  | cons t ss ih =>
    unfold visit at h
    split at h
    · exact ⟨List.mem_cons_of_mem _ (ih h).1, (ih h).2⟩
    · next hsk =>
      have hsk : skipped w t = false := by simpa using hsk
      split at h
      · rw [List.mem_singleton] at h
        subst h
        exact ⟨List.mem_cons_self, hsk⟩
      · rcases List.mem_cons.1 h with rfl | h
        · exact ⟨List.mem_cons_self, hsk⟩
        · exact ⟨List.mem_cons_of_mem _ (ih h).1, (ih h).2⟩

theorem visit_all {w : List (Vec K)} {n : Node K} {ss : List (Side K)}
    (h : ∀ s ∈ ss, skipped w s = false → isExact n s = false) {s : Side K} (hs : s ∈ ss) (hsk : skipped w s = false) :
    s ∈ visit w n ss := by
  induction ss with
  | nil => cases hs
  | cons t ss ih =>
    have ih := ih (fun u hu => h u (List.mem_cons_of_mem _ hu))
    unfold visit
    split
    · next ht =>
      rcases List.mem_cons.1 hs with rfl | hs
      · rw [hsk] at ht
        cases ht
      · exact ih hs
    · next ht =>
      have ht : skipped w t = false := by simpa using ht
      rw [if_neg (by rw [h t List.mem_cons_self ht]; simp)]
      rcases List.mem_cons.1 hs with rfl | hs
      · exact List.mem_cons_self
      · exact List.mem_cons_of_mem _ (ih hs)

theorem visit_exact {w : List (Vec K)} {n : Node K} {ss : List (Side K)}
    (h : ∃ s ∈ ss, skipped w s = false ∧ isExact n s = true) : ∃ s ∈ visit w n ss, isExact n s = true := by
  induction ss with
  | nil =>
    obtain ⟨s, hs, -⟩ := h
    cases hs
  | cons t ss ih =>
    obtain ⟨s, hs, h1, h2⟩ := h
    unfold visit
    by_cases ht : skipped w t = true
    · rw [if_pos ht]
      rcases List.mem_cons.1 hs with rfl | hs
      · rw [h1] at ht
        cases ht
      · exact ih ⟨s, hs, h1, h2⟩
    · rw [if_neg ht]
      by_cases hx : isExact n t = true
      · rw [if_pos hx]
        exact ⟨t, List.mem_singleton_self _, hx⟩
      · rw [if_neg hx]
        rcases List.mem_cons.1 hs with rfl | hs
        · exact absurd h2 hx
        · obtain ⟨u, a, b⟩ := ih ⟨s, hs, h1, h2⟩
          exact ⟨u, List.mem_cons_of_mem _ a, b⟩

theorem mem_entries {g : Game C} {vis : C} {w : List (Vec K)} {n : Node K} {j : Bool} {bs : List (Brush C K)}
    {e : Entry K} : e ∈ entries g vis w n j bs ↔
      ∃ b ∈ bs, (g.generates vis b.contents false = true ∨ g.generates vis b.contents true = true) ∧
        e.s ∈ visit w n b.sides ∧ e.j = j ∧ e.out = g.generates vis b.contents false ∧
        e.inn = g.generates vis b.contents true := by
  unfold entries
  rw [List.mem_flatMap]
  constructor
  · rintro ⟨b, hb, he⟩
    split at he
    · next h =>
      obtain ⟨s, hs, rfl⟩ := List.mem_map.1 he
      exact ⟨b, hb, by simpa using h, hs, rfl, rfl, rfl⟩
    · cases he
  · rintro ⟨b, hb, h, hs, h1, h2, h3⟩
    refine ⟨b, hb, ?_⟩
    rw [if_pos (by simpa using h), List.mem_map]
    refine ⟨e.s, hs, ?_⟩
    cases e
    simp_all

theorem serves_eq {g : Game C} {vis : C} {b : Brush C K} {e : Entry K} (h2 : e.out = g.generates vis b.contents false)
    (h3 : e.inn = g.generates vis b.contents true) (i : Bool) :
    e.serves i = g.generates vis b.contents (decide (i = e.j)) := by
  unfold Entry.serves
  by_cases h : i = e.j
  · rw [if_pos h, h3]
    simp [h]
  · rw [if_neg h, h2]
    simp [h]

theorem skipped_iff [IsStrictOrderedRing K] (w : List (Vec K)) (s : Side K) :
    skipped w s = false ↔ s.bevel = false ∧ ∀ v ∈ w, |s.plane.distTo v| ≤ 1 / 10 := by
  rw [← offPlane_le w s.plane (by norm_num : (0 : K) ≤ 1 / 10)]
  unfold skipped
  rw [Bool.or_eq_false_iff, decide_eq_false_iff_not, not_lt]

theorem mem_all [IsStrictOrderedRing K] {g : Game C} {w : List (Vec K)} {n : Node K} {leaf : Bool → Leaf C K}
    {e : Entry K} (h : e ∈ all g w n leaf) :
    ∃ b ∈ (leaf e.j).brushes, Along w b e.s ∧ e.s ∈ visit w n b.sides ∧
      (∃ i, e.serves i = true) ∧ ∀ i, e.serves i = true ↔ MakesFace g leaf i e.j b := by
  unfold all at h
  simp only at h
  have key : ∀ j, e ∈ entries g (g.visible (leaf false).contents (leaf true).contents) w n j (leaf j).brushes.reverse →
      ∃ b ∈ (leaf e.j).brushes, Along w b e.s ∧ e.s ∈ visit w n b.sides ∧
      (∃ i, e.serves i = true) ∧ ∀ i, e.serves i = true ↔ MakesFace g leaf i e.j b := by
    intro j hj
    obtain ⟨b, hb, h0, hs, h1, h2, h3⟩ := mem_entries.1 hj
    rw [List.mem_reverse] at hb
    subst h1
    have hv := mem_visit hs
    refine ⟨b, hb, ⟨hv.1, (skipped_iff w e.s).1 hv.2⟩, hs, ?_, ?_⟩
    · rcases h0 with h0 | h0
      · refine ⟨!e.j, ?_⟩
        rw [serves_eq h2 h3]
        have : decide ((!e.j) = e.j) = false := by cases e.j <;> rfl
        rw [this, h0]
      · refine ⟨e.j, ?_⟩
        rw [serves_eq h2 h3, decide_eq_true rfl, h0]
    · intro i
      unfold MakesFace
      rw [serves_eq h2 h3]
      exact ⟨fun h => ⟨hb, h⟩, fun h => h.2⟩
  rcases List.mem_append.1 h with h | h
  · exact key false h
  · exact key true h

theorem mem_all_of {g : Game C} {w : List (Vec K)} {n : Node K} {leaf : Bool → Leaf C K} {i j : Bool} {b : Brush C K}
    {s : Side K} (hf : MakesFace g leaf i j b) (hs : s ∈ visit w n b.sides) :
    ∃ e ∈ all g w n leaf, e.j = j ∧ e.s = s ∧ e.serves i = true := by
  obtain ⟨hb, hg⟩ := hf
  refine ⟨⟨j, g.generates (g.visible (leaf false).contents (leaf true).contents) b.contents false,
    g.generates (g.visible (leaf false).contents (leaf true).contents) b.contents true, s⟩, ?_, rfl, rfl, ?_⟩
  · have : (⟨j, g.generates (g.visible (leaf false).contents (leaf true).contents) b.contents false,
        g.generates (g.visible (leaf false).contents (leaf true).contents) b.contents true, s⟩ : Entry K)
        ∈ entries g (g.visible (leaf false).contents (leaf true).contents) w n j (leaf j).brushes.reverse := by
      rw [mem_entries]
      refine ⟨b, List.mem_reverse.2 hb, ?_, hs, rfl, rfl, rfl⟩
      cases hd : decide (i = j) <;> rw [hd] at hg
      · exact Or.inl hg
      · exact Or.inr hg
    unfold all
    simp only
    cases j
    · exact List.mem_append_left _ this
    · exact List.mem_append_right _ this
  · rw [serves_eq (b := b) (g := g) (vis := g.visible (leaf false).contents (leaf true).contents) rfl rfl]
    exact hg

theorem onNode_iff (n : Node K) (hn : n.num % 2 = 0) (s : Side K) : isExact n s = true ↔ OnNode n s := by
  unfold isExact OnNode
  rw [decide_eq_true_iff]
  omega

end Verif.PortalSides
