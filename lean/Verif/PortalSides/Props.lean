import Verif.PortalSides.Lemmas
import Verif.Flood.SidesProps
import Mathlib.Algebra.Order.Ring.Rat
import Mathlib.Tactic.NormNum

/-!
The sides found for portals (C189, C190) and the sides marked as visible (C191).
-/

namespace Verif.PortalSides

open Verif.Geom

variable {C K : Type} [Field K] [LinearOrder K]

/-! ## What is found -/

theorem entriesOf_some [IsStrictOrderedRing K] {g : Game C} {vis : C} {w : List (Vec K)} {n : Node K} (hn : n.num % 2 = 0)
    {i j : Bool} {b : Brush C K} {e : Entry K}
    (h : (entries g vis w n j [b]).find? (fun e => isExact n e.s && e.serves i) = some e) :
    Along w b e.s ∧ OnNode n e.s ∧ g.generates vis b.contents (decide (i = j)) = true := by
  have hp := List.find?_some h
  have hm := List.mem_of_find?_eq_some h
  obtain ⟨b', hb', -, hs, h1, h2, h3⟩ := mem_entries.1 hm
  rw [List.mem_singleton] at hb'
  subst hb'
  rw [Bool.and_eq_true] at hp
  have hv := mem_visit hs
  refine ⟨⟨hv.1, (skipped_iff w e.s).1 hv.2⟩, (onNode_iff n hn e.s).1 hp.1, ?_⟩
  have := hp.2
  rw [serves_eq h2 h3, h1] at this
  exact this

theorem entriesOf_none [IsStrictOrderedRing K] {g : Game C} {vis : C} {w : List (Vec K)} {n : Node K} (hn : n.num % 2 = 0)
    {i j : Bool} {b : Brush C K}
    (h : (entries g vis w n j [b]).find? (fun e => isExact n e.s && e.serves i) = none)
    (hg : g.generates vis b.contents (decide (i = j)) = true) (s : Side K) (hs : Along w b s) : ¬ OnNode n s := by
  intro ho
  obtain ⟨u, hu, hx⟩ := visit_exact (w := w) (n := n) (ss := b.sides)
    ⟨s, hs.1, (skipped_iff w s).2 hs.2, (onNode_iff n hn s).2 ho⟩
  have hm : (⟨j, g.generates vis b.contents false, g.generates vis b.contents true, u⟩ : Entry K)
      ∈ entries g vis w n j [b] := by
    rw [mem_entries]
    refine ⟨b, List.mem_singleton_self _, ?_, hu, rfl, rfl, rfl⟩
    cases hd : decide (i = j) <;> rw [hd] at hg
    · exact Or.inl hg
    · exact Or.inr hg
  have := List.find?_eq_none.1 h _ hm
  apply this
  rw [Bool.and_eq_true]
  refine ⟨hx, ?_⟩
  rw [serves_eq (g := g) (vis := vis) (b := b) rfl rfl]
  exact hg

theorem entries_flat (g : Game C) (vis : C) (w : List (Vec K)) (n : Node K) (j : Bool) (bs : List (Brush C K)) :
    entries g vis w n j bs = bs.flatMap fun b => entries g vis w n j [b] := by
  unfold entries
  simp

theorem entries_first [IsStrictOrderedRing K] {g : Game C} {w : List (Vec K)} {n : Node K} (hn : n.num % 2 = 0)
    {leaf : Bool → Leaf C K} (i j : Bool) :
    let f := (entries g (g.visible (leaf false).contents (leaf true).contents) w n j (leaf j).brushes.reverse).find?
      (fun e => isExact n e.s && e.serves i)
    (f = none ∧ ∀ b, ¬ Exact g w n leaf i j b) ∨
      ∃ pre b post e, f = some e ∧ (leaf j).brushes = pre ++ b :: post ∧ MakesFace g leaf i j b ∧ Along w b e.s ∧
        OnNode n e.s ∧ ∀ b' ∈ post, ¬ Exact g w n leaf i j b' := by
  intro f
  have hf : f = (leaf j).brushes.reverse.findSome? fun b =>
      (entries g (g.visible (leaf false).contents (leaf true).contents) w n j [b]).find?
        (fun e => isExact n e.s && e.serves i) := by
    change List.find? _ (entries _ _ _ _ _ _) = _
    rw [entries_flat, List.find?_flatMap]
  cases h : f with
  | none =>
    refine Or.inl ⟨rfl, ?_⟩
    rintro b ⟨⟨hb, hg⟩, s, hs, ho⟩
    rw [hf, List.findSome?_eq_none_iff] at h
    exact entriesOf_none hn (h b (List.mem_reverse.2 hb)) hg s hs ho
  | some e =>
    rw [hf, List.findSome?_eq_some_iff] at h
    obtain ⟨l₁, b, l₂, hl, he, hno⟩ := h
    have hbs : (leaf j).brushes = l₂.reverse ++ b :: l₁.reverse := by
      have := congrArg List.reverse hl
      rw [List.reverse_reverse] at this
      rw [this]
      simp
    obtain ⟨ha, ho, hg⟩ := entriesOf_some hn he
    refine Or.inr ⟨l₂.reverse, b, l₁.reverse, e, rfl, hbs, ⟨?_, hg⟩, ha, ho, ?_⟩
    · rw [hbs]
      exact List.mem_append_right _ List.mem_cons_self
    · rintro b' hb' ⟨⟨-, hg'⟩, s, hs, ho'⟩
      exact entriesOf_none hn (hno b' (List.mem_reverse.1 hb')) hg' s hs ho'

theorem start_none (i : Bool) : (start (K := K)).exact i = none := rfl

/-- What is found for a portal is a side that lies along it, of a brush in one of the two leafs it separates that makes a
face on that side. -/
theorem side_from_brush [IsStrictOrderedRing K] (g : Game C) (w : List (Vec K)) (n : Node K) (leaf : Bool → Leaf C K)
    (r : Bool → Option (Side K)) (h : findSides g w n leaf = .ok (some r)) (i : Bool) (s : Side K) (hs : r i = some s) :
    ∃ j b, MakesFace g leaf i j b ∧ Along w b s := by
  obtain ⟨st, e, hr⟩ := findSides_ok g w n leaf r h
  rw [hr] at hs
  cases hx : st.exact i with
  | some a =>
    rw [hx] at hs
    cases hs
    rw [e, fold_exact, start_none] at hx
    obtain ⟨en, h1, h2⟩ := Option.map_eq_some_iff.1 hx
    have hp := List.find?_some h1
    rw [Bool.and_eq_true] at hp
    obtain ⟨b, hb, ha, -, -, hi⟩ := mem_all (List.mem_of_find?_eq_some h1)
    exact ⟨en.j, b, (hi i).1 hp.2, h2 ▸ ha⟩
  | none =>
    rw [hx] at hs
    have hb := bestInv_fold n (all g w n leaf) [] start (bestInv_start n)
    rw [← e, List.nil_append] at hb
    obtain ⟨en, he, -, hv, hes, -⟩ := hb.from' i s hs
    obtain ⟨b, hb, ha, -, -, hi⟩ := mem_all he
    exact ⟨en.j, b, (hi i).1 hv, hes ▸ ha⟩

/-- Nothing is looked for if and only if the contents seen through the portal are empty. -/
theorem side_none (g : Game C) (w : List (Vec K)) (n : Node K) (leaf : Bool → Leaf C K) :
    findSides g w n leaf = .ok none ↔ g.empty (g.visible (leaf false).contents (leaf true).contents) = true := by
  unfold findSides
  simp only
  constructor
  · intro h
    split at h
    · next h' => exact h'
    · obtain ⟨a, -, h2⟩ := Outcome.bind_eq_ok.1 h
      obtain ⟨b, -, h4⟩ := Outcome.bind_eq_ok.1 h2
      cases h4
  · intro h
    rw [if_pos h]

/-- A side on the plane of the portal's node is preferred to all others: of the brushes in the first leaf that have one
the last, and only if there is none of these the last in the second leaf. -/
theorem side_exact [IsStrictOrderedRing K] (g : Game C) (w : List (Vec K)) (n : Node K) (hn : n.num % 2 = 0)
    (leaf : Bool → Leaf C K) (r : Bool → Option (Side K)) (h : findSides g w n leaf = .ok (some r)) (i : Bool)
    (he : ∃ j b, Exact g w n leaf i j b) :
    ∃ j pre b post s, (leaf j).brushes = pre ++ b :: post ∧ MakesFace g leaf i j b ∧ Along w b s ∧ OnNode n s ∧
      r i = some s ∧ (∀ b' ∈ post, ¬ Exact g w n leaf i j b') ∧ (j = true → ∀ b', ¬ Exact g w n leaf i false b') := by
  obtain ⟨st, e, hr⟩ := findSides_ok g w n leaf r h
  have hx : st.exact i = ((all g w n leaf).find? fun e => isExact n e.s && e.serves i).map (·.s) := by
    rw [e, fold_exact, start_none]
    rfl
  have hall : (all g w n leaf).find? (fun e => isExact n e.s && e.serves i)
      = ((entries g (g.visible (leaf false).contents (leaf true).contents) w n false (leaf false).brushes.reverse).find?
          (fun e => isExact n e.s && e.serves i)).or
        ((entries g (g.visible (leaf false).contents (leaf true).contents) w n true (leaf true).brushes.reverse).find?
          (fun e => isExact n e.s && e.serves i)) := by
    unfold all
    rw [List.find?_append]
  rcases entries_first (g := g) (w := w) hn (leaf := leaf) i false with ⟨h1, h2⟩ | ⟨pre, b, post, en, h1, h2, h3, h4, h5, h6⟩
  · rcases entries_first (g := g) (w := w) hn (leaf := leaf) i true with ⟨h3, h4⟩ | ⟨pre, b, post, en, h3, h4, h5, h6, h7, h8⟩
    · obtain ⟨j, b, hj⟩ := he
      cases j
      · exact absurd hj (h2 b)
      · exact absurd hj (h4 b)
    · refine ⟨true, pre, b, post, en.s, h4, h5, h6, h7, ?_, h8, fun _ => h2⟩
      rw [hr, hx, hall, h1, h3]
      rfl
  · refine ⟨false, pre, b, post, en.s, h2, h3, h4, h5, ?_, h6, fun h => (by cases h)⟩
    rw [hr, hx, hall, h1]
    rfl

/-- If no side is on the plane of the node, the side closest to it is taken for all faces its brush makes. -/
theorem side_closest [IsStrictOrderedRing K] (g : Game C) (w : List (Vec K)) (n : Node K) (hn : n.num % 2 = 0)
    (leaf : Bool → Leaf C K) (r : Bool → Option (Side K)) (h : findSides g w n leaf = .ok (some r))
    (hno : ∀ i j b, ¬ Exact g w n leaf i j b)
    (hc : ∃ i j b s, MakesFace g leaf i j b ∧ Along w b s ∧ 0 < Close n s) :
    ∃ j b s, (∃ i, MakesFace g leaf i j b) ∧ Along w b s ∧ (∀ i, MakesFace g leaf i j b → r i = some s) ∧
      ∀ i' j' b' s', MakesFace g leaf i' j' b' → Along w b' s' → Close n s' ≤ Close n s := by
  obtain ⟨st, e, hr⟩ := findSides_ok g w n leaf r h
  have hb := bestInv_fold n (all g w n leaf) [] start (bestInv_start n)
  rw [← e, List.nil_append] at hb
  have hxn : ∀ i, st.exact i = none := by
    intro i
    rw [e, fold_exact, start_none]
    simp only [Option.isSome_none, Bool.false_eq_true, if_false, Option.map_eq_none_iff]
    rw [List.find?_eq_none]
    intro en hen hp
    rw [Bool.and_eq_true] at hp
    obtain ⟨b, hb, ha, -, -, hi⟩ := mem_all hen
    exact hno i en.j b ⟨(hi i).1 hp.2, en.s, ha, (onNode_iff n hn en.s).1 hp.1⟩
  have hmax : ∀ i' j' b' s', MakesFace g leaf i' j' b' → Along w b' s' → Close n s' ≤ st.dot := by
    intro i' j' b' s' hf ha
    have hv : s' ∈ visit w n b'.sides := by
      refine visit_all ?_ ha.1 ((skipped_iff w s').2 ha.2)
      intro u hu hsk
      by_contra hx
      have hx : isExact n u = true := by simpa using hx
      exact hno i' j' b' ⟨hf, u, ⟨hu, (skipped_iff w u).1 hsk⟩, (onNode_iff n hn u).1 hx⟩
    obtain ⟨en, hen, -, hes, -⟩ := mem_all_of hf hv
    have hxe : isExact n en.s = false := by
      rw [hes]
      by_contra hx
      have hx : isExact n s' = true := by simpa using hx
      exact hno i' j' b' ⟨hf, s', ha, (onNode_iff n hn s').1 hx⟩
    have := hb.most en hen hxe
    rw [hes] at this
    exact this
  obtain ⟨i0, j0, b0, s0, hf0, ha0, hp0⟩ := hc
  rcases hb.top with h0 | ⟨en, hen, -, hd, hbest⟩
  · have := hmax i0 j0 b0 s0 hf0 ha0
    rw [h0] at this
    exact absurd hp0 (not_lt.2 this)
  · obtain ⟨b, hb', ha, -, ⟨i1, hi1⟩, hi⟩ := mem_all hen
    refine ⟨en.j, b, en.s, ⟨i1, (hi i1).1 hi1⟩, ha, ?_, ?_⟩
    · intro i hf
      rw [hr, hxn i]
      exact hbest i ((hi i).2 hf)
    · intro i' j' b' s' hf' ha'
      have := hmax i' j' b' s' hf' ha'
      rw [← hd] at this
      exact this

/-- A face that is to be made gets a side, if there is a side for it that is not perpendicular to the portal and every
brush that makes a face at all makes this one. Without the latter this is false: `side_missed`. -/
theorem side_found_partial [IsStrictOrderedRing K] (g : Game C) (w : List (Vec K)) (n : Node K) (hn : n.num % 2 = 0)
    (leaf : Bool → Leaf C K) (r : Bool → Option (Side K)) (h : findSides g w n leaf = .ok (some r)) (i : Bool)
    (hall : ∀ i' j b, MakesFace g leaf i' j b → MakesFace g leaf i j b)
    (hc : ∃ j b s, MakesFace g leaf i j b ∧ Along w b s ∧ 0 < Close n s) : ∃ s, r i = some s := by
  by_cases he : ∃ j b, Exact g w n leaf i j b
  · obtain ⟨j, pre, b, post, s, -, -, -, -, hs, -⟩ := side_exact g w n hn leaf r h i he
    exact ⟨s, hs⟩
  · have hno : ∀ i j b, ¬ Exact g w n leaf i j b := by
      rintro i' j b ⟨hf, hs⟩
      exact he ⟨j, b, hall i' j b hf, hs⟩
    obtain ⟨j, b, s, hc⟩ := hc
    obtain ⟨j', b', s', ⟨i', hf⟩, -, hs, -⟩ := side_closest g w n hn leaf r h hno ⟨i, j, b, s, hc⟩
    exact ⟨s', hs i (hall i' j' b' hf)⟩

/-! ## The assertion -/

theorem scanSides_cases (w : List (Vec K)) (n : Node K) (j out inn : Bool) (ss : List (Side K)) (st : St K)
    (h : ∀ s ∈ ss, skipped w s = false → isExact n s = true → ((s.num % 2 = 1) ↔ j = false)) :
    ∃ st', scanSides w n j out inn ss st = .ok st' := by
  induction ss generalizing st with
  | nil => exact ⟨st, rfl⟩
  | cons s ss ih =>
    have ih := fun st => ih st fun u hu => h u (List.mem_cons_of_mem _ hu)
    unfold scanSides
    by_cases h1 : s.bevel = true
    · rw [if_pos h1]
      exact ih st
    · rw [if_neg h1]
      by_cases h2 : offPlane w s.plane > 1 / 10
      · rw [if_pos h2]
        exact ih st
      · rw [if_neg h2]
        by_cases h3 : s.num / 2 * 2 = n.num
        · rw [if_pos h3, if_pos (h s List.mem_cons_self ?_ (decide_eq_true h3))]
          · exact ⟨_, rfl⟩
          · unfold skipped
            rw [Bool.or_eq_false_iff]
            exact ⟨by simpa using h1, decide_eq_false h2⟩
        · rw [if_neg h3]
          exact ih _

theorem scanBrushes_cases (g : Game C) (vis : C) (w : List (Vec K)) (n : Node K) (j : Bool) (bs : List (Brush C K))
    (st : St K) (h : ∀ b ∈ bs, (g.generates vis b.contents false || g.generates vis b.contents true) = true →
      ∀ s ∈ b.sides, skipped w s = false → isExact n s = true → ((s.num % 2 = 1) ↔ j = false)) :
    ∃ st', scanBrushes g vis w n j bs st = .ok st' := by
  induction bs generalizing st with
  | nil => exact ⟨st, rfl⟩
  | cons b bs ih =>
    have ih := fun st => ih st fun u hu => h u (List.mem_cons_of_mem _ hu)
    unfold scanBrushes
    simp only
    by_cases h1 : (g.generates vis b.contents false || g.generates vis b.contents true) = true
    · rw [if_neg (by simp [h1])]
      obtain ⟨a, ha⟩ := scanSides_cases w n j (g.generates vis b.contents false) (g.generates vis b.contents true) b.sides
        st (h b List.mem_cons_self h1)
      rw [ha]
      exact ih a
    · rw [if_pos (by simpa using h1)]
      exact ih st

/-- The search does not fail if the sides on the plane of the node face away from the leaf of their brush: down the
plane for the first leaf, which is above it, and up for the second. -/
theorem side_no_assert [IsStrictOrderedRing K] (g : Game C) (w : List (Vec K)) (n : Node K) (hn : n.num % 2 = 0)
    (leaf : Bool → Leaf C K)
    (ha : ∀ i j b s, MakesFace g leaf i j b → Along w b s → OnNode n s → s.num = if j then n.num else n.num + 1) :
    ∃ r, findSides g w n leaf = .ok r := by
  have key : ∀ j st, ∃ st', scanBrushes g (g.visible (leaf false).contents (leaf true).contents) w n j
      (leaf j).brushes.reverse st = .ok st' := by
    intro j st
    apply scanBrushes_cases
    intro b hb hg s hs hsk hx
    rw [List.mem_reverse] at hb
    have hx := (onNode_iff n hn s).1 hx
    have : ∃ i, MakesFace g leaf i j b := by
      rw [Bool.or_eq_true] at hg
      rcases hg with hg | hg
      · refine ⟨!j, hb, ?_⟩
        have : decide ((!j) = j) = false := by cases j <;> rfl
        rw [this, hg]
      · exact ⟨j, hb, by rw [decide_eq_true rfl, hg]⟩
    obtain ⟨i, hf⟩ := this
    have := ha i j b s hf ⟨hs, (skipped_iff w s).1 hsk⟩ hx
    cases j
    · simp at this ⊢
      omega
    · simp at this ⊢
      omega
  unfold findSides
  simp only
  split
  · exact ⟨none, rfl⟩
  · obtain ⟨a, h1⟩ := key false ⟨fun _ => none, fun _ => none, 0⟩
    obtain ⟨b, h2⟩ := key true a
    rw [h1, Outcome.ok_bind, h2]
    exact ⟨_, rfl⟩

/-! ## Marks -/

theorem showSides_spec (r : Bool → Option (Side K)) (vis : Nat → Bool) (x : Nat) :
    showSides r vis x = true ↔ vis x = true ∨ ∃ i s, r i = some s ∧ s.source = some x := by
  have one : ∀ (i : Bool) (v : Nat → Bool), (match r i with
      | none => v
      | some s =>
        match s.source with
        | none => v
        | some x => Flood.setAt v x true) x = true ↔ v x = true ∨ ∃ s, r i = some s ∧ s.source = some x := by
    intro i v
    cases h : r i with
    | none => simp
    | some s =>
      cases hs : s.source with
      | none => simp [hs]
      | some y =>
        simp only [Option.some.injEq, exists_eq_left', hs, Flood.setAt]
        by_cases hxy : x = y
        · simp [hxy]
        · simp [hxy, Ne.symm hxy]
  have h1 := one true (match r false with
      | none => vis
      | some s =>
        match s.source with
        | none => vis
        | some x => Flood.setAt vis x true)
  rw [one false vis] at h1
  refine Iff.trans h1 ?_
  constructor
  · rintro ((h | ⟨s, h⟩) | ⟨s, h⟩)
    · exact Or.inl h
    · exact Or.inr ⟨false, s, h⟩
    · exact Or.inr ⟨true, s, h⟩
  · rintro (h | ⟨i, s, h⟩)
    · exact Or.inl (Or.inl h)
    · cases i
      · exact Or.inl (Or.inr ⟨s, h⟩)
      · exact Or.inr ⟨s, h⟩

/-- What was found before is what would be found. -/
def Good (g : Game C) (leafs : Nat → Leaf C K) (ps : Nat → Portal K) (m : Marks K) : Prop :=
  ∀ p n r, (ps p).node = some n → m.found p = some r →
    findSides g (ps p).winding n (fun i => leafs ((ps p).leaf i)) = .ok (some r)

theorem markPortal_ok (g : Game C) (leafs : Nat → Leaf C K) (ps : Nat → Portal K) (m m' : Marks K) (p : Nat)
    (hg : Good g leafs ps m) (h : markPortal g leafs ps m p = .ok m') :
    Good g leafs ps m' ∧ ∀ x, m'.visible x = true ↔ m.visible x = true ∨ Shows g leafs (ps p) x := by
  unfold markPortal at h
  cases hn : (ps p).node with
  | none =>
    rw [hn] at h
    cases h
    refine ⟨hg, fun x => ⟨Or.inl, ?_⟩⟩
    rintro (h | ⟨n, r, i, s, h, -⟩)
    · exact h
    · rw [hn] at h
      cases h
  | some n =>
    rw [hn] at h
    simp only at h
    cases hf : m.found p with
    | some sides =>
      rw [hf] at h
      cases h
      refine ⟨hg, fun x => ?_⟩
      have hs := hg p n sides hn hf
      rw [showSides_spec]
      refine or_congr Iff.rfl ?_
      constructor
      · rintro ⟨i, s, h1, h2⟩
        exact ⟨n, sides, i, s, hn, hs, h1, h2⟩
      · rintro ⟨n', r, i, s, h1, h2, h3, h4⟩
        rw [hn] at h1
        cases h1
        rw [hs] at h2
        cases h2
        exact ⟨i, s, h3, h4⟩
    | none =>
      rw [hf] at h
      simp only at h
      obtain ⟨r, h1, h2⟩ := Outcome.bind_eq_ok.1 h
      cases r with
      | none =>
        cases h2
        refine ⟨hg, fun x => ⟨Or.inl, ?_⟩⟩
        rintro (h | ⟨n', r, i, s, h, h', -⟩)
        · exact h
        · rw [hn] at h
          cases h
          rw [h1] at h'
          cases h'
      | some sides =>
        cases h2
        constructor
        · intro q n' r hq hr
          by_cases hqp : q = p
          · subst hqp
            simp [Flood.setAt] at hr
            subst hr
            rw [hn] at hq
            cases hq
            exact h1
          · simp [Flood.setAt, hqp] at hr
            exact hg q n' r hq hr
        · intro x
          rw [showSides_spec]
          refine or_congr Iff.rfl ?_
          constructor
          · rintro ⟨i, s, h3, h4⟩
            exact ⟨n, sides, i, s, hn, h1, h3, h4⟩
          · rintro ⟨n', r, i, s, h3, h4, h5, h6⟩
            rw [hn] at h3
            cases h3
            rw [h1] at h4
            cases h4
            exact ⟨i, s, h5, h6⟩

theorem markPortals_ok (g : Game C) (leafs : Nat → Leaf C K) (ps : Nat → Portal K) (l : List Nat) (m m' : Marks K)
    (hg : Good g leafs ps m) (h : markPortals g leafs ps l m = .ok m') :
    Good g leafs ps m' ∧ ∀ x, m'.visible x = true ↔ m.visible x = true ∨ ∃ p ∈ l, Shows g leafs (ps p) x := by
  induction l generalizing m with
  | nil =>
    cases h
    exact ⟨hg, fun x => by simp⟩
  | cons p l ih =>
    unfold markPortals at h
    obtain ⟨a, h1, h2⟩ := Outcome.bind_eq_ok.1 h
    obtain ⟨hga, ha⟩ := markPortal_ok g leafs ps m a p hg h1
    obtain ⟨hgm, hm⟩ := ih a hga h2
    refine ⟨hgm, fun x => ?_⟩
    rw [hm, ha, or_assoc]
    simp

theorem markLeafs_ok (g : Game C) (leafs : Nat → Leaf C K) (ps : Nat → Portal K) (tree : List (Nat × List Nat))
    (m m' : Marks K) (hg : Good g leafs ps m) (h : markLeafs g leafs ps tree m = .ok m') (x : Nat) :
    m'.visible x = true ↔ m.visible x = true ∨
      ∃ l around p, (l, around) ∈ tree ∧ g.empty (leafs l).contents = false ∧ p ∈ around ∧ Shows g leafs (ps p) x := by
  induction tree generalizing m with
  | nil =>
    cases h
    simp
  | cons t tree ih =>
    obtain ⟨l, around⟩ := t
    unfold markLeafs at h
    by_cases he : g.empty (leafs l).contents = true
    · rw [if_pos he] at h
      rw [ih m hg h]
      refine or_congr Iff.rfl ?_
      constructor
      · rintro ⟨l', a', p, h1, h2⟩
        exact ⟨l', a', p, List.mem_cons_of_mem _ h1, h2⟩
      · rintro ⟨l', a', p, h1, h2, h3⟩
        rcases List.mem_cons.1 h1 with h1 | h1
        · cases h1
          rw [he] at h2
          cases h2
        · exact ⟨l', a', p, h1, h2, h3⟩
    · rw [if_neg he] at h
      obtain ⟨a, h1, h2⟩ := Outcome.bind_eq_ok.1 h
      obtain ⟨hga, ha⟩ := markPortals_ok g leafs ps around m a hg h1
      rw [ih a hga h2, ha, or_assoc]
      refine or_congr Iff.rfl ?_
      constructor
      · rintro (⟨p, hp, hs⟩ | ⟨l', a', p, h1, h2⟩)
        · exact ⟨l, around, p, List.mem_cons_self, by simpa using he, hp, hs⟩
        · exact ⟨l', a', p, List.mem_cons_of_mem _ h1, h2⟩
      · rintro ⟨l', a', p, h1, h2, h3, h4⟩
        rcases List.mem_cons.1 h1 with h1 | h1
        · cases h1
          exact Or.inl ⟨p, h3, h4⟩
        · exact Or.inr ⟨l', a', p, h1, h2, h3, h4⟩

/-- The sides of brushes that are visible afterwards are the hints and those found for a portal around a leaf that is not
empty. -/
theorem sides_marked (g : Game C) (leafs : Nat → Leaf C K) (ps : Nat → Portal K) (tree : List (Nat × List Nat))
    (hint : Nat → Bool) (sides : List (Option Nat)) (vis v : Nat → Bool)
    (h : markVisible g leafs ps tree hint sides vis = .ok v) (x : Nat) (hx : some x ∈ sides) :
    v x = true ↔ hint x = true ∨
      ∃ l around p, (l, around) ∈ tree ∧ g.empty (leafs l).contents = false ∧ p ∈ around ∧ Shows g leafs (ps p) x := by
  unfold markVisible at h
  obtain ⟨m, h1, h2⟩ := Outcome.bind_eq_ok.1 h
  cases h2
  have := markLeafs_ok g leafs ps tree _ m (fun p n r _ h => by cases h) h1 x
  simp only [Flood.markSidesInvisible_spec, if_pos hx] at this
  exact this

/-- Sides of other brushes are visible afterwards if they were before, or if they are found for such a portal. -/
theorem sides_marked_others (g : Game C) (leafs : Nat → Leaf C K) (ps : Nat → Portal K) (tree : List (Nat × List Nat))
    (hint : Nat → Bool) (sides : List (Option Nat)) (vis v : Nat → Bool)
    (h : markVisible g leafs ps tree hint sides vis = .ok v) (x : Nat) (hx : some x ∉ sides) :
    v x = true ↔ vis x = true ∨
      ∃ l around p, (l, around) ∈ tree ∧ g.empty (leafs l).contents = false ∧ p ∈ around ∧ Shows g leafs (ps p) x := by
  unfold markVisible at h
  obtain ⟨m, h1, h2⟩ := Outcome.bind_eq_ok.1 h
  cases h2
  have := markLeafs_ok g leafs ps tree _ m (fun p n r _ h => by cases h) h1 x
  simp only [Flood.markSidesInvisible_spec, if_neg hx] at this
  exact this

end Verif.PortalSides
