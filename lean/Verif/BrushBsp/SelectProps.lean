import Verif.BrushBsp.SelectLemmas

/-! C97: structural planes are used before detail planes, nodes are marked accordingly, and a leaf is made when no plane
is left. -/

namespace Verif.BrushBsp

open Geom Spec

set_option linter.unusedSectionVars false

variable {K C : Type} [Field K] [LinearOrder K]

theorem select_search {env : Env K C} {parents : List Nat} {vol : Option (Brush K C)} {nb : Bounds K}
    {bs : List (Brush K C)} {o : Option Choice} (hne : bs ≠ [])
    (hm : env.midsplit bs.length nb = false) (h : selectSplit env parents vol nb bs = .ok o) :
    (o = none → ∀ p ∈ [0, 1, 2, 3], AllFail env vol bs p (allSides bs)) ∧
    ∀ c, o = some c → ∃ ps1 p ps2, [0, 1, 2, 3] = ps1 ++ p :: ps2 ∧ Made env bs p c ∧
      ∀ q ∈ ps1, AllFail env vol bs q (allSides bs) := by
  unfold selectSplit at h
  rw [if_neg hne] at h
  simp only [hm, Bool.false_eq_true, if_false] at h
  cases e : searchPasses env parents vol bs [0, 1, 2, 3] ⟨[], -99999, none⟩ with
  | ok st =>
    rw [e] at h
    have ho : st.best = o := by
      injection h
    rw [← ho]
    exact searchPasses_found _ _ _ e ⟨by decide, fun _ => ⟨rfl, fun n hn => by simp at hn⟩⟩ rfl
  | error => rw [e] at h; cases h
  | ub => rw [e] at h; cases h

/-- The middle search never takes part. -/
def NoMid (env : Env K C) : Prop := ∀ n nb, env.midsplit n nb = false

/-- C97: a plane of a detail brush is chosen only if no usable side of a structural brush has a plane that cuts the
volume, other than planes that were tested and have a value of at most -99999. -/
theorem structural_first {env : Env K C} (hm : NoMid env) {parents : List Nat} {vol : Option (Brush K C)} {nb : Bounds K}
    {bs : List (Brush K C)} {c : Choice} (h : selectSplit env parents vol nb bs = .ok (some c)) (hd : c.detail = true) :
    ∀ b ∈ bs, env.isDetail b.contents = false → ∀ s ∈ b.sides, Usable s → CutsVolume env vol (s.planenum / 2 * 2) →
      ∃ b' ∈ bs, ∃ s' ∈ b'.sides, s'.planenum / 2 * 2 = s.planenum / 2 * 2 ∧ planeValue env bs s' ≤ -99999 := by
  intro b hb hst s hs hu hc
  have hne : bs ≠ [] := by rintro rfl; simp at hb
  obtain ⟨_, h2⟩ := select_search hne (hm _ _) h
  obtain ⟨ps1, p, ps2, e, ⟨hp, _⟩, hf⟩ := h2 c rfl
  rw [hd] at hp
  have hp' : 2 ≤ p := by simpa using hp
  obtain ⟨q, _, hq, hq2⟩ := usable_candidate (env := env) (b := b) hu
  have hmem : q ∈ ps1 := by
    have hq3 := hq2 hst
    rcases ps1 with _ | ⟨a, ps1⟩
    · simp only [List.nil_append, List.cons.injEq] at e; omega
    rcases ps1 with _ | ⟨a', ps1⟩
    · simp only [List.cons_append, List.nil_append, List.cons.injEq] at e; omega
    simp only [List.cons_append, List.cons.injEq] at e
    simp only [List.mem_cons, List.not_mem_nil, or_false] at hq3
    simp only [List.mem_cons]
    omega
  exact hf q hmem (b, s) (mem_allSides.2 ⟨hb, hs⟩) hq (checkVolume_iff.2 hc)

/-- C97: a leaf is made only if no usable side has a plane that cuts the volume, other than planes that were tested and
have a value of at most -99999. -/
theorem leaf_done {env : Env K C} (hm : NoMid env) {parents : List Nat} {vol : Option (Brush K C)} {nb : Bounds K}
    {bs : List (Brush K C)} (h : selectSplit env parents vol nb bs = .ok none) :
    ∀ b ∈ bs, ∀ s ∈ b.sides, Usable s → CutsVolume env vol (s.planenum / 2 * 2) →
      ∃ b' ∈ bs, ∃ s' ∈ b'.sides, s'.planenum / 2 * 2 = s.planenum / 2 * 2 ∧ planeValue env bs s' ≤ -99999 := by
  intro b hb s hs hu hc
  have hne : bs ≠ [] := by rintro rfl; simp at hb
  obtain ⟨h1, _⟩ := select_search hne (hm _ _) h
  obtain ⟨q, hq0, hq, _⟩ := usable_candidate (env := env) (b := b) hu
  exact h1 rfl q hq0 (b, s) (mem_allSides.2 ⟨hb, hs⟩) hq (checkVolume_iff.2 hc)

/-- C97: if there are no hint sides and not too many brushes, a leaf is made only if no usable side has a plane that cuts
the volume. -/
theorem leaf_done_small {env : Env K C} (hm : NoMid env) {parents : List Nat} {vol : Option (Brush K C)} {nb : Bounds K}
    {bs : List (Brush K C)} (h : selectSplit env parents vol nb bs = .ok none)
    (hh : ∀ b ∈ bs, ∀ s ∈ b.sides, s.hint = false)
    (hs : 5 * (bs.map fun b => (b.sides.length : Int)).sum + 1001 * bs.length < 99999) :
    ∀ b ∈ bs, ∀ s ∈ b.sides, Usable s → ¬ CutsVolume env vol (s.planenum / 2 * 2) := by
  intro b hb s hs' hu hc
  obtain ⟨b', _, s', _, _, hv⟩ := leaf_done hm h b hb s hs' hu hc
  have := value_bound (env := env) s' hh
  omega

/-- C97: a plane that splits a visible hint side of the last brush is chosen only for a hint side. -/
theorem hint_last_partial {env : Env K C} (hm : NoMid env) {parents : List Nat} {vol : Option (Brush K C)} {nb : Bounds K}
    {bs : List (Brush K C)} {b : Brush K C} {c : Choice}
    (h : selectSplit env parents vol nb (bs ++ [b]) = .ok (some c))
    (hb : testBrush env c.planenum b = ⟨true, true, false⟩) {s : Side K} (hs : s ∈ b.sides) (hv : s.visible = true)
    (hon : s.onnode = false) (hsk : s.hintskip = false) (hh : s.hint = true)
    (hf : ∃ q ∈ s.w, (env.planes c.planenum).distTo q > 1 / 10)
    (hg : ∃ q ∈ s.w, (env.planes c.planenum).distTo q < -(1 / 10)) :
    ∃ b' ∈ bs ++ [b], ∃ s' ∈ b'.sides, s'.planenum / 2 * 2 = c.planenum ∧ s'.hint = true := by
  obtain ⟨_, h2⟩ := select_search (by simp) (hm _ _) h
  obtain ⟨_, p, _, _, ⟨_, b', hb', s', hs', _, hpl, hval⟩, _⟩ := h2 c rfl
  refine ⟨b', hb', s', hs', hpl, ?_⟩
  by_contra hno
  have hsplit : (countSplits env (positive s'.planenum) b).2.1 = true := by
    rw [hpl]
    unfold countSplits
    rw [if_pos hb]
    simp only
    rw [List.any_eq_true]
    obtain ⟨q1, m1, d1⟩ := hf
    obtain ⟨q2, m2, d2⟩ := hg
    refine ⟨s, List.mem_filter.2 ⟨List.mem_filter.2 ⟨hs, ?_⟩, ?_⟩, hh⟩
    · have : s.w ≠ [] := List.ne_nil_of_mem m1
      simp [hon, hv, this]
    · have a1 : (s.w.any fun p => decide ((env.planes c.planenum).distTo p > 1 / 10)) = true :=
        List.any_eq_true.2 ⟨q1, m1, decide_eq_true d1⟩
      have a2 : (s.w.any fun p => decide ((env.planes c.planenum).distTo p < -(1 / 10))) = true :=
        List.any_eq_true.2 ⟨q2, m2, decide_eq_true d2⟩
      unfold sideSplit
      rw [a1, a2, hsk]
      rfl
  have hlast : (((bs ++ [b]).map (countSplits env (positive s'.planenum))).getLast?.map (·.2.1)).getD false = true := by
    rw [List.map_append, List.map_singleton, List.getLast?_append]
    simpa using hsplit
  unfold planeValue at hval
  rw [Bool.not_eq_true] at hno
  simp only [hlast, hno, Bool.not_false, Bool.and_self, if_true] at hval
  omega

/-! ### The marks of the nodes -/

/-- The brush is a part of one of the brushes. -/
def PartOf (bs : List (Brush K C)) (b' : Brush K C) : Prop :=
  ∃ b ∈ bs, b.contents = b'.contents ∧ ∀ s ∈ b'.sides, s.onnode = false → ∃ s0 ∈ b.sides, s0.planenum = s.planenum

theorem split_contents {env : Env K C} {n : Nat} {b b' : Brush K C}
    (h : (splitBrush env n b).1 = some b' ∨ (splitBrush env n b).2 = some b') : b.contents = b'.contents := by
  have keep : ∀ c : Brush K C, keepHalf env c = some b' → c.contents = b.contents → b.contents = b'.contents := by
    intro c hk hc
    unfold keepHalf at hk
    split at hk
    · cases hk
    · cases hk; exact hc.symm
  have self : b = b' → b.contents = b'.contents := fun e => by rw [e]
  unfold splitBrush at h
  simp only at h
  split at h
  · exact self (by simpa using h)
  split at h
  · exact self (by simpa using h)
  split at h
  · split at h <;> exact self (by simpa using h)
  split at h
  · split at h <;> exact self (by simpa using h)
  split at h
  · simp at h
  split at h
  · exact self (by simpa using h)
  split at h
  · exact self (by simpa using h)
  rcases h with h | h
  · exact keep _ h rfl
  · exact keep _ h rfl

theorem distribute_part {env : Env K C} {n : Nat} {p : PSide} {b b' : Brush K C}
    (h : b' ∈ (distribute env n p b).1 ∨ b' ∈ (distribute env n p b).2) :
    b.contents = b'.contents ∧ ∀ s ∈ b'.sides, s.onnode = false → ∃ s0 ∈ b.sides, s0.planenum = s.planenum ∧ s0.onnode = false := by
  unfold distribute at h
  split at h
  · have h' : (splitBrush env n b).1 = some b' ∨ (splitBrush env n b).2 = some b' := by
      simpa [Option.mem_toList, Option.mem_def] using h
    refine ⟨split_contents h', ?_⟩
    intro s hs ho
    rcases split_sides h' s hs with h1 | ⟨s0, h0, e1, e2⟩
    · rw [h1] at ho; cases ho
    · exact ⟨s0, h0, e1, by rw [e2]; exact ho⟩
  · have key : b' = (if p.facing then markOnnode n b else b) := by
      simp only at h
      split at h
      · simpa using h
      · split at h
        · simpa using h
        · simp at h
    rw [key]
    split
    · refine ⟨rfl, ?_⟩
      intro s hs ho
      simp only [markOnnode, List.mem_map] at hs
      obtain ⟨s0, h0, e⟩ := hs
      split at e
      · rw [← e] at ho; cases ho
      · subst e
        exact ⟨s0, h0, rfl, ho⟩
    · exact ⟨rfl, fun s hs ho => ⟨s, hs, rfl, ho⟩⟩

theorem list_part {env : Env K C} {n : Nat} {ps : List PSide} {bs l : List (Brush K C)} (hl : ∀ b ∈ l, PartOf bs b) :
    (∀ b ∈ (splitBrushList env n ps l).1, PartOf bs b) ∧ ∀ b ∈ (splitBrushList env n ps l).2, PartOf bs b := by
  have key : ∀ (x : PSide × Brush K C) (b' : Brush K C), x ∈ ps.zip l →
      (b' ∈ (distribute env n x.1 x.2).1 ∨ b' ∈ (distribute env n x.1 x.2).2) → PartOf bs b' := by
    intro x b' hx hb
    obtain ⟨B, hB, hc, hs⟩ := hl x.2 (List.of_mem_zip (a := x.1) (b := x.2) hx).2
    obtain ⟨h1, h2⟩ := distribute_part hb
    refine ⟨B, hB, by rw [hc, h1], ?_⟩
    intro s hs' ho
    obtain ⟨s0, h0, e, ho0⟩ := h2 s hs' ho
    obtain ⟨s1, h3, e1⟩ := hs s0 h0 ho0
    exact ⟨s1, h3, by rw [e1, e]⟩
  constructor
  · intro b hb
    simp only [splitBrushList, List.mem_flatMap, List.mem_map] at hb
    obtain ⟨r, ⟨x, hx, rfl⟩, hb⟩ := hb
    exact key x b hx (.inl hb)
  · intro b hb
    simp only [splitBrushList, List.mem_flatMap, List.mem_map] at hb
    obtain ⟨r, ⟨x, hx, rfl⟩, hb⟩ := hb
    exact key x b hx (.inr hb)

theorem tree_marks {env : Env K C} (hm : NoMid env) (bs : List (Brush K C)) : ∀ (fuel : Nat) (parents : List Nat)
    (vol : Option (Brush K C)) (nb : Bounds K) (l : List (Brush K C)) (t : BTree K C), (∀ b ∈ l, PartOf bs b) →
    buildTree env fuel parents vol nb l = some (.ok t) → ∀ x ∈ nodes t, PlaneOf env bs x.2 x.1 := by
  intro fuel
  induction fuel with
  | zero => intro _ _ _ _ _ _ h; cases h
  | succ fuel ih =>
    intro parents vol nb l t hl h
    unfold buildTree at h
    split at h
    · cases h
    · cases h
    · cases h
      intro x hx
      simp [nodes, leafNode] at hx
    · rename_i c e
      have hne : l ≠ [] := by
        rintro rfl
        simp [selectSplit] at e
      obtain ⟨_, h2⟩ := select_search hne (hm _ _) e
      obtain ⟨_, p, _, _, ⟨hd, b, hb, s, hs, hcand, hpl, _⟩, _⟩ := h2 c rfl
      obtain ⟨B, hB, hc, hss⟩ := hl b hb
      obtain ⟨s0, h0, e0⟩ := hss s hs (candidate_open hcand)
      have hroot : PlaneOf env bs c.detail c.planenum := by
        refine ⟨B, hB, ?_, s0, h0, ?_⟩
        · rw [hc, hd]; exact candidate_detail hcand
        · rw [← hpl, e0]; rfl
      obtain ⟨hlf, hlg⟩ := list_part (env := env) (n := c.planenum) (ps := c.sides) hl
      simp only at h
      split at h
      · rename_i f g ef eg
        cases h
        intro x hx
        simp only [nodes, List.mem_cons, List.mem_append] at hx
        rcases hx with rfl | hx | hx
        · exact hroot
        · exact ih _ _ _ _ f hlf ef x hx
        · exact ih _ _ _ _ g hlg eg x hx
      all_goals cases h

/-- C97: when no middle planes are looked for, a node that is not marked as a separator of detail has the plane of a
side of a structural brush, and a node that is marked has the plane of a side of a detail brush. -/
theorem node_marks {env : Env K C} (hm : NoMid env) {fromBounds : Bounds K → Brush K C} {sidespace : K} {fuel : Nat}
    {bs : List (Brush K C)} (hne : bs ≠ []) {t : BTree K C}
    (ht : brushBsp env fromBounds sidespace fuel bs = some (.ok t)) : ∀ x ∈ nodes t, PlaneOf env bs x.2 x.1 := by
  unfold brushBsp at ht
  rw [if_neg hne] at ht
  apply tree_marks hm bs fuel [] _ _ _ t ?_ ht
  intro b hb
  obtain ⟨B, hB, rfl⟩ := List.mem_map.1 hb
  refine ⟨B, hB, rfl, ?_⟩
  intro s hs _
  simp only [clearOnnode, List.mem_map] at hs
  obtain ⟨s0, h0, rfl⟩ := hs
  exact ⟨s0, h0, rfl⟩

end Verif.BrushBsp
