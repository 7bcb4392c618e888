import Verif.BrushBsp.Model
import Mathlib.Data.Finset.Card
import Mathlib.Data.Finset.Dedup
import Mathlib.Tactic.Linarith

/-! The planes that are left to split at: lemmas for the end of the construction. -/

namespace Verif.BrushBsp

open Geom

set_option linter.unusedSectionVars false

variable {K C : Type} [Field K] [LinearOrder K]

/-- The planes of the sides that are no node yet. -/
def openPlanes (bs : List (Brush K C)) : Finset Nat :=
  ((bs.flatMap (·.sides)).filter fun s => !s.onnode).map (fun s => positive s.planenum) |>.toFinset

theorem mem_open {bs : List (Brush K C)} {n : Nat} :
    n ∈ openPlanes bs ↔ ∃ b ∈ bs, ∃ s ∈ b.sides, s.onnode = false ∧ positive s.planenum = n := by
  simp only [openPlanes, List.mem_toFinset, List.mem_map, List.mem_filter, List.mem_flatMap, Bool.not_eq_true']
  constructor
  · rintro ⟨s, ⟨⟨b, hb, hs⟩, ho⟩, e⟩
    exact ⟨b, hb, s, hs, ho, e⟩
  · rintro ⟨b, hb, s, hs, ho, e⟩
    exact ⟨s, ⟨⟨b, hb, hs⟩, ho⟩, e⟩

theorem positive_positive (n : Nat) : positive (positive n) = positive n := by unfold positive; omega

/-- A brush without a side on the plane. -/
theorem facing_none {n : Nat} (hn : positive n = n) : ∀ {l : List (Side K)}, facingTest n l = none →
    ∀ s ∈ l, positive s.planenum ≠ n := by
  intro l
  induction l with
  | nil => simp
  | cons a l ih =>
    intro h s hs
    unfold facingTest at h
    split at h
    · cases h
    · split at h
      · cases h
      · rename_i h1 h2
        rcases List.mem_cons.1 hs with rfl | hs
        · unfold flipNum at h2
          unfold positive at *
          intro e
          have : n % 2 = 0 := by omega
          rw [if_pos this] at h2
          omega
        · exact ih h s hs

theorem facing_some {n : Nat} {p : PSide} : ∀ {l : List (Side K)}, facingTest n l = some p → p.facing = true := by
  intro l
  induction l with
  | nil => intro h; cases h
  | cons a l ih =>
    intro h
    unfold facingTest at h
    split at h
    · cases h; rfl
    · split at h
      · cases h; rfl
      · exact ih h

theorem box_facing (b : Bounds K) (pl : Plane K) : (boxTest b pl).facing = false := by
  unfold boxTest
  split <;> rfl

theorem test_facing_false {env : Env K C} {n : Nat} {b : Brush K C} (h : (testBrush env n b).facing = false) :
    facingTest n b.sides = none := by
  unfold testBrush at h
  split at h
  · rename_i s hs
    rw [facing_some hs] at h
    cases h
  · assumption

/-- The sides of a half are those of the brush, or the cut. -/
theorem split_sides {env : Env K C} {n : Nat} {b b' : Brush K C}
    (h : (splitBrush env n b).1 = some b' ∨ (splitBrush env n b).2 = some b') :
    ∀ s ∈ b'.sides, s.onnode = true ∨ ∃ s0 ∈ b.sides, s0.planenum = s.planenum ∧ s0.onnode = s.onnode := by
  have self : b = b' → ∀ s ∈ b'.sides, s.onnode = true ∨ ∃ s0 ∈ b.sides, s0.planenum = s.planenum ∧ s0.onnode = s.onnode := by
    rintro rfl s hs
    exact Or.inr ⟨s, hs, rfl, rfl⟩
  have keep : ∀ (c : Brush K C) (l : List (Side K)) (x : Side K), x.onnode = true → keepHalf env c = some b' →
      c.sides = l ++ [x] → (∀ s ∈ l, ∃ s0 ∈ b.sides, s0.planenum = s.planenum ∧ s0.onnode = s.onnode) →
      ∀ s ∈ b'.sides, s.onnode = true ∨ ∃ s0 ∈ b.sides, s0.planenum = s.planenum ∧ s0.onnode = s.onnode := by
    intro c l x hx hk hc hl s hs
    unfold keepHalf at hk
    split at hk
    · cases hk
    · cases hk
      rw [hc] at hs
      rcases List.mem_append.1 hs with hs | hs
      · exact Or.inr (hl s hs)
      · simp only [List.mem_singleton] at hs
        subst hs
        exact Or.inl hx
  have hf : ∀ s ∈ frontSides (env.planes n) b.sides, ∃ s0 ∈ b.sides, s0.planenum = s.planenum ∧ s0.onnode = s.onnode := by
    intro s hs
    simp only [frontSides, List.mem_filterMap, Option.map_eq_some_iff] at hs
    obtain ⟨s0, h0, w, _, rfl⟩ := hs
    exact ⟨s0, h0, rfl, rfl⟩
  have hg : ∀ s ∈ backSides (env.planes n) b.sides, ∃ s0 ∈ b.sides, s0.planenum = s.planenum ∧ s0.onnode = s.onnode := by
    intro s hs
    simp only [backSides, List.mem_filterMap, Option.map_eq_some_iff] at hs
    obtain ⟨s0, h0, w, _, rfl⟩ := hs
    exact ⟨s0, h0, rfl, rfl⟩
  unfold splitBrush at h
  simp only at h
  split at h
  · exact self (by simpa using h)
  split at h
  · exact self (by simpa using h)
  split at h
  · split at h <;> exact self (by simpa using h)
  split at h
  · split at h <;> exact self (by simpa using h)
  split at h
  · simp at h
  split at h
  · exact self (by simpa using h)
  split at h
  · exact self (by simpa using h)
  rcases h with h | h
  · exact keep _ _ _ rfl h rfl hf
  · exact keep _ _ _ rfl h rfl hg

/-- What a brush adds to a list has no more open planes, and the plane is none of them. -/
theorem distribute_open {env : Env K C} {n : Nat} (hn : positive n = n) {b b' : Brush K C}
    (h : b' ∈ (distribute env n (testBrush env n b) b).1 ∨ b' ∈ (distribute env n (testBrush env n b) b).2) :
    ∀ s ∈ b'.sides, s.onnode = false → positive s.planenum ≠ n ∧
      ∃ s0 ∈ b.sides, s0.planenum = s.planenum ∧ s0.onnode = false := by
  unfold distribute at h
  split at h
  · rename_i hs
    have hnone := facing_none hn (test_facing_false (env := env) (b := b) (by rw [hs]))
    have h' : (splitBrush env n b).1 = some b' ∨ (splitBrush env n b).2 = some b' := by
      simpa [Option.mem_toList, Option.mem_def] using h
    intro s hs ho
    rcases split_sides h' s hs with h1 | ⟨s0, h0, e1, e2⟩
    · rw [h1] at ho; cases ho
    · exact ⟨by rw [← e1]; exact hnone s0 h0, s0, h0, e1, by rw [e2]; exact ho⟩
  · have key : b' = (if (testBrush env n b).facing then markOnnode n b else b) := by
      simp only at h
      split at h
      · simpa using h
      · split at h
        · simpa using h
        · simp at h
    rw [key]
    by_cases hf : (testBrush env n b).facing = true
    · rw [if_pos hf]
      intro s hs ho
      simp only [markOnnode, List.mem_map] at hs
      obtain ⟨s0, h0, e⟩ := hs
      split at e
      · rw [← e] at ho; cases ho
      · subst e
        exact ⟨by assumption, s0, h0, rfl, ho⟩
    · rw [if_neg hf]
      intro s hs ho
      exact ⟨facing_none hn (test_facing_false (by simpa using hf)) s hs, s, hs, rfl, ho⟩

theorem list_open {env : Env K C} {n : Nat} (hn : positive n = n) (bs : List (Brush K C)) :
    openPlanes (splitBrushList env n (bs.map (testBrush env n)) bs).1 ⊆ (openPlanes bs).erase n ∧
    openPlanes (splitBrushList env n (bs.map (testBrush env n)) bs).2 ⊆ (openPlanes bs).erase n := by
  have hz : ∀ x ∈ (bs.map (testBrush env n)).zip bs, x.2 ∈ bs ∧ x.1 = testBrush env n x.2 := by
    intro x hx
    rw [List.zip_map_left] at hx
    simp only [List.mem_map] at hx
    obtain ⟨y, hy, rfl⟩ := hx
    have : y.1 = y.2 ∧ y.1 ∈ bs := by
      clear hn
      induction bs with
      | nil => simp at hy
      | cons a l ih =>
        simp only [List.zip_cons_cons, List.mem_cons] at hy
        rcases hy with rfl | hy
        · simp
        · exact ⟨(ih hy).1, List.mem_cons_of_mem _ (ih hy).2⟩
    simp only [Prod.map]
    exact ⟨by rw [← this.1]; exact this.2, by rw [← this.1]; rfl⟩
  constructor
  · intro m hm
    obtain ⟨b', hb', s, hs, ho, rfl⟩ := mem_open.1 hm
    simp only [splitBrushList, List.mem_flatMap, List.mem_map] at hb'
    obtain ⟨r, ⟨x, hx, rfl⟩, hb'⟩ := hb'
    obtain ⟨h1, h2⟩ := hz x hx
    rw [h2] at hb'
    obtain ⟨h3, s0, h4, h5, h6⟩ := distribute_open hn (Or.inl hb') s hs ho
    exact Finset.mem_erase.2 ⟨h3, mem_open.2 ⟨x.2, h1, s0, h4, h6, by rw [h5]⟩⟩
  · intro m hm
    obtain ⟨b', hb', s, hs, ho, rfl⟩ := mem_open.1 hm
    simp only [splitBrushList, List.mem_flatMap, List.mem_map] at hb'
    obtain ⟨r, ⟨x, hx, rfl⟩, hb'⟩ := hb'
    obtain ⟨h1, h2⟩ := hz x hx
    rw [h2] at hb'
    obtain ⟨h3, s0, h4, h5, h6⟩ := distribute_open hn (Or.inr hb') s hs ho
    exact Finset.mem_erase.2 ⟨h3, mem_open.2 ⟨x.2, h1, s0, h4, h6, by rw [h5]⟩⟩

/-! ### The choice of the plane -/

/-- A choice is the plane of an open side, with the tests of all brushes. -/
def ChoiceOk (env : Env K C) (bs : List (Brush K C)) (c : Choice) : Prop :=
  (∃ b ∈ bs, ∃ s ∈ b.sides, s.onnode = false ∧ positive s.planenum = c.planenum) ∧
  c.sides = bs.map (testBrush env c.planenum)

theorem mem_allSides {bs : List (Brush K C)} {x : Brush K C × Side K} :
    x ∈ allSides bs ↔ x.1 ∈ bs ∧ x.2 ∈ x.1.sides := by
  simp only [allSides, List.mem_flatMap, List.mem_map]
  constructor
  · rintro ⟨b, hb, s, hs, rfl⟩; exact ⟨hb, hs⟩
  · rintro ⟨h1, h2⟩; exact ⟨x.1, h1, x.2, h2, rfl⟩

theorem candidate_open {env : Env K C} {pass : Nat} {b : Brush K C} {s : Side K} (h : candidate env pass b s = true) :
    s.onnode = false := by
  unfold candidate at h
  simp only [Bool.and_eq_true, Bool.not_eq_true'] at h
  tauto

theorem countSplits_facing {env : Env K C} {n : Nat} {b : Brush K C} (h : (testBrush env n b).facing = true) :
    (countSplits env n b).1 = 0 := by
  unfold countSplits
  rw [if_neg]
  intro e
  rw [e] at h
  cases h

theorem searchStep_ok {env : Env K C} {parents : List Nat} {vol : Option (Brush K C)} {bs : List (Brush K C)} {pass : Nat}
    {st : Search} {b : Brush K C} {s : Side K} (hb : b ∈ bs) (hs : s ∈ b.sides)
    (hp : s.onnode = false → positive s.planenum ∉ parents) (hst : ∀ c, st.best = some c → ChoiceOk env bs c) :
    ∃ st', searchStep env parents vol bs pass st b s = .ok st' ∧ ∀ c, st'.best = some c → ChoiceOk env bs c := by
  unfold searchStep
  simp only
  by_cases h1 : (!candidate env pass b s || decide (positive s.planenum ∈ st.tested)) = true
  · rw [if_pos h1]; exact ⟨st, rfl, hst⟩
  rw [if_neg h1]
  have hc : s.onnode = false := by
    apply candidate_open (env := env) (pass := pass) (b := b)
    by_contra hcon
    apply h1
    rw [Bool.not_eq_true] at hcon
    simp [hcon]
  rw [if_neg (hp hc)]
  by_cases h2 : (!checkVolume env vol (positive s.planenum)) = true
  · rw [if_pos h2]; exact ⟨st, rfl, hst⟩
  rw [if_neg h2]
  have h3 : ¬ (bs.any fun t => (testBrush env (positive s.planenum) t).facing &&
      decide ((countSplits env (positive s.planenum) t).1 ≠ 0)) = true := by
    intro hcon
    rw [List.any_eq_true] at hcon
    obtain ⟨t, _, ht⟩ := hcon
    simp only [Bool.and_eq_true, decide_eq_true_eq] at ht
    exact ht.2 (countSplits_facing ht.1)
  rw [if_neg h3]
  split
  · refine ⟨_, rfl, ?_⟩
    intro c hcc
    cases hcc
    exact ⟨⟨b, hb, s, hs, hc, rfl⟩, rfl⟩
  · exact ⟨_, rfl, hst⟩

theorem searchPass_ok {env : Env K C} {parents : List Nat} {vol : Option (Brush K C)} {bs : List (Brush K C)} {pass : Nat}
    (hp : ∀ n ∈ openPlanes bs, n ∉ parents) : ∀ (l : List (Brush K C × Side K)), (∀ x ∈ l, x ∈ allSides bs) →
    ∀ (st : Search), (∀ c, st.best = some c → ChoiceOk env bs c) →
    ∃ st', searchPass env parents vol bs pass l st = .ok st' ∧ ∀ c, st'.best = some c → ChoiceOk env bs c := by
  intro l
  induction l with
  | nil => intro _ st hst; exact ⟨st, rfl, hst⟩
  | cons x l ih =>
    intro hl st hst
    obtain ⟨b, s⟩ := x
    obtain ⟨hb, hs⟩ := mem_allSides.1 (hl _ List.mem_cons_self)
    obtain ⟨st1, e1, h1⟩ := searchStep_ok (vol := vol) (pass := pass) (st := st) hb hs
      (fun ho => hp _ (mem_open.2 ⟨b, hb, s, hs, ho, rfl⟩)) hst
    obtain ⟨st2, e2, h2⟩ := ih (fun x hx => hl x (List.mem_cons_of_mem _ hx)) st1 h1
    refine ⟨st2, ?_, h2⟩
    show Outcome.bind (searchStep env parents vol bs pass st b s) _ = _
    rw [e1]
    exact e2

theorem searchPasses_ok {env : Env K C} {parents : List Nat} {vol : Option (Brush K C)} {bs : List (Brush K C)}
    (hp : ∀ n ∈ openPlanes bs, n ∉ parents) : ∀ (ps : List Nat) (st : Search),
    (∀ c, st.best = some c → ChoiceOk env bs c) →
    ∃ st', searchPasses env parents vol bs ps st = .ok st' ∧ ∀ c, st'.best = some c → ChoiceOk env bs c := by
  intro ps
  induction ps with
  | nil => intro st hst; exact ⟨st, rfl, hst⟩
  | cons pass ps ih =>
    intro st hst
    obtain ⟨st1, e1, h1⟩ := searchPass_ok (env := env) (vol := vol) (pass := pass) hp (allSides bs) (fun _ h => h) st hst
    have : searchPasses env parents vol bs (pass :: ps) st =
        if st1.best.isSome then .ok st1 else searchPasses env parents vol bs ps st1 := by
      show Outcome.bind (searchPass env parents vol bs pass (allSides bs) st) _ = _
      rw [e1]
      rfl
    rw [this]
    split
    · exact ⟨st1, rfl, h1⟩
    · exact ih st1 h1

/-- A best plane is the one of an open side. -/
def BestOk (bs : List (Brush K C)) (o : Option (Side K × K)) : Prop :=
  ∀ x, o = some x → ∃ b ∈ bs, x.1 ∈ b.sides ∧ x.1.onnode = false

theorem better_ok {bs : List (Brush K C)} {o : Option (Side K × K)} {b : Brush K C} {s : Side K} {m : K} (h : BestOk bs o)
    (hb : b ∈ bs) (hs : s ∈ b.sides) (ho : s.onnode = false) : BestOk bs (better s m o) := by
  intro x hx
  unfold better at hx
  split at hx
  · cases hx; exact ⟨b, hb, hs, ho⟩
  · split at hx
    · cases hx; exact ⟨b, hb, hs, ho⟩
    · cases hx; exact h _ rfl

theorem midPass_ok {env : Env K C} {vol : Option (Brush K C)} {nb : Bounds K} {bs : List (Brush K C)} {pass : Nat} :
    BestOk bs (midPass env vol nb bs pass).1 ∧ BestOk bs (midPass env vol nb bs pass).2 := by
  unfold midPass
  have : ∀ (l : List (Brush K C × Side K)) (st : Option (Side K × K) × Option (Side K × K)), (∀ x ∈ l, x ∈ allSides bs) →
      BestOk bs st.1 ∧ BestOk bs st.2 →
      BestOk bs (l.foldl (midStep env vol nb pass) st).1 ∧ BestOk bs (l.foldl (midStep env vol nb pass) st).2 := by
    intro l
    induction l with
    | nil => intro st _ h; exact h
    | cons y l ih =>
      intro st hl h
      rw [List.foldl_cons]
      apply ih _ (fun x hx => hl x (List.mem_cons_of_mem _ hx))
      unfold midStep
      simp only
      by_cases hc : (candidate env pass y.1 y.2 && checkVolume env vol (positive y.2.planenum)) = true
      · rw [if_pos hc]
        simp only [Bool.and_eq_true] at hc
        obtain ⟨hb, hs⟩ := mem_allSides.1 (hl y List.mem_cons_self)
        have ho := candidate_open hc.1
        refine ⟨better_ok h.1 hb hs ho, ?_⟩
        show BestOk bs (if _ then _ else _)
        split
        · exact better_ok h.2 hb hs ho
        · exact h.2
      · rw [if_neg hc]; exact h
  exact this (allSides bs) (none, none) (fun _ h => h) ⟨fun _ h => (by cases h), fun _ h => (by cases h)⟩

theorem chooseMid_ok {env : Env K C} {vol : Option (Brush K C)} {nb : Bounds K} {bs : List (Brush K C)} :
    ∀ (ps : List Nat) (s : Side K), chooseMid env vol nb bs ps = some s → ∃ b ∈ bs, s ∈ b.sides ∧ s.onnode = false := by
  intro ps
  induction ps with
  | nil => intro s h; cases h
  | cons p ps ih =>
    intro s h
    unfold chooseMid at h
    have hm := midPass_ok (env := env) (vol := vol) (nb := nb) (bs := bs) (pass := p)
    split at h
    · rename_i s' m e
      cases h
      rw [e] at hm
      exact hm.2 _ rfl
    · rename_i s' m e
      cases h
      rw [e] at hm
      exact hm.1 _ rfl
    · exact ih s h

/-- `SelectSplitPlane` never fails when no open plane is one of a parent, and the plane it chooses is open. -/
theorem selectSplit_ok {env : Env K C} {parents : List Nat} {vol : Option (Brush K C)} {nb : Bounds K}
    {bs : List (Brush K C)} (hp : ∀ n ∈ openPlanes bs, n ∉ parents) :
    ∃ o, selectSplit env parents vol nb bs = .ok o ∧ ∀ c, o = some c → ChoiceOk env bs c := by
  unfold selectSplit
  split
  · exact ⟨none, rfl, fun _ h => by cases h⟩
  · split
    · rename_i s hs
      have hm : chooseMid env vol nb bs [0, 1, 2, 3] = some s := by
        split at hs
        · exact hs
        · cases hs
      obtain ⟨b, hb, h1, h2⟩ := chooseMid_ok _ _ hm
      refine ⟨_, rfl, ?_⟩
      intro c hc
      cases hc
      exact ⟨⟨b, hb, s, h1, h2, rfl⟩, rfl⟩
    · obtain ⟨st, e, h⟩ := searchPasses_ok (env := env) (vol := vol) hp [0, 1, 2, 3] ⟨[], -99999, none⟩
        (fun _ h => by cases h)
      refine ⟨st.best, ?_, h⟩
      show Outcome.bind (searchPasses env parents vol bs [0, 1, 2, 3] ⟨[], -99999, none⟩) _ = _
      rw [e]
      rfl

end Verif.BrushBsp
