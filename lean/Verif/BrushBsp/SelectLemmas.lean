import Verif.BrushBsp.TermLemmas
import Verif.BrushBsp.SelectSpec
import Mathlib.Tactic.Ring

/-! What the search for a plane finds. -/

namespace Verif.BrushBsp

open Geom Spec

set_option linter.unusedSectionVars false

variable {K C : Type} [Field K] [LinearOrder K]

/-- The plane of a side was tested and found too bad. -/
def Bad (env : Env K C) (bs : List (Brush K C)) (n : Nat) : Prop :=
  ∃ b ∈ bs, ∃ s ∈ b.sides, positive s.planenum = n ∧ planeValue env bs s ≤ -99999

/-- The sides that are looked at in a pass: none can be used. -/
def AllFail (env : Env K C) (vol : Option (Brush K C)) (bs : List (Brush K C)) (pass : Nat)
    (l : List (Brush K C × Side K)) : Prop :=
  ∀ x ∈ l, candidate env pass x.1 x.2 = true → checkVolume env vol (positive x.2.planenum) = true →
    Bad env bs (positive x.2.planenum)

/-- The state while no plane was chosen. -/
def Idle (env : Env K C) (bs : List (Brush K C)) (st : Search) : Prop :=
  -99999 ≤ st.value ∧ (st.best = none → st.value = -99999 ∧ ∀ n ∈ st.tested, Bad env bs n)

/-- A choice that was made in a pass. -/
def Made (env : Env K C) (bs : List (Brush K C)) (pass : Nat) (c : Choice) : Prop :=
  c.detail = decide (2 ≤ pass) ∧ ∃ b ∈ bs, ∃ s ∈ b.sides, candidate env pass b s = true ∧
    positive s.planenum = c.planenum ∧ -99999 < planeValue env bs s

theorem searchStep_found {env : Env K C} {parents : List Nat} {vol : Option (Brush K C)} {bs : List (Brush K C)} {pass : Nat}
    {st st' : Search} {b : Brush K C} {s : Side K} (hb : b ∈ bs) (hs : s ∈ b.sides)
    (h : searchStep env parents vol bs pass st b s = .ok st') (hi : Idle env bs st)
    (hm : ∀ c, st.best = some c → Made env bs pass c) :
    Idle env bs st' ∧ (∀ c, st'.best = some c → Made env bs pass c) ∧ (st'.best = none → st.best = none ∧
      AllFail env vol bs pass [(b, s)]) := by
  unfold searchStep at h
  simp only at h
  by_cases h1 : (!candidate env pass b s || decide (positive s.planenum ∈ st.tested)) = true
  · rw [if_pos h1] at h
    cases h
    refine ⟨hi, hm, fun hn => ⟨hn, ?_⟩⟩
    intro x hx hc _
    simp only [List.mem_singleton] at hx
    subst hx
    simp only at hc ⊢
    rw [hc] at h1
    simp at h1
    exact (hi.2 hn).2 _ h1
  rw [if_neg h1] at h
  have hc : candidate env pass b s = true := by
    by_contra hcon
    apply h1
    rw [Bool.not_eq_true] at hcon
    simp [hcon]
  by_cases hpar : positive s.planenum ∈ parents
  · rw [if_pos hpar] at h; cases h
  rw [if_neg hpar] at h
  by_cases h2 : (!checkVolume env vol (positive s.planenum)) = true
  · rw [if_pos h2] at h
    cases h
    refine ⟨hi, hm, fun hn => ⟨hn, ?_⟩⟩
    intro x hx _ hv
    simp only [List.mem_singleton] at hx
    subst hx
    simp only at hv
    rw [hv] at h2
    cases h2
  rw [if_neg h2] at h
  by_cases h3 : (bs.any fun t => (testBrush env (positive s.planenum) t).facing &&
      decide ((countSplits env (positive s.planenum) t).1 ≠ 0)) = true
  · rw [if_pos h3] at h; cases h
  rw [if_neg h3] at h
  by_cases h4 : planeValue env bs s > st.value
  · rw [if_pos h4] at h
    cases h
    have hv := hi.1
    refine ⟨⟨by simp only; omega, fun hn => (by cases hn)⟩, ?_, fun hn => (by cases hn)⟩
    intro c hcc
    cases hcc
    exact ⟨rfl, b, hb, s, hs, hc, rfl, by omega⟩
  · rw [if_neg h4] at h
    cases h
    refine ⟨?_, hm, ?_⟩
    · refine ⟨hi.1, ?_⟩
      intro hn
      obtain ⟨e, ht⟩ := hi.2 hn
      refine ⟨e, ?_⟩
      intro n hn'
      rcases List.mem_cons.1 hn' with rfl | hn'
      · exact ⟨b, hb, s, hs, rfl, by rw [e] at h4; omega⟩
      · exact ht n hn'
    · intro hn
      refine ⟨hn, ?_⟩
      intro x hx _ _
      simp only [List.mem_singleton] at hx
      subst hx
      exact ⟨b, hb, s, hs, rfl, by rw [(hi.2 hn).1] at h4; omega⟩

theorem searchPass_found {env : Env K C} {parents : List Nat} {vol : Option (Brush K C)} {bs : List (Brush K C)}
    {pass : Nat} : ∀ (l : List (Brush K C × Side K)), (∀ x ∈ l, x ∈ allSides bs) → ∀ (st st' : Search),
    searchPass env parents vol bs pass l st = .ok st' → Idle env bs st → (∀ c, st.best = some c → Made env bs pass c) →
    Idle env bs st' ∧ (∀ c, st'.best = some c → Made env bs pass c) ∧
      (st'.best = none → st.best = none ∧ AllFail env vol bs pass l) := by
  intro l
  induction l with
  | nil =>
    intro _ st st' h hi hm
    cases h
    exact ⟨hi, hm, fun hn => ⟨hn, fun x hx => by simp at hx⟩⟩
  | cons x l ih =>
    intro hl st st' h hi hm
    obtain ⟨b, s⟩ := x
    obtain ⟨hb, hs⟩ := mem_allSides.1 (hl _ List.mem_cons_self)
    cases e : searchStep env parents vol bs pass st b s with
    | ok st1 =>
      have h' : searchPass env parents vol bs pass l st1 = .ok st' := by
        rw [← h]
        show _ = Outcome.bind (searchStep env parents vol bs pass st b s) _
        rw [e]; rfl
      obtain ⟨a1, a2, a3⟩ := searchStep_found hb hs e hi hm
      obtain ⟨b1, b2, b3⟩ := ih (fun x hx => hl x (List.mem_cons_of_mem _ hx)) st1 st' h' a1 a2
      refine ⟨b1, b2, fun hn => ?_⟩
      obtain ⟨c1, c2⟩ := b3 hn
      obtain ⟨d1, d2⟩ := a3 c1
      refine ⟨d1, ?_⟩
      intro x hx
      rcases List.mem_cons.1 hx with rfl | hx
      · exact d2 _ (by simp)
      · exact c2 x hx
    | error =>
      have : searchPass env parents vol bs pass ((b, s) :: l) st = .error := by
        show Outcome.bind (searchStep env parents vol bs pass st b s) _ = _
        rw [e]; rfl
      rw [this] at h; cases h
    | ub =>
      have : searchPass env parents vol bs pass ((b, s) :: l) st = .ub := by
        show Outcome.bind (searchStep env parents vol bs pass st b s) _ = _
        rw [e]; rfl
      rw [this] at h; cases h

theorem searchPasses_found {env : Env K C} {parents : List Nat} {vol : Option (Brush K C)} {bs : List (Brush K C)} :
    ∀ (ps : List Nat) (st st' : Search), searchPasses env parents vol bs ps st = .ok st' → Idle env bs st →
    st.best = none →
    (st'.best = none → ∀ p ∈ ps, AllFail env vol bs p (allSides bs)) ∧
    ∀ c, st'.best = some c → ∃ ps1 p ps2, ps = ps1 ++ p :: ps2 ∧ Made env bs p c ∧
      ∀ q ∈ ps1, AllFail env vol bs q (allSides bs) := by
  intro ps
  induction ps with
  | nil =>
    intro st st' h hi hn
    cases h
    exact ⟨fun _ p hp => by simp at hp, fun c hc => by rw [hn] at hc; cases hc⟩
  | cons pass ps ih =>
    intro st st' h hi hn
    cases e : searchPass env parents vol bs pass (allSides bs) st with
    | ok st1 =>
      have h' : (if st1.best.isSome then .ok st1 else searchPasses env parents vol bs ps st1) = .ok st' := by
        rw [← h]
        show _ = Outcome.bind (searchPass env parents vol bs pass (allSides bs) st) _
        rw [e]; rfl
      obtain ⟨a1, a2, a3⟩ := searchPass_found (allSides bs) (fun _ h => h) st st1 e hi (fun c hc => by rw [hn] at hc; cases hc)
      cases hb : st1.best with
      | some c0 =>
        rw [hb] at h'
        simp only [Option.isSome_some, if_true] at h'
        cases h'
        refine ⟨fun hn' => absurd (hb.symm.trans hn') (by simp), fun c hc => ?_⟩
        exact ⟨[], pass, ps, rfl, a2 c hc, fun q hq => by simp at hq⟩
      | none =>
        rw [hb] at h'
        simp only [Option.isSome_none, Bool.false_eq_true, if_false] at h'
        obtain ⟨b1, b2⟩ := ih st1 st' h' a1 hb
        have hf := (a3 hb).2
        constructor
        · intro hn' p hp
          rcases List.mem_cons.1 hp with rfl | hp
          · exact hf
          · exact b1 hn' p hp
        · intro c hc
          obtain ⟨ps1, p, ps2, rfl, hm, hq⟩ := b2 c hc
          refine ⟨pass :: ps1, p, ps2, rfl, hm, ?_⟩
          intro q hq'
          rcases List.mem_cons.1 hq' with rfl | hq'
          · exact hf
          · exact hq q hq'
    | error =>
      have : searchPasses env parents vol bs (pass :: ps) st = .error := by
        show Outcome.bind (searchPass env parents vol bs pass (allSides bs) st) _ = _
        rw [e]; rfl
      rw [this] at h; cases h
    | ub =>
      have : searchPasses env parents vol bs (pass :: ps) st = .ub := by
        show Outcome.bind (searchPass env parents vol bs pass (allSides bs) st) _ = _
        rw [e]; rfl
      rw [this] at h; cases h

theorem checkVolume_iff {env : Env K C} {vol : Option (Brush K C)} {n : Nat} :
    checkVolume env vol n = true ↔ CutsVolume env vol n := by
  unfold checkVolume CutsVolume
  cases vol <;> simp

/-- Every usable side is looked at in one of the passes, a structural one in the first two. -/
theorem usable_candidate {env : Env K C} {b : Brush K C} {s : Side K} (h : Usable s) :
    ∃ p, p ∈ [0, 1, 2, 3] ∧ candidate env p b s = true ∧ (env.isDetail b.contents = false → p ∈ [0, 1]) := by
  obtain ⟨h1, h2, h3, h4⟩ := h
  cases hd : env.isDetail b.contents <;> cases hv : s.visible
  · exact ⟨1, by simp, by simp [candidate, h1, h2, h3, h4, hd, hv], by simp⟩
  · exact ⟨0, by simp, by simp [candidate, h1, h2, h3, h4, hd, hv], by simp⟩
  · exact ⟨3, by simp, by simp [candidate, h1, h2, h3, h4, hd, hv], by simp⟩
  · exact ⟨2, by simp, by simp [candidate, h1, h2, h3, h4, hd, hv], by simp⟩

theorem candidate_detail {env : Env K C} {p : Nat} {b : Brush K C} {s : Side K} (h : candidate env p b s = true) :
    env.isDetail b.contents = decide (2 ≤ p) := by
  unfold candidate at h
  simp only [Bool.and_eq_true] at h
  have := h.1.1.1.1.1
  rw [beq_iff_eq] at this
  exact this.symm

/-! ### The value of a plane -/

theorem sum_le {α : Type} (f g : α → Int) : ∀ (l : List α), (∀ x ∈ l, f x ≤ g x) → (l.map f).sum ≤ (l.map g).sum := by
  intro l
  induction l with
  | nil => simp
  | cons a l ih =>
    intro h
    simp only [List.map_cons, List.sum_cons]
    have := h a (by simp)
    have := ih fun x hx => h x (by simp [hx])
    omega

theorem count_le (env : Env K C) (n : Nat) (b : Brush K C) :
    (countSplits env n b).1 ≤ b.sides.length ∧ (countSplits env n b).2.2 ≤ 1 := by
  unfold countSplits
  split
  · simp only
    refine ⟨?_, ?_⟩
    · refine le_trans (List.length_filter_le _ _) ?_
      unfold looked
      exact List.length_filter_le _ _
    · split <;> omega
  · simp

theorem count_hint {env : Env K C} {n : Nat} {b : Brush K C} (h : ∀ s ∈ b.sides, s.hint = false) :
    (countSplits env n b).2.1 = false := by
  unfold countSplits
  split
  · simp only
    rw [List.any_eq_false]
    intro s hs
    have h1 := (List.mem_filter.1 hs).1
    unfold looked at h1
    have h2 := (List.mem_filter.1 h1).1
    simp [h s h2]
  · rfl

theorem sum_one {α : Type} (c : Int) (l : List α) : (l.map fun _ => c).sum = c * l.length := by
  induction l with
  | nil => simp
  | cons a l ih =>
    simp only [List.map_cons, List.sum_cons, ih, List.length_cons]
    push_cast
    ring

theorem value_bound {env : Env K C} {bs : List (Brush K C)} (s : Side K) (hh : ∀ b ∈ bs, ∀ t ∈ b.sides, t.hint = false) :
    -(5 * (bs.map fun b => (b.sides.length : Int)).sum + 1001 * bs.length) ≤ planeValue env bs s := by
  have hhint : (((bs.map (countSplits env (positive s.planenum))).getLast?.map (·.2.1)).getD false) = false := by
    cases e : (bs.map (countSplits env (positive s.planenum))).getLast? with
    | none => rfl
    | some c =>
      have := List.mem_of_getLast? e
      obtain ⟨b, hb, rfl⟩ := List.mem_map.1 this
      simp [count_hint (hh b hb)]
  have hsp : ((bs.map (countSplits env (positive s.planenum))).map fun c => (c.1 : Int)).sum ≤
      (bs.map fun b => (b.sides.length : Int)).sum := by
    rw [List.map_map]
    apply sum_le
    intro b _
    simp only [Function.comp]
    exact_mod_cast (count_le env (positive s.planenum) b).1
  have hep : ((bs.map (countSplits env (positive s.planenum))).map fun c => (c.2.2 : Int)).sum ≤ 1 * (bs.length : Int) := by
    rw [List.map_map, ← sum_one 1 bs]
    apply sum_le
    intro b _
    simp only [Function.comp]
    exact_mod_cast (count_le env (positive s.planenum) b).2
  have hlen : ∀ f : PSide → Bool, (((bs.map (testBrush env (positive s.planenum))).filter f).length : Int) ≤ bs.length := by
    intro f
    have := List.length_filter_le f (bs.map (testBrush env (positive s.planenum)))
    rw [List.length_map] at this
    exact_mod_cast this
  have h1 := hlen (·.front)
  have h2 := hlen (·.back)
  have habs : |(((bs.map (testBrush env (positive s.planenum))).filter (·.front)).length : Int) -
      ((bs.map (testBrush env (positive s.planenum))).filter (·.back)).length| ≤ bs.length := by
    rw [abs_le]
    constructor <;> omega
  unfold planeValue
  simp only [hhint, Bool.false_and, Bool.false_eq_true, if_false]
  split <;> omega

end Verif.BrushBsp
