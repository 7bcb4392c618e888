import Verif.World.Lemmas

/-!
The bodies of the loop run at the same time: the result is the maximum, and they end.
-/

namespace Verif.World

open World.Spec

variable {K : Type} [LinearOrder K]

/-- What holds at all times about one body. -/
def PcOk (es : List (WithBot K)) (shared e : WithBot K) : Pc K → Prop
  | .start => True
  | .got be => e ≤ be ∧ be ∈ es
  | .trying cur be => e ≤ be ∧ be ∈ es ∧ cur ≤ shared
  | .done => e ≤ shared

structure Inv (es : List (WithBot K)) (s : St K) : Prop where
  len : s.pcs.length = es.length
  from_ : s.shared = ⊥ ∨ s.shared ∈ es
  pcs : ∀ (i : Nat) (p : Pc K) (e : WithBot K), s.pcs[i]? = some p → es[i]? = some e → PcOk es s.shared e p

theorem PcOk.mono {es : List (WithBot K)} {a b e : WithBot K} (h : a ≤ b) {p : Pc K} (hp : PcOk es a e p) :
    PcOk es b e p := by
  cases p with
  | start => trivial
  | got be => exact hp
  | trying cur be => exact ⟨hp.1, hp.2.1, le_trans hp.2.2 h⟩
  | done => exact le_trans hp h

theorem inv_init (es : List (WithBot K)) : Inv es (init (K := K) es.length) where
  len := by simp [init]
  from_ := Or.inl rfl
  pcs i p e h _ := by
    simp only [init, List.getElem?_replicate] at h
    split at h
    · cases h; trivial
    · cases h

theorem inv_set {es : List (WithBot K)} {s : St K} (h : Inv es s) {i : Nat} {p : Pc K} {sh : WithBot K}
    (hle : s.shared ≤ sh) (hsh : sh = ⊥ ∨ sh ∈ es) (hp : ∀ e, es[i]? = some e → PcOk es sh e p) :
    Inv es ⟨sh, s.pcs.set i p⟩ where
  len := by simp [h.len]
  from_ := hsh
  pcs j p' e hj he := by
    rcases eq_or_ne i j with rfl | hij
    · rw [List.getElem?_set] at hj
      simp only [if_true] at hj
      split at hj
      · cases hj; exact hp e he
      · cases hj
    · rw [List.getElem?_set_ne hij] at hj
      exact (h.pcs j p' e hj he).mono hle

theorem at_ {es : List (WithBot K)} {s : St K} (h : Inv es s) {i : Nat} {p : Pc K} (hp : s.pcs[i]? = some p) :
    ∃ e, es[i]? = some e ∧ PcOk es s.shared e p := by
  have hi : i < es.length := by rw [← h.len]; exact (List.getElem?_eq_some_iff.1 hp).1
  exact ⟨es[i], List.getElem?_eq_getElem hi, h.pcs i p _ hp (List.getElem?_eq_getElem hi)⟩

theorem inv_step {es : List (WithBot K)} {s t : St K} (h : Inv es s) (hs : Step es s t ∨ Spurious s t) : Inv es t := by
  rcases hs with hs | hs
  · cases hs with
    | load i e hp he =>
      refine inv_set h (le_refl _) h.from_ ?_
      intro e' he'
      rw [he] at he'
      cases he'
      refine ⟨le_max_right _ _, ?_⟩
      rcases max_choice s.shared e with h1 | h1
      · rw [h1]
        rcases h.from_ with h2 | h2
        · have : e = ⊥ := by
            have h3 : e ≤ s.shared := by rw [← h1]; exact le_max_right _ _
            rw [h2] at h3
            exact le_bot_iff.1 h3
          rw [h2, ← this]
          exact List.mem_of_getElem? he
        · exact h2
      · rw [h1]; exact List.mem_of_getElem? he
    | read i be hp =>
      refine inv_set h (le_refl _) h.from_ ?_
      intro e he
      obtain ⟨e', he', h1, h2⟩ := at_ h hp
      rw [he] at he'
      cases he'
      exact ⟨h1, h2, le_refl _⟩
    | leave i cur be hp hlt =>
      refine inv_set h (le_refl _) h.from_ ?_
      intro e he
      obtain ⟨e', he', h1, h2, h3⟩ := at_ h hp
      rw [he] at he'
      cases he'
      exact le_trans h1 (le_trans (not_lt.1 hlt) h3)
    | swap i cur be hp hlt hsh =>
      obtain ⟨e', he', h1, h2, h3⟩ := at_ h hp
      refine inv_set h (by rw [hsh]; exact le_of_lt hlt) (Or.inr h2) ?_
      intro e he
      rw [he] at he'
      cases he'
      exact h1
    | fail i cur be hp hlt hsh =>
      refine inv_set h (le_refl _) h.from_ ?_
      intro e he
      obtain ⟨e', he', h1, h2, h3⟩ := at_ h hp
      rw [he] at he'
      cases he'
      exact ⟨h1, h2, le_refl _⟩
  · cases hs with
    | fail i cur be hp hlt hsh =>
      refine inv_set h (le_refl _) h.from_ ?_
      intro e he
      obtain ⟨e', he', h1, h2, h3⟩ := at_ h hp
      rw [he] at he'
      cases he'
      exact ⟨h1, h2, le_refl _⟩

theorem inv_run {es : List (WithBot K)} {s t : St K} (h : Inv es s) (hr : Run es s t) : Inv es t := by
  induction hr with
  | refl => exact h
  | step _ h1 ih => exact inv_step ih h1

theorem inv_end {es : List (WithBot K)} {s : St K} (h : Inv es s) (he : Ended s) : IsMax es s.shared := by
  refine ⟨?_, h.from_⟩
  intro e hm
  obtain ⟨i, hi, rfl⟩ := List.mem_iff_getElem.1 hm
  have hi' : i < s.pcs.length := by rw [h.len]; exact hi
  have h1 := h.pcs i s.pcs[i] es[i] (List.getElem?_eq_getElem hi') (List.getElem?_eq_getElem hi)
  rw [he _ (List.getElem_mem hi')] at h1
  exact h1

/-- How far the body is from its end. -/
def weight : Pc K → Nat
  | .start => 3
  | .got _ => 2
  | .trying _ _ => 1
  | .done => 0

/-- The value that is expected is an old one. -/
def stale (shared : WithBot K) : Pc K → Nat
  | .trying cur _ => if shared = cur then 0 else 1
  | _ => 0

theorem sum_set {A : Type} (w : A → Nat) (l : List A) (i : Nat) (a b : A) (h : l[i]? = some a) :
    ((l.set i b).map w).sum + w a = (l.map w).sum + w b := by
  induction l generalizing i with
  | nil => simp at h
  | cons c l ih =>
    cases i with
    | zero =>
      simp only [List.getElem?_cons_zero, Option.some.injEq] at h
      subst h
      simp only [List.set_cons_zero, List.map_cons, List.sum_cons]
      omega
    | succ i =>
      simp only [List.getElem?_cons_succ] at h
      have := ih i h
      simp only [List.set_cons_succ, List.map_cons, List.sum_cons]
      omega

/-- Without spurious failures, all runs end. -/
theorem step_wf (es : List (WithBot K)) : WellFounded fun t s : St K => Step es s t := by
  let f : St K → Nat × Nat := fun s => ((s.pcs.map weight).sum, (s.pcs.map (stale s.shared)).sum)
  have hwf : WellFounded (InvImage (Prod.Lex (· < ·) (· < ·)) f) :=
    InvImage.wf f (WellFounded.prod_lex Nat.lt_wfRel.wf Nat.lt_wfRel.wf)
  refine Subrelation.wf ?_ hwf
  intro t s h
  show Prod.Lex (· < ·) (· < ·) (f t) (f s)
  cases h with
  | load i e hp he =>
    left
    have := sum_set weight s.pcs i _ (.got (max s.shared e)) hp
    simp only [weight] at this ⊢
    omega
  | read i be hp =>
    left
    have := sum_set weight s.pcs i _ (.trying s.shared be) hp
    simp only [weight] at this ⊢
    omega
  | leave i cur be hp hlt =>
    left
    have := sum_set weight s.pcs i _ .done hp
    simp only [weight] at this ⊢
    omega
  | swap i cur be hp hlt hsh =>
    left
    have := sum_set weight s.pcs i _ .done hp
    simp only [weight] at this ⊢
    omega
  | fail i cur be hp hlt hsh =>
    have h1 := sum_set weight s.pcs i _ (.trying s.shared be) hp
    have h2 := sum_set (stale s.shared) s.pcs i _ (.trying s.shared be) hp
    have e1 : ((s.pcs.set i (.trying s.shared be)).map weight).sum = (s.pcs.map weight).sum := by
      simp only [weight] at h1
      omega
    simp only [f]
    rw [e1]
    right
    simp only [stale, if_true, if_neg hsh] at h2
    omega

/-- A body that has not ended can always make a step. -/
theorem step_possible {es : List (WithBot K)} {s : St K} (h : Inv es s) {i : Nat} {p : Pc K} (hp : s.pcs[i]? = some p)
    (hn : p ≠ .done) : ∃ t, Step es s t := by
  cases p with
  | start =>
    obtain ⟨e, he, _⟩ := at_ h hp
    exact ⟨_, .load s i e hp he⟩
  | got be => exact ⟨_, .read s i be hp⟩
  | trying cur be =>
    by_cases hlt : cur < be
    · by_cases hs : s.shared = cur
      · exact ⟨_, .swap s i cur be hp hlt hs⟩
      · exact ⟨_, .fail s i cur be hp hlt hs⟩
    · exact ⟨_, .leave s i cur be hp hlt⟩
  | done => exact absurd rfl hn

end Verif.World
